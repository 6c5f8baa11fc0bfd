import Verif.Props.Trade
/-
Properties C71–C72: renting, offers, subscription terms, consents and timers.
-/
variable {c : Cfg} {w w' : World} {a : AccountId}
set_option maxRecDepth 10000

namespace Spec

/-- the rent in tokens -/
def rentOf : RentFee → Balance
  | .tokens x => x
  | .nft _ => 0

/-- `a` can give NFT `m` away: it is theirs, in nobody's use, and not soulbound -/
def CanGive (w : World) (a : AccountId) (m : NFTId) : Prop :=
  ∃ d, w.nfts.get m = some d ∧ d.owner = a ∧ Spec.Free w m ∧ Spec.Synced d ∧ d.st.soulbound = false

/-- `a` can pay what the contract asks of a rentee, and the renter can receive it -/
structure Affords (c : Cfg) (w : World) (a : AccountId) (k : Contract) : Prop where
  pay : Spec.CanPay c w a (rentOf k.rentFee + Spec.tokensOf k.renteeFee)
  get : Spec.CanGet c w k.renter (rentOf k.rentFee)
  nft : ∀ m, k.rentFee = .nft m ∨ Spec.nftOf k.renteeFee = some m → Spec.CanGive w a m

/-- `a` may rent: it is not the renter, and on the allow list if there is one -/
def Admits (k : Contract) (a : AccountId) : Prop :=
  a ≠ k.renter ∧ match k.acceptance with
    | .auto l => ∀ x, l = some x → a ∈ x
    | .manual l => ∀ x, l = some x → a ∈ x

end Spec

theorem Spec.rentOf_eq (f : RentFee) : Spec.rentOf f = RentM.rentTokens f := by cases f <;> rfl

theorem Spec.Admits.iff {k : Contract} : Spec.Admits k a ↔ k.renter ≠ a ∧ RentM.admitted k.acceptance a := by
  unfold Spec.Admits RentM.admitted RentM.allowList
  cases k.acceptance <;> simp [eq_comm, Option.mem_def]

theorem Spec.CanGive.valid (hc : c.Ok) (hr : Reach c w) {m : NFTId} (h : Spec.CanGive w a m) :
    ∃ d, w.nfts.get m = some d ∧ d.owner = a ∧ RentM.valid d.st = true := by
  obtain ⟨d, h1, h2, h3, ⟨h4, h5⟩, h6⟩ := h
  obtain ⟨e1, e2, e3, e4⟩ := h3.flags hc hr h1
  exact ⟨d, h1, h2, by simp [RentM.valid, e1, e2, e3, e4, h4, h5, h6]⟩

theorem RentM.checkNft_pass {m : Option NFTId}
    (h : ∀ x, m = some x → ∃ d, w.nfts.get x = some d ∧ d.owner = a ∧ RentM.valid d.st = true) :
    RentM.checkNft w a m = .ok () := by
  cases m with
  | none => rfl
  | some x =>
    obtain ⟨d, h1, h2, h3⟩ := h x rfl
    simp [RentM.checkNft, h1, h2, h3, getOr, require, bind, Except.bind]

theorem RentM.chownOpt_pass {m : Option NFTId} (h : ∀ x, m = some x → w.nfts.get x ≠ none) (r : AccountId) :
    (RentM.chownOpt m r).ext w = .ok { w with nfts := RentM.cho w.nfts m r } := by
  cases m with
  | none => rfl
  | some x =>
    obtain ⟨d, hd⟩ := Option.ne_none_iff_exists'.1 (h x rfl)
    simp [RentM.chownOpt, RentM.chownAct, Act.ext, hd, RentM.cho, World.putNft]

/-- starting a contract nobody rents yet is possible for whoever affords it -/
theorem Spec.Affords.start (hc : c.Ok) (hr : Reach c w) {n : NFTId} {k : Contract}
    (hk : w.rent.contracts.get n = some k) (hn : k.rentee = none) (h : Spec.Affords c w a k) :
    ∃ w', RentM.startContract c w n k a = .ok w' ∧
      w'.rent.contracts.get n = some { k with rentee := some a, start := some w.now } := by
  have hq := (hr.inv hc).rent.q
  obtain ⟨hpay, hget, hnft⟩ := h
  have ham := (hq.con n k hk).amount2
  rw [Spec.rentOf_eq, Spec.tokensOf_eq] at hpay
  rw [Spec.rentOf_eq] at hget
  rw [Spec.canPay_iff] at hpay
  obtain ⟨b1, t1⟩ := Bal.transfer_pays (b := w.bal) (s := a) (d := k.renter) (ed := c.ed)
    (v := RentM.rentTokens k.rentFee) (by omega) (hget.imp_right Or.inr)
  have hleft := Bal.transfer_left_pays hpay t1
  obtain ⟨b2, t2⟩ := Bal.transfer_pays (d := c.rentPot) hleft (by omega)
  have h1 : ∀ x, RentM.rentNft k.rentFee = some x →
      ∃ d, w.nfts.get x = some d ∧ d.owner = a ∧ RentM.valid d.st = true := by
    intro x hx
    refine (hnft x (Or.inl ?_)).valid hc hr
    cases hf : k.rentFee <;> simp [RentM.rentNft, hf] at hx
    rw [hx]
  have h2 : ∀ x, RentM.feeNft k.renteeFee = some x →
      ∃ d, w.nfts.get x = some d ∧ d.owner = a ∧ RentM.valid d.st = true := by
    intro x hx
    exact (hnft x (Or.inr (by rw [Spec.nftOf_eq]; exact hx))).valid hc hr
  obtain ⟨r', hr'⟩ := hq.insert_room hk hn (w.now + RentM.period k.duration)
  have c1 := RentM.checkNft_pass (w := w.putBal b2) h1
  have c2 := RentM.checkNft_pass (w := w.putBal b2) h2
  have c3 := RentM.chownOpt_pass (w := w.putBal b2) (m := RentM.rentNft k.rentFee)
    (fun x hx => by obtain ⟨d, hd, _⟩ := h1 x hx; simp [World.putBal, hd]) k.renter
  have c4 := RentM.chownOpt_pass
    (w := { w.putBal b2 with
      nfts := RentM.cho (w.putBal b2).nfts (RentM.rentNft k.rentFee) k.renter })
    (m := RentM.feeNft k.renteeFee)
    (fun x hx => by
      obtain ⟨d, hd, _⟩ := h2 x hx
      simp only [World.putBal, RentM.get_cho]
      split <;> simp [hd]) c.rentPot
  have htk : RentM.takeFees c w a k = .ok { w.putBal b2 with
      nfts := RentM.cho (RentM.cho (w.putBal b2).nfts (RentM.rentNft k.rentFee) k.renter) (RentM.feeNft k.renteeFee)
        c.rentPot } := by
    simp only [RentM.takeFees, t1, t2, c1, c2, c3, c4, mapErr, bind, Except.bind]
  simp only [RentM.startContract, htk, bind, Except.bind, World.putBal, hr', getOr, pure, Except.pure]
  exact ⟨_, rfl, FMap.get_insert_self ..⟩

/- C71 -/

section
variable (hc : c.Ok) (hr : Reach c w) {n : NFTId} {k : Contract} (hk : w.rent.contracts.get n = some k)
  (hn : k.rentee = none)
include hc hr hk hn

/-- A contract with automatic acceptance can be rented at once by everybody it admits who affords it. -/
theorem C71_rent (hm : ∃ l, k.acceptance = .auto l) (ha : Spec.Admits k a) (hp : Spec.Affords c w a k) :
    ∃ w', dispatch c (.rent (.rent n k.creation)) (.signed a) w = .ok w' ∧
      w'.rent.contracts.get n = some { k with rentee := some a, start := some w.now } := by
  obtain ⟨w', h1, h2⟩ := hp.start hc hr hk hn
  obtain ⟨l, hl⟩ := hm
  obtain ⟨a1, a2⟩ := Spec.Admits.iff.1 ha
  refine ⟨w', ?_, h2⟩
  split_ok [RentM.call, RentM.rent]
  exact ⟨k, hk, rfl, hn, a1, by simp [RentM.isManual, hl], a2, h1⟩

/-- A contract with manual acceptance takes one offer from everybody it admits who affords it, as long as
there is room for offers; nothing else changes. -/
theorem C71_offer (hm : ∃ l, k.acceptance = .manual l) (ha : Spec.Admits k a) (hp : Spec.Affords c w a k)
    (h1 : a ∉ (w.rent.offers.get n).getD []) (h2 : ((w.rent.offers.get n).getD []).length < c.rentAccounts) :
    dispatch c (.rent (.makeOffer n k.creation)) (.signed a) w = .ok { w with
      rent := { w.rent with offers := w.rent.offers.insert n ((w.rent.offers.get n).getD [] ++ [a]) }
      evs := .offerMade n a :: w.evs } := by
  obtain ⟨l, hl⟩ := hm
  obtain ⟨a1, a2⟩ := Spec.Admits.iff.1 ha
  obtain ⟨hpay, hget, hnft⟩ := hp
  rw [Spec.rentOf_eq, Spec.tokensOf_eq] at hpay
  rw [Spec.canPay_iff] at hpay
  have hst : k.start = none := ((hr.inv hc).rent.q.con n k hk).start.2 hn
  have g1 : ∀ x, RentM.rentNft k.rentFee = some x →
      ∃ d, w.nfts.get x = some d ∧ d.owner = a ∧ RentM.valid d.st = true := by
    intro x hx
    refine (hnft x (Or.inl ?_)).valid hc hr
    cases hf : k.rentFee <;> simp [RentM.rentNft, hf] at hx
    rw [hx]
  have g2 : ∀ x, RentM.feeNft k.renteeFee = some x →
      ∃ d, w.nfts.get x = some d ∧ d.owner = a ∧ RentM.valid d.st = true := by
    intro x hx
    exact (hnft x (Or.inr (by rw [Spec.nftOf_eq]; exact hx))).valid hc hr
  have hmod := Nat.mod_le (RentM.rentTokens k.rentFee + RentM.feeTokens k.renteeFee) (U128MAX + 1)
  split_ok [RentM.call, RentM.makeOffer]
  exact ⟨h1, k, hk, rfl, hst, a1, by simp [RentM.isManual, hl], a2, ⟨by omega, Or.inr (by omega)⟩,
    ⟨by omega, Or.inr (by omega)⟩, ⟨by omega, Or.inr (by omega)⟩, Exec.mapErr_ok.2 (RentM.checkNft_pass g1),
    Exec.mapErr_ok.2 (RentM.checkNft_pass g2), h2, rfl⟩

/-- The renter can accept each offer on record whose author still affords it. -/
theorem C71_accept {l : List AccountId} (hl : w.rent.offers.get n = some l) (ha : a ∈ l)
    (hp : Spec.Affords c w a k) :
    ∃ w', dispatch c (.rent (.acceptOffer n a)) (.signed k.renter) w = .ok w' ∧
      w'.rent.contracts.get n = some { k with rentee := some a, start := some w.now } := by
  obtain ⟨w', h1, h2⟩ := hp.start hc hr hk hn
  refine ⟨w', ?_, h2⟩
  split_ok [RentM.call, RentM.acceptOffer]
  exact ⟨k, hk, l, hl, rfl, ha, h1⟩

end

/-- The renter of an adjustable subscription can propose new terms within the rules at any time; offers
made on the old terms are void. -/
theorem C71_change {n : NFTId} {k : Contract} {s : Subscription} (hk : w.rent.contracts.get n = some k)
    (hs : k.duration = .sub s) (hch : s.changeable = true) {fee : Balance} {p : Block} {m : Option Block}
    {ch : Bool} (hp : 0 < p ∧ p ≤ c.rentMaxDur) (hm : 0 < m.getD c.rentMaxDur ∧ m.getD c.rentMaxDur ≤ c.rentMaxDur) :
    ∃ o, dispatch c (.rent (.changeTerms n fee p m ch)) (.signed k.renter) w = .ok { w with
        rent := { w.rent with
          contracts := w.rent.contracts.insert n { k with
            rentFee := .tokens fee
            duration := .sub ⟨p, m.getD c.rentMaxDur, ch, true⟩ }
          offers := o } } ∧
      (k.rentee = none → o.get n = none) ∧ ∀ i, i ≠ n → o.get i = w.rent.offers.get i := by
  refine ⟨if k.rentee.isSome then w.rent.offers else w.rent.offers.erase n, ?_, fun h => ?_, fun i hi => ?_⟩
  · eval_ok [RentM.call, RentM.changeTerms, hk, RentM.canAdjust, hs, hch, hp.1, hp.2, hm.1, hm.2]
  · simp [h]
  · split
    · rfl
    · exact FMap.get_erase_ne _ hi

/-- The rentee can accept exactly the terms proposed, and the subscription goes on with them. -/
theorem C71_terms {n : NFTId} {k : Contract} {s : Subscription} (hk : w.rent.contracts.get n = some k)
    (hs : k.duration = .sub s) (hn : s.newTerms = true) (ha : k.rentee = some a) {fee : Balance}
    (hf : k.rentFee = .tokens fee) :
    dispatch c (.rent (.acceptTerms n fee s.period (some s.maxDur) s.changeable)) (.signed a) w = .ok { w with
        rent := { w.rent with
          contracts := w.rent.contracts.insert n { k with duration := .sub { s with newTerms := false } } } } := by
  eval_ok [RentM.call, RentM.acceptTerms, hk, hs, hn, ha, hf]

/- cases -/

/-- account 1 offers NFT 0 for a fixed duration to accounts 2 and 3, with deposits, automatically -/
abbrev vacant : List Op :=
  [Demo.mint1, Demo.by_ 1 (.rent (.create 0 (.fixed 10) (.auto (some [2, 3])) true (.tokens 100)
    (.fixed 200) (.flexible 300)))]

/-- the same with manual acceptance; the deposit is NFT 1 of account 2 -/
abbrev askable : List Op :=
  [Demo.mint1, Demo.by_ 2 (.nft (.createNft [1] .zero none false)),
   Demo.by_ 1 (.rent (.create 0 (.fixed 10) (.manual (some [2, 3])) true (.tokens 100)
    (.fixed 200) (.nft 1)))]

example : ∃ w', dispatch Demo.cfg (.rent (.rent 0 0)) (.signed 2) (Demo.at_ vacant) = .ok w' := by
  have ⟨w', h, _⟩ := C71_rent (a := 2) (n := 0) Demo.cfg_ok (Demo.reach vacant (by decide))
    (k := ⟨none, 1, none, .fixed 10, .auto (some [2, 3]), true, .tokens 100, .fixed 200, .flexible 300, 0⟩)
    rfl rfl ⟨_, rfl⟩ ⟨by decide, by simp⟩
    ⟨by unfold Spec.CanPay; decide, by unfold Spec.CanGet; decide, by simp [Spec.nftOf]⟩
  exact ⟨w', h⟩

/-- the contract of `askable` -/
abbrev askedFor : Contract :=
  ⟨none, 1, none, .fixed 10, .manual (some [2, 3]), true, .tokens 100, .fixed 200, .nft 1, 0⟩

/-- account 2 owns NFT 1 and can part with it -/
theorem askable_affords {l : List Op} (hl : l = askable ∨ l = askable ++ [Demo.by_ 2 (.rent (.makeOffer 0 0))]) :
    Spec.Affords Demo.cfg (Demo.at_ l) 2 askedFor := by
  rcases hl with rfl | rfl <;>
  exact ⟨by unfold Spec.CanPay; decide, by unfold Spec.CanGet; decide, by
    rintro m (h | h) <;> simp [Spec.nftOf] at h
    subst h
    exact ⟨_, rfl, rfl, ⟨rfl, rfl, rfl, rfl, rfl⟩, ⟨rfl, rfl⟩, rfl⟩⟩

example : ∃ w', dispatch Demo.cfg (.rent (.makeOffer 0 0)) (.signed 2) (Demo.at_ askable) = .ok w' :=
  ⟨_, C71_offer (n := 0) (k := askedFor) Demo.cfg_ok (Demo.reach askable (by decide)) rfl rfl ⟨_, rfl⟩
    ⟨by decide, by simp⟩ (askable_affords (Or.inl rfl)) (by decide) (by decide)⟩

example : ∃ w', dispatch Demo.cfg (.rent (.acceptOffer 0 2)) (.signed 1)
    (Demo.at_ (askable ++ [Demo.by_ 2 (.rent (.makeOffer 0 0))])) = .ok w' := by
  have ⟨w', h, _⟩ := C71_accept (n := 0) (k := askedFor) (a := 2) (l := [2]) Demo.cfg_ok
    (Demo.reach (askable ++ [Demo.by_ 2 (.rent (.makeOffer 0 0))]) (by decide)) rfl rfl rfl (by decide)
    (askable_affords (Or.inr rfl))
  exact ⟨w', h⟩

/-- account 1 has proposed new terms to its subscriber, account 2 -/
abbrev proposed : List Op := subscribed ++ [Demo.by_ 1 (.rent (.changeTerms 0 150 6 (some 40) true))]

example : ∃ w', dispatch Demo.cfg (.rent (.changeTerms 0 150 6 (some 40) true)) (.signed 1)
    (Demo.at_ subscribed) = .ok w' := by
  have ⟨_, h, _⟩ := C71_change (c := Demo.cfg) (w := Demo.at_ subscribed) (n := 0) (s := ⟨5, 50, true, false⟩)
    (k := ⟨some 0, 1, some 2, .sub ⟨5, 50, true, false⟩, .auto none, true, .tokens 100, .fixed 200, .fixed 300, 0⟩)
    (fee := 150) (p := 6) (m := some 40) (ch := true) rfl rfl rfl (by decide) (by decide)
  exact ⟨_, h⟩

example : ∃ w', dispatch Demo.cfg (.rent (.acceptTerms 0 150 6 (some 40) true)) (.signed 2)
    (Demo.at_ proposed) = .ok w' :=
  ⟨_, C71_terms (c := Demo.cfg) (w := Demo.at_ proposed) (n := 0) (s := ⟨6, 40, true, true⟩) (fee := 150)
    (k := ⟨some 0, 1, some 2, .sub ⟨6, 40, true, true⟩, .auto none, true, .tokens 150, .fixed 200, .fixed 300, 0⟩)
    rfl rfl rfl rfl rfl⟩

/- C72 -/

section
variable (hc : c.Ok) (hr : Reach c w) {n : NFTId} {x : Transmission} {d : NFTData}
  (hx : w.tr.trans.get n = some x) (hd : w.nfts.get n = some d)
include hc hr hx hd

/-- The owner can postpone or bring forward a resettable transmission to every block within the limit: the
schedule then names the new block, and no other entry changes. -/
theorem C72_reset {e b : Block} (hp : x.protocol = .atBlockWithReset e) (h1 : w.now < b)
    (h2 : b ≤ w.now + c.trMaxDur) :
    ∃ q, dispatch c (.tr (.resetTimer n b)) (.signed d.owner) w = .ok { w with
        tr := { w.tr with
          queue := q
          trans := w.tr.trans.insert n { x with protocol := .atBlockWithReset b } } } ∧
      ∀ m z, (m, z) ∈ q ↔ if m = n then z = b else (m, z) ∈ w.tr.queue := by
  have g := ((hr.inv hc).good n).nft d hd
  have ht := (hr.inv hc).tr
  have hf : d.st.transmission = true := g.trans.2 (by simp [slice, hx])
  obtain ⟨q, hq⟩ := Queue.update_no_panic (lim := c.trLimit) (n := n) (b := b) ht.len
  have hm : n ∈ w.tr.queue.ids := Queue.mem_ids.2 ⟨e, ht.mem n x e hx (by rw [hp]; rfl)⟩
  refine ⟨q, ?_, fun m z => ?_⟩
  · eval_ok [TrM.call, TrM.resetTimer, hd, hf, hx, hp, TrM.canReset, h1, hq, show b - w.now ≤ c.trMaxDur by omega]
  · rcases Queue.update_ok hq with ⟨h, _⟩ | ⟨_, rfl⟩
    · exact absurd hm h
    · rw [Queue.mem_ins, Queue.mem_remove ht.wf]
      by_cases e : m = n <;> simp [e]

variable {l : List AccountId} {t : Nat} (hp : Spec.consentOf x.protocol = some (l, t)) (ha : a ∈ l)
  (hn : a ∉ consentsSince n w.evs)
include hp ha hn

omit hd in
theorem consent_open (hl : (consentsSince n w.evs).length < t) :
    ∃ old, old = (w.tr.consents.get n).getD [] ∧ consentsSince n w.evs = old.reverse ∧
      w.tr.queue.find n = none ∧ a ∉ old ∧ old.length < c.trConsents := by
  rw [Spec.consentOf_eq] at hp
  have h := hr.trHist hc n x (l, t) hx hp
  have hq : n ∉ Queue.ids w.tr.queue := fun hq => by have := (h.2 hq).2.2; simp at this; omega
  have e := h.1 hq
  have pr := (hr.inv hc).tr.proto n x (l, t) hx hp
  refine ⟨_, rfl, e, Queue.find_none.2 hq, ?_, ?_⟩
  · rw [e] at hn; simpa using hn
  · rw [e] at hl; simp at hl pr; omega

/-- Every listed account can consent once.  A consent that does not reach the threshold is recorded and
changes nothing else. -/
theorem C72_consent (hl : (consentsSince n w.evs).length + 1 < t) :
    ∃ s, dispatch c (.tr (.addConsent n)) (.signed a) w = .ok { w with
        tr := { w.tr with consents := w.tr.consents.insert n s }
        evs := .consentAdded n a :: w.evs } ∧
      s = (consentsSince n w.evs).reverse ++ [a] := by
  have hf : d.st.transmission = true := (((hr.inv hc).good n).nft d hd).trans.2 (by simp [slice, hx])
  obtain ⟨old, ho, h1, h2, h3, h4⟩ := consent_open hc hr hx hp ha hn (by omega)
  rw [Spec.consentOf_eq] at hp
  have hl' : old.length + 1 < t := by rw [h1] at hl; simpa using hl
  refine ⟨old ++ [a], ?_, by simp [h1]⟩
  eval_ok [TrM.call, TrM.addConsent, hd, hf, hx, hp, h2, ha, ← ho, h3, h4, TrM.consentEffect, hl', World.ev]

/-- The consent that reaches the threshold of a protocol without a block, or whose block has passed, delivers
the NFT to the recipient at once. -/
theorem C72_deliver (hl : (consentsSince n w.evs).length + 1 = t)
    (hb : ∀ e, Spec.blockOf x.protocol = some e → e ≤ w.now) :
    dispatch c (.tr (.addConsent n)) (.signed a) w = .ok { w with
      nfts := w.nfts.insert n { d with owner := x.recipient, st := { d.st with transmission := false } }
      tr := { w.tr with trans := w.tr.trans.erase n, consents := w.tr.consents.erase n }
      evs := .transmitted n :: .consentAdded n a :: w.evs } := by
  have hf : d.st.transmission = true := (((hr.inv hc).good n).nft d hd).trans.2 (by simp [slice, hx])
  obtain ⟨old, ho, h1, h2, h3, h4⟩ := consent_open hc hr hx hp ha hn (by omega)
  rw [Spec.consentOf_eq] at hp
  have hl' : ¬ old.length + 1 < t := by rw [h1] at hl; simp at hl; omega
  rw [Spec.blockOf_eq] at hb
  rcases he : TrM.endBlock x.protocol with _ | e
  · eval_ok [TrM.call, TrM.addConsent, hd, hf, hx, hp, h2, ha, ← ho, h3, h4, TrM.consentEffect, hl', he,
      TrM.transmit, World.putNft, World.ev]
  · eval_ok [TrM.call, TrM.addConsent, hd, hf, hx, hp, h2, ha, ← ho, h3, h4, TrM.consentEffect, hl', he,
      hb e he, TrM.transmit, World.putNft, World.ev]

/-- What holds of scheduling by consent: while there is room in the schedule, the consent that reaches the
threshold before the protocol's block schedules the NFT for that block.  Missing: without room the call
fails, see `C72_fails`. -/
theorem C72_schedule_partial (hl : (consentsSince n w.evs).length + 1 = t) {e : Block}
    (hb : Spec.blockOf x.protocol = some e) (he : w.now < e) (hroom : w.tr.queue.length < c.trLimit) :
    ∃ q, dispatch c (.tr (.addConsent n)) (.signed a) w = .ok { w with
        tr := { w.tr with queue := q, consents := w.tr.consents.erase n }
        evs := .consentAdded n a :: w.evs } ∧
      ∀ y, y ∈ q ↔ y = (n, e) ∨ y ∈ w.tr.queue := by
  have hf : d.st.transmission = true := (((hr.inv hc).good n).nft d hd).trans.2 (by simp [slice, hx])
  obtain ⟨old, ho, h1, h2, h3, h4⟩ := consent_open hc hr hx hp ha hn (by omega)
  rw [Spec.consentOf_eq] at hp
  have hl' : ¬ old.length + 1 < t := by rw [h1] at hl; simp at hl; omega
  rw [Spec.blockOf_eq] at hb
  refine ⟨Queue.ins n e w.tr.queue, ?_, fun y => Queue.mem_ins⟩
  eval_ok [TrM.call, TrM.addConsent, hd, hf, hx, hp, h2, ha, ← ho, h3, h4, TrM.consentEffect, hl', hb,
      show ¬ e ≤ w.now by omega, TrM.enqueue, show w.tr.queue.length + 1 ≤ c.trLimit by omega,
      Queue.insert_of_lt hroom, World.ev]

end

/-- ten NFTs with timed transmissions fill the schedule; account 3 has consented for NFT 10 -/
abbrev crowded : List Op :=
  List.replicate 11 Demo.mint1 ++
  Demo.by_ 1 (.tr (.set 10 2 (.onConsentAtBlock [3, 4, 5] 2 50) .none)) ::
  Demo.by_ 3 (.tr (.addConsent 10)) ::
  (List.range 10).map fun n => Demo.by_ 1 (.tr (.set n 2 (.atBlock 60) .none))

/-- The consent that completes a transmission can be refused for as long as other people's transmissions
fill the schedule. -/
theorem C72_fails : ∃ c w n x d l t a e, c.Ok ∧ Reach c w ∧ w.tr.trans.get n = some x ∧
    w.nfts.get n = some d ∧ x.protocol = .onConsentAtBlock l t e ∧ a ∈ l ∧ a ∉ consentsSince n w.evs ∧
    (consentsSince n w.evs).length + 1 = t ∧ w.now < e ∧
    (dispatch c (.tr (.addConsent n)) (.signed a) w).isOk = false :=
  ⟨Demo.cfg, Demo.at_ crowded, 10, _, _, [3, 4, 5], 2, 4, 50, Demo.cfg_ok, Demo.reach _ (by decide), rfl,
    rfl, rfl, by decide, by decide, by decide, by decide, by decide⟩

/-- a resettable transmission of NFT 0 to account 2 -/
abbrev resettable : List Op := [Demo.mint1, Demo.by_ 1 (.tr (.set 0 2 (.atBlockWithReset 20) .none))]

example : ∃ w', dispatch Demo.cfg (.tr (.resetTimer 0 40)) (.signed 1) (Demo.at_ resettable) = .ok w' := by
  have ⟨_, h, _⟩ := C72_reset (c := Demo.cfg) (n := 0) (d := { fresh with st := { fresh.st with transmission := true } })
    (x := ⟨2, .atBlockWithReset 20, .none⟩) (b := 40) Demo.cfg_ok (Demo.reach resettable (by decide)) rfl rfl rfl
    (by decide) (by decide)
  exact ⟨_, h⟩

example : ∃ w', dispatch Demo.cfg (.tr (.addConsent 0)) (.signed 3) (Demo.at_ agreed) = .ok w' := by
  have ⟨_, h, _⟩ := C72_consent (c := Demo.cfg) (n := 0) (l := [3, 4, 5]) (t := 2) (a := 3) Demo.cfg_ok
    (Demo.reach agreed (by decide)) rfl rfl rfl (by decide) (by decide) (by decide)
  exact ⟨_, h⟩

example : ∃ w', dispatch Demo.cfg (.tr (.addConsent 0)) (.signed 5)
    (Demo.at_ (agreed ++ [Demo.by_ 3 (.tr (.addConsent 0))])) = .ok w' := by
  have ⟨_, h, _⟩ := C72_schedule_partial (c := Demo.cfg) (n := 0) (l := [3, 4, 5]) (t := 2) (a := 5) (e := 3)
    Demo.cfg_ok (Demo.reach (agreed ++ [Demo.by_ 3 (.tr (.addConsent 0))]) (by decide)) rfl rfl rfl
    (by decide) (by decide) (by decide) rfl (by decide) (by decide)
  exact ⟨_, h⟩

example : ∃ w', dispatch Demo.cfg (.tr (.addConsent 0)) (.signed 5)
    (Demo.at_ (agreed ++ [Demo.by_ 3 (.tr (.addConsent 0)), .tick, .tick])) = .ok w' :=
  ⟨_, C72_deliver (c := Demo.cfg) (n := 0) (l := [3, 4, 5]) (t := 2) (a := 5)
    Demo.cfg_ok (Demo.reach (agreed ++ [Demo.by_ 3 (.tr (.addConsent 0)), .tick, .tick]) (by decide)) rfl rfl
    rfl (by decide) (by decide) (by decide) (by intro e he; cases he; decide)⟩
