import Verif.Proofs.Pay
import Verif.Props.Exit
import Verif.Props.LockSpec
/-
Properties C66–C67: what can be done with an NFT nobody uses, and minting.
-/
variable {c : Cfg} {w w' : World} {a : AccountId}
set_option maxRecDepth 10000

/-- split a call whose conditions are to be shown into these conditions -/
macro "split_ok" "[" l:Lean.Parser.Tactic.simpLemma,* "]" : tactic =>
  `(tactic| simp only [dispatch, signedCall, Exec.bind_ok, Exec.require_ok, Exec.getOr_ok, Exec.expect_ok,
      Exec.pure_ok, Exec.ok_inj, Exec.exists_unit, $l,*])

namespace Spec

/-- `a` can spend `v` tokens: they are not locked, and an existential deposit remains -/
def CanPay (c : Cfg) (w : World) (a : AccountId) (v : Balance) : Prop :=
  v + max c.ed (locked w.bal a) ≤ w.bal.freeOf a

theorem canPay_iff {c : Cfg} {w : World} {a : AccountId} {v : Balance} :
    CanPay c w a v ↔ v + max c.ed (w.bal.frozen a) ≤ w.bal.freeOf a := Iff.rfl

/-- a payment of `v` leaves `y` with at least an existential deposit -/
def CanGet (c : Cfg) (w : World) (y : AccountId) (v : Balance) : Prop :=
  v = 0 ∨ c.ed ≤ w.bal.freeOf y + v

/-- NFT `n` is on sale nowhere, in no auction, contract or transmission, and not delegated -/
structure Free (w : World) (n : NFTId) : Prop where
  sale : w.mkt.sales.get n = none
  auction : w.auc.auctions.get n = none
  contract : w.rent.contracts.get n = none
  transmission : w.tr.trans.get n = none
  delegation : w.nft.deleg.get n = none

/-- no enclave is at work on secret or capsule -/
def Synced (d : NFTData) : Prop := d.st.syncSecret = false ∧ d.st.syncCapsule = false

/-- the owner may part with it -/
def Movable (d : NFTData) : Prop := d.st.soulbound = true → d.creator = d.owner

/-- the call moved exactly `v` from `s` to `d` -/
def Moved (b b' : Bal) (s d : AccountId) (v : Balance) : Prop :=
  (∀ x, b'.freeOf x + gets x s v = b.freeOf x + gets x d v) ∧ b'.issuance = b.issuance ∧
    b'.collected = b.collected ∧ b'.tee = b.tee ∧ b'.other = b.other

end Spec

theorem Spec.Moved.of {b b' : Bal} {s d : AccountId} {v : Balance}
    (h : b.transfer c.ed s d v .keepAlive = .ok b') : Spec.Moved b b' s d v :=
  ⟨Spec.transfer_moves h, Spec.transfer_keep_issuance h, (Bal.transfer_locks h).2.2,
    (Bal.transfer_locks h).1, (Bal.transfer_locks h).2.1⟩

theorem Spec.Free.flags {n : NFTId} {d : NFTData} (hf : Spec.Free w n) (hc : c.Ok) (hr : Reach c w)
    (h : w.nfts.get n = some d) : d.st.listed = false ∧ d.st.rented = false ∧
      d.st.transmission = false ∧ d.st.delegated = false := by
  have g := ((hr.inv hc).good n).nft d h
  obtain ⟨h1, h2, h3, h4, h5⟩ := hf
  refine ⟨?_, ?_, ?_, ?_⟩
  · simpa [slice, h1, h2] using mt g.listed.1
  · simpa [slice, h3] using mt g.rented.1
  · simpa [slice, h4] using mt g.trans.1
  · simpa [slice, h5] using mt g.deleg.1

/-- account 1 has NFTs 0 and 1; account 3 runs a marketplace with 10 % commission and a listing fee
of 20 -/
abbrev ready : List Op :=
  [Demo.mint1, Demo.mint1, Demo.by_ 3 (.mkt (.create .pub)),
   Demo.by_ 3 (.mkt (.setConfig 0 (.set (.percentage ⟨100000, by omega⟩)) (.set (.flat 20)) .noop .noop
     .noop))]

theorem ready_reach : Reach Demo.cfg (Demo.at_ ready) := Demo.reach _ (by decide)

theorem ready_free {n : NFTId} : Spec.Free (Demo.at_ ready) n := ⟨rfl, rfl, rfl, rfl, rfl⟩

/-- the NFT on which the theorems are tried -/
abbrev fresh : NFTData :=
  ⟨1, 1, [1], none, ⟨100000, by omega⟩, ⟨false, false, false, false, false, false, false, false, false⟩⟩

theorem ready_nft : (Demo.at_ ready).nfts.get 0 = some fresh := rfl

section
variable {n : NFTId} {d : NFTData} (hc : c.Ok) (hr : Reach c w) (h : w.nfts.get n = some d)
  (hf : Spec.Free w n)
include hc hr h hf

/-- Its owner can give it to anybody else: nothing but the owner changes. -/
theorem C66_transfer (hs : Spec.Synced d) (hm : Spec.Movable d) {r : AccountId} (hne : r ≠ d.owner) :
    dispatch c (.nft (.transferNft n r)) (.signed d.owner) w =
      .ok { w with nfts := w.nfts.insert n { d with owner := r } } := by
  obtain ⟨e1, e2, e3, e4⟩ := hf.flags hc hr h
  obtain ⟨e5, e6⟩ := hs
  have hm' : ¬ (d.st.soulbound = true ∧ ¬ d.creator = d.owner) := fun h => h.2 (hm h.1)
  have hne' : ¬ d.owner = r := fun h => hne h.symm
  eval_ok [NftM.call, NftM.transferNft, h, e1, e2, e3, e4, e5, e6, hm', hne', World.putNft]

/-- Its owner can delegate it to anybody else. -/
theorem C66_delegate (hs : Spec.Synced d) {r : AccountId} (hne : r ≠ d.owner) :
    dispatch c (.nft (.delegateNft n (some r))) (.signed d.owner) w =
      .ok { w with
        nfts := w.nfts.insert n { d with st := { d.st with delegated := true } }
        nft := { w.nft with deleg := w.nft.deleg.insert n r } } := by
  obtain ⟨e1, e2, e3, e4⟩ := hf.flags hc hr h
  obtain ⟨e5, e6⟩ := hs
  eval_ok [NftM.call, NftM.delegateNft, h, e1, e2, e3, e4, e5, e6, hne, World.putNft, FMap.set]

/-- Its owner can change the royalty if they created it. -/
theorem C66_royalty (hs : Spec.Synced d) (hm : d.creator = d.owner) (r : Permill) :
    dispatch c (.nft (.setRoyalty n r)) (.signed d.owner) w =
      .ok { w with nfts := w.nfts.insert n { d with royalty := r } } := by
  obtain ⟨e1, e2, e3, e4⟩ := hf.flags hc hr h
  obtain ⟨e5, e6⟩ := hs
  eval_ok [NftM.call, NftM.setRoyalty, h, e1, e2, e3, e4, e5, e6, hm, World.putNft]

/-- Its owner can list it on any marketplace that admits them, at any price that covers the
commission, for the listing fee. -/
theorem C66_list (hs : Spec.Synced d) (hm : Spec.Movable d) {m : MktId} {k : Mkt} {p : Balance}
    (hk : w.mkt.mkts.get m = some k) (ha : Spec.Allowed k d.owner d.coll)
    (hp : Spec.commission p k.commission ≤ p) (hpay : Spec.CanPay c w d.owner (Spec.commission p k.listing))
    (hget : Spec.CanGet c w k.owner (Spec.commission p k.listing)) :
    ∃ b, Spec.Moved w.bal b d.owner k.owner (Spec.commission p k.listing) ∧
      dispatch c (.mkt (.list n m p)) (.signed d.owner) w = .ok { w with
        bal := b
        nfts := w.nfts.insert n { d with st := { d.st with listed := true } }
        mkt := { w.mkt with sales := w.mkt.sales.insert n ⟨d.owner, m, p, k.commission⟩ } } := by
  obtain ⟨e1, e2, e3, e4⟩ := hf.flags hc hr h
  obtain ⟨e5, e6⟩ := hs
  have hm' : ¬ (d.st.soulbound = true ∧ ¬ d.creator = d.owner) := fun h => h.2 (hm h.1)
  rw [← Spec.allowed_iff] at ha
  have hcov : MktM.covers p k.commission = true := by
    cases hk : k.commission with
    | none => rfl
    | some f =>
      cases f with
      | flat x => rw [hk] at hp; simpa [MktM.covers, Spec.commission] using hp
      | percentage q => rfl
  rw [Spec.commission_eq] at hpay hget ⊢
  obtain ⟨b, hb⟩ := Bal.transfer_pays hpay (hget.imp_right Or.inr)
  refine ⟨b, .of hb, ?_⟩
  eval_ok [MktM.call, MktM.list, h, hk, ha, hcov, hb, e1, e2, e3, e4, e5, e6, hm', World.putNft,
    World.putBal]

/-- Its owner can put it up for auction on any marketplace that admits them, with any timetable and
prices within the rules, as long as there is room. -/
theorem C66_auction (hs : Spec.Synced d) (hm : Spec.Movable d) {m : MktId} {k : Mkt} {p : Balance}
    {s f : Block} {bp : Option Balance} (hk : w.mkt.mkts.get m = some k)
    (ha : Spec.Allowed k d.owner d.coll) (hp : Spec.commission p k.commission ≤ p)
    (h1 : w.now ≤ s ∧ s ≤ w.now + c.maxDelay) (h2 : s < f)
    (h3 : s + c.minDur ≤ f ∧ f ≤ s + c.maxDur) (h4 : ∀ x, bp = some x → p < x)
    (hroom : w.auc.deadlines.length < c.aucLimit) :
    ∃ w', dispatch c (.auc (.create n m s f p bp)) (.signed d.owner) w = .ok w' ∧
      w'.auc.auctions.get n = some ⟨d.owner, s, f, p, bp, [], m, false⟩ ∧
      (∀ n', n' ≠ n → w'.auc.auctions.get n' = w.auc.auctions.get n') ∧ Spec.Scheduled w' n ∧
      w'.nfts = w.nfts.insert n { d with st := { d.st with listed := true } } ∧ w'.bal = w.bal := by
  obtain ⟨e1, e2, e3, e4⟩ := hf.flags hc hr h
  obtain ⟨e5, e6⟩ := hs
  have hm' : ¬ (d.st.soulbound = true ∧ ¬ d.creator = d.owner) := fun h => h.2 (hm h.1)
  rw [← Spec.allowed_iff] at ha
  have hcov : MktM.covers p k.commission = true := by
    cases hk : k.commission with
    | none => rfl
    | some f =>
      cases f with
      | flat x => rw [hk] at hp; simpa [MktM.covers, Spec.commission] using hp
      | percentage q => rfl
  have g1 : f - s ≤ c.maxDur := by omega
  have g2 : c.minDur ≤ f - s := by omega
  have g3 : s - w.now ≤ c.maxDelay := by omega
  obtain ⟨w', h'⟩ : ∃ w', dispatch c (.auc (.create n m s f p bp)) (.signed d.owner) w = .ok w' := by
    split_ok [AucM.call, AucM.create]
    simp [h, hk, ha, hcov, e1, e2, e3, e4, e5, e6, hm', h1.1, h2, g1, g2, g3, Queue.insert, hroom]
    exact ⟨h4, hm⟩
  refine ⟨w', h', ?_⟩
  simp only [dispatch, signedCall, AucM.call, AucM.create] at h'; inv_ok at h'
  obtain ⟨d', k', q, _, _, _, _, _, _, hd', _, _, _, _, _, _, _, _, hk', _, _, hq, rfl⟩ := h'
  rw [h] at hd'; simp at hd'; subst hd'
  refine ⟨by simp, fun n' hn => FMap.get_insert_ne _ _ hn, ⟨f, ?_⟩, rfl, rfl⟩
  simp only [Queue.insert, hroom, if_true, Option.some.injEq] at hq
  subst hq
  exact Queue.mem_ins.2 (Or.inl rfl)

/-- Its owner can offer it for rent on any terms within the rules, unless it is soulbound, as long as
there is room and they have the deposit: tokens, or a second such NFT. -/
theorem C66_rent (hs : Spec.Synced d) (hm : d.st.soulbound = false) {du : DurationInput}
    {acc : Acceptance} {rev : Bool} {fee : RentFee} {f1 f2 : CancelFee}
    (h1 : ∀ x, du = .fixed x → 0 < x ∧ x ≤ c.rentMaxDur)
    (h2 : ∀ p m ch, du = .sub p m ch → 0 < p ∧ p ≤ c.rentMaxDur ∧ (∀ y, m = some y → 0 < y ∧ y ≤ c.rentMaxDur) ∧
      (∃ x, fee = .tokens x) ∧ (∀ x, f1 ≠ .flexible x) ∧ ∀ x, f2 ≠ .flexible x)
    (h3 : ∀ m, fee = .nft m ∨ Spec.nftOf f2 = some m → w.nfts.get m ≠ none)
    (h4 : ∀ m, Spec.nftOf f1 = some m → ∃ x, w.nfts.get m = some x ∧ x.owner = d.owner ∧ Spec.Free w m ∧
      Spec.Synced x ∧ x.st.soulbound = false)
    (hf1 : Spec.tokensOf f1 = 0 ∨ c.ed < Spec.tokensOf f1)
    (hf2 : Spec.tokensOf f2 = 0 ∨ c.ed < Spec.tokensOf f2)
    (hpay : Spec.CanPay c w d.owner (Spec.tokensOf f1))
    (hroom : w.rent.fixedQ.length + w.rent.subQ.length + w.rent.availQ.length < c.rentLimit) :
    ∃ w' k, dispatch c (.rent (.create n du acc rev fee f1 f2)) (.signed d.owner) w = .ok w' ∧
      Spec.Moved w.bal w'.bal d.owner c.rentPot (Spec.tokensOf f1) ∧
      (∀ m, w'.nfts.get m = if m = n then some { d with st := { d.st with rented := true } }
        else if Spec.nftOf f1 = some m then (w.nfts.get m).map fun x => { x with owner := c.rentPot }
        else w.nfts.get m) ∧
      (∀ m, w'.rent.contracts.get m = if m = n then some k else w.rent.contracts.get m) ∧
      k.renter = d.owner ∧ k.rentee = none ∧ k.start = none ∧ k.acceptance = acc ∧
      k.renterCanRevoke = rev ∧ k.rentFee = fee ∧ k.renterFee = f1 ∧ k.renteeFee = f2 ∧
      k.creation = w.now ∧
      k.duration = (match du with
        | .fixed x => .fixed x
        | .sub p m ch => .sub { period := p, maxDur := m.getD c.rentMaxDur, changeable := ch, newTerms := false }) ∧
      (n, w.now + c.rentAvail) ∈ w'.rent.availQ := by
  have hv : ∀ {m x}, Spec.Free w m → w.nfts.get m = some x → Spec.Synced x → x.st.soulbound = false →
      RentM.valid x.st = true := by
    intro m x hf h hs hm
    obtain ⟨e1, e2, e3, e4⟩ := hf.flags hc hr h
    obtain ⟨e5, e6⟩ := hs
    simp [RentM.valid, e1, e2, e3, e4, e5, e6, hm]
  have hvd := hv hf h hs hm
  rw [Spec.tokensOf_eq] at hpay hf1 hf2 ⊢
  rw [Spec.nftOf_eq] at h3 h4 ⊢
  obtain ⟨b, hb⟩ := Bal.transfer_pays (d := c.rentPot) hpay (by omega)
  have g1 : RentM.full (RentM.toDuration c.rentMaxDur du) ≤ c.rentMaxDur ∧
      0 < RentM.full (RentM.toDuration c.rentMaxDur du) ∧
      RentM.period (RentM.toDuration c.rentMaxDur du) ≤ c.rentMaxDur ∧
      0 < RentM.period (RentM.toDuration c.rentMaxDur du) ∧
      RentM.allowsRent (RentM.toDuration c.rentMaxDur du) fee = true ∧
      RentM.allowsCancel (RentM.toDuration c.rentMaxDur du) f1 = true ∧
      RentM.allowsCancel (RentM.toDuration c.rentMaxDur du) f2 = true := by
    cases du with
    | fixed x =>
      have := h1 x rfl
      simp [RentM.toDuration, RentM.full, RentM.period, RentM.allowsRent, RentM.allowsCancel]; omega
    | sub p m ch =>
      obtain ⟨a1, a2, a3, ⟨x, rfl⟩, a5, a6⟩ := h2 p m ch rfl
      have e : ∀ {f : CancelFee}, (∀ x, f ≠ .flexible x) → ∀ {s}, RentM.allowsCancel (.sub s) f = true := by
        intro f hf s
        cases f <;> simp_all [RentM.allowsCancel]
      refine ⟨?_, ?_, ?_, ?_, rfl, e a5, e a6⟩ <;> cases m with
      | none => simp [RentM.toDuration, RentM.full, RentM.period]; try omega
      | some y => have := a3 y rfl; simp [RentM.toDuration, RentM.full, RentM.period]; omega
  obtain ⟨g1, g2, g3, g4, g5, g6, g7⟩ := g1
  have hroom' : w.rent.availQ.length < c.rentLimit := by omega
  have hdep : ∃ w1, RentM.depositRenterNft c (w.putBal b) d.owner (RentM.feeNft f1) = .ok w1 := by
    cases hn : RentM.feeNft f1 with
    | none => exact ⟨_, rfl⟩
    | some m =>
      obtain ⟨x, x1, x2, x3, x4, x5⟩ := h4 m hn
      simp only [RentM.depositRenterNft, Exec.bind_ok, Exec.require_ok, Exec.getOr_ok, Exec.pure_ok, Exec.exists_unit]
      exact ⟨_, x, x1, x2, hv x3 x1 x4 x5, rfl⟩
  obtain ⟨w1, hw1⟩ := hdep
  have hw1q : w1.rent = w.rent := by
    cases hn : RentM.feeNft f1 <;> simp only [hn, RentM.depositRenterNft] at hw1
    · inv_ok at hw1; subst hw1; rfl
    · inv_ok at hw1; obtain ⟨_, _, _, _, rfl⟩ := hw1; rfl
  have hq : Queue.insert c.rentLimit w1.rent.availQ n (w1.now + c.rentAvail) =
      some (Queue.ins n (w1.now + c.rentAvail) w1.rent.availQ) := by
    simp [Queue.insert, hw1q, hroom']
  have hsome : ∀ {m}, w.nfts.get m ≠ none → (w.nfts.get m).isSome = true := fun {m} h =>
    Option.isSome_iff_ne_none.2 h
  obtain ⟨w', h'⟩ : ∃ w', dispatch c (.rent (.create n du acc rev fee f1 f2)) (.signed d.owner) w = .ok w' := by
    split_ok [RentM.call, RentM.create]
    exact ⟨_, hroom, d, h, rfl, hvd, g1, g2, g3, g4, g5, g6, g7,
      fun m hm => hsome (h3 m (Or.inl (by cases fee <;> simp_all [RentM.rentNft]))),
      fun m hm => hsome (h3 m (Or.inr hm)), hf1, hf2, b, Exec.mapErr_ok.2 hb, w1, hw1, _, hq, rfl⟩
  refine ⟨w', ?_⟩
  have h'' := h'
  simp only [dispatch, signedCall, RentM.call, RentM.create] at h''; inv_ok at h''
  obtain ⟨d', b', w2, q, _, hd', _, _, _, _, _, _, _, _, _, _, _, _, _, hb', hw2, hq', rfl⟩ := h''
  rw [h] at hd'; simp at hd'; subst hd'
  rw [hb] at hb'; simp at hb'; subst hb'
  rw [hw1] at hw2; simp at hw2; subst hw2
  rw [hq] at hq'; simp at hq'; subst hq'
  have hnow : w1.now = w.now ∧ w1.bal = b ∧ ∀ m, w1.nfts.get m =
      if RentM.feeNft f1 = some m then (w.nfts.get m).map fun x => { x with owner := c.rentPot }
        else w.nfts.get m := by
    rcases hn : RentM.feeNft f1 with _ | id <;> simp only [hn, RentM.depositRenterNft] at hw1
    · inv_ok at hw1; subst hw1; exact ⟨rfl, rfl, fun m => by simp [World.putBal]⟩
    · inv_ok at hw1; obtain ⟨x, hx, _, _, rfl⟩ := hw1
      refine ⟨rfl, rfl, fun m => ?_⟩
      simp only [World.putNft, World.putBal, FMap.get_insert, Option.some.injEq] at hx ⊢
      by_cases e : m = id
      · subst e; simp [hx]
      · simp [e, Ne.symm e]
  obtain ⟨n1, n2, n3⟩ := hnow
  refine ⟨⟨none, d.owner, none, RentM.toDuration c.rentMaxDur du, acc, rev, fee, f1, f2, w.now⟩, h',
    ?_, fun m => ?_, fun m => ?_, rfl, rfl, rfl, rfl, rfl, rfl, rfl, rfl, rfl, ?_, ?_⟩
  · exact n2 ▸ .of hb
  · simp only [World.putNft, World.ev, FMap.get_insert, n3]
  · simp only [World.ev, World.putNft, FMap.get_insert, hw1q, n1]
  · cases du <;> rfl
  · rw [← n1]; exact Queue.mem_ins.2 (Or.inl rfl)

/-- Its owner can set up any transmission within the rules. -/
theorem C66_transmission (hs : Spec.Synced d) (hm : Spec.Movable d) {r : AccountId} (hne : r ≠ d.owner)
    {p : Protocol} {k : Cancellation} (h1 : ∀ b, k = .untilBlock b → w.now < b)
    (h2 : ∀ e, Spec.blockOf p = some e → w.now < e ∧ e ≤ w.now + c.trMaxDur)
    (h3 : ∀ l t, Spec.consentOf p = some (l, t) → l.Nodup ∧ l.length ≤ c.trConsents ∧ 0 < t ∧
      t ≤ l.length)
    (hpay : Spec.CanPay c w d.owner (Spec.protocolFee w p)) (hroom : w.tr.queue.length < c.trLimit) :
    ∃ w', dispatch c (.tr (.set n r p k)) (.signed d.owner) w = .ok w' ∧
      Spec.PaidFee w.bal w'.bal d.owner (Spec.protocolFee w p) ∧
      w'.nfts = w.nfts.insert n { d with st := { d.st with transmission := true } } ∧
      ∀ n', w'.tr.trans.get n' = if n' = n then some ⟨r, p, k⟩ else w.tr.trans.get n' := by
  obtain ⟨e1, e2, e3, e4⟩ := hf.flags hc hr h
  obtain ⟨e5, e6⟩ := hs
  rw [Spec.blockOf_eq] at h2
  rw [Spec.consentOf_eq] at h3
  have hm' : ¬ (d.st.soulbound = true ∧ ¬ d.owner = d.creator) := fun h => h.2 (hm h.1).symm
  have hfee : Spec.protocolFee w p = TrM.protocolFee w.tr (TrM.kind p) := by cases p <;> rfl
  rw [hfee] at hpay ⊢
  obtain ⟨b, hb⟩ := Bal.payFee_pays hpay
  obtain ⟨q, hq⟩ : ∃ q, TrM.enqueue c w.tr.queue n (TrM.blockToQueue p) = .ok q := by
    cases TrM.blockToQueue p with
    | none => exact ⟨_, rfl⟩
    | some b =>
      have hroom' : w.tr.queue.length + 1 ≤ c.trLimit := hroom
      simp [TrM.enqueue, require, hroom', Queue.insert, hroom, getOr, bind, Except.bind]
  obtain ⟨w', h'⟩ : ∃ w', dispatch c (.tr (.set n r p k)) (.signed d.owner) w = .ok w' := by
    split_ok [TrM.call, TrM.set]
    refine ⟨_, ?_, d, h, rfl, hne.symm, e1, e4, e2, hm', e5, e6, e3, fun e he => (h2 e he).1,
      fun e he => by have := h2 e he; omega, fun x hx => (h3 x.1 x.2 hx).2.1,
      fun x hx => (h3 x.1 x.2 hx).1, fun x hx => (h3 x.1 x.2 hx).2.2.1,
      fun x hx => by have := h3 x.1 x.2 hx; omega, fun x hx => (h3 x.1 x.2 hx).2.2.2, q, hq, b, hb, rfl⟩
    intro y hy
    cases k <;> simp [TrM.untilBlock] at hy
    exact h1 _ (by rw [hy])
  refine ⟨w', h', ?_⟩
  simp only [dispatch, signedCall, TrM.call, TrM.set] at h'; inv_ok at h'
  obtain ⟨d', q', b', _, hd', _, _, _, _, _, _, _, _, _, _, _, _, _, _, _, _, _, hb', rfl⟩ := h'
  rw [h] at hd'; simp at hd'; subst hd'
  rw [hb] at hb'; simp at hb'; subst hb'
  exact ⟨.of_pay hb, rfl, fun n' => FMap.get_insert ..⟩

/-- Its owner can add a secret, if it has none. -/
theorem C66_secret (hs : Spec.Synced d) (hm : w.nft.secretData.get n = none)
    (hpay : Spec.CanPay c w d.owner w.nft.secretFee) (x : Data) :
    ∃ b, Spec.PaidFee w.bal b d.owner w.nft.secretFee ∧
      dispatch c (.nft (.addSecret n x)) (.signed d.owner) w = .ok { w with
        bal := b
        nfts := w.nfts.insert n { d with st := { d.st with secret := true, syncSecret := true } }
        nft := { w.nft with secretData := w.nft.secretData.insert n x } } := by
  have g := ((hr.inv hc).good n).nft d h
  obtain ⟨e1, e2, e3, e4⟩ := hf.flags hc hr h
  obtain ⟨e5, e6⟩ := hs
  have e7 : d.st.secret = false := by simpa [slice, hm] using mt g.secret.1
  obtain ⟨b, hb⟩ := Bal.payFee_pays hpay
  refine ⟨b, .of_pay hb, ?_⟩
  eval_ok [NftM.call, NftM.addSecret, NftM.addSecretHelper, h, hb, e1, e2, e3, e4, e6, e7, World.putNft,
    World.putBal]

/-- Its owner can turn it into a capsule, if it is none. -/
theorem C66_capsule (hs : Spec.Synced d) (hm : w.nft.capsuleData.get n = none)
    (hpay : Spec.CanPay c w d.owner w.nft.capsuleFee) (x : Data) :
    ∃ b, Spec.PaidFee w.bal b d.owner w.nft.capsuleFee ∧
      dispatch c (.nft (.toCapsule n x)) (.signed d.owner) w = .ok { w with
        bal := b
        nfts := w.nfts.insert n { d with st := { d.st with capsule := true, syncCapsule := true } }
        nft := { w.nft with capsuleData := w.nft.capsuleData.insert n x } } := by
  have g := ((hr.inv hc).good n).nft d h
  obtain ⟨e1, e2, e3, e4⟩ := hf.flags hc hr h
  obtain ⟨e5, e6⟩ := hs
  have e7 : d.st.capsule = false := by simpa [slice, hm] using mt g.capsule.1
  obtain ⟨b, hb⟩ := Bal.payFee_pays hpay
  refine ⟨b, .of_pay hb, ?_⟩
  eval_ok [NftM.call, NftM.toCapsule, NftM.toCapsuleHelper, h, hb, e1, e2, e3, e4, e5, e7, World.putNft,
    World.putBal]

/-- Its owner can replace the data of a capsule, and have its keys renewed. -/
theorem C66_capsule_data (hs : Spec.Synced d) {y : Data} (hm : w.nft.capsuleData.get n = some y)
    (x : Data) :
    dispatch c (.nft (.setCapsuleData n x)) (.signed d.owner) w =
        .ok { w with nft := { w.nft with capsuleData := w.nft.capsuleData.insert n x } } ∧
      dispatch c (.nft (.notifyKey n)) (.signed d.owner) w =
        .ok { w with nfts := w.nfts.insert n { d with st := { d.st with syncCapsule := true } } } := by
  have g := ((hr.inv hc).good n).nft d h
  obtain ⟨e1, e2, e3, e4⟩ := hf.flags hc hr h
  obtain ⟨e5, e6⟩ := hs
  have e7 : d.st.capsule = true := g.capsule.2 (by simp [slice, hm])
  constructor
  · eval_ok [NftM.call, NftM.setCapsuleData, h, e1, e2, e3, e4, e5, e6, e7]
  · eval_ok [NftM.call, NftM.notifyKey, h, e1, e2, e3, e4, e5, e6, e7, World.putNft]

end

/-! The hypotheses are met: each theorem applied to a concrete chain. -/

example : ∃ w', dispatch Demo.cfg (.nft (.transferNft 0 2)) (.signed 1) (Demo.at_ ready) = .ok w' :=
  ⟨_, C66_transfer Demo.cfg_ok ready_reach ready_nft ready_free ⟨rfl, rfl⟩ (fun _ => rfl) (by decide)⟩

example : ∃ w', dispatch Demo.cfg (.nft (.delegateNft 0 (some 2))) (.signed 1) (Demo.at_ ready) = .ok w' :=
  ⟨_, C66_delegate Demo.cfg_ok ready_reach ready_nft ready_free ⟨rfl, rfl⟩ (by decide)⟩

example : ∃ w', dispatch Demo.cfg (.nft (.setRoyalty 0 ⟨7, by omega⟩)) (.signed 1) (Demo.at_ ready) =
    .ok w' :=
  ⟨_, C66_royalty Demo.cfg_ok ready_reach ready_nft ready_free ⟨rfl, rfl⟩ rfl _⟩

example : ∃ b, Spec.Moved (Demo.at_ ready).bal b 1 3 20 := by
  obtain ⟨b, hb, _⟩ := C66_list (m := 0) (p := 1000) Demo.cfg_ok ready_reach ready_nft ready_free
    ⟨rfl, rfl⟩ (fun _ => rfl) rfl ((Spec.allowed_iff _ _ _).1 (by decide)) (by decide) (by unfold Spec.CanPay; decide)
    (by unfold Spec.CanGet; decide)
  exact ⟨b, hb⟩

example : ∃ w', dispatch Demo.cfg (.auc (.create 0 0 3 13 100 (some 200))) (.signed 1) (Demo.at_ ready) =
    .ok w' := by
  obtain ⟨w', h, _⟩ := C66_auction (m := 0) (p := 100) (s := 3) (f := 13) (bp := some 200) Demo.cfg_ok
    ready_reach ready_nft ready_free ⟨rfl, rfl⟩ (fun _ => rfl) rfl ((Spec.allowed_iff _ _ _).1 (by decide)) (by decide)
    (by decide) (by decide) (by decide) (by decide) (by decide)
  exact ⟨w', h⟩

/-- a subscription paid in tokens, with NFT 1 as the renter's deposit -/
example : ∃ w', dispatch Demo.cfg (.rent (.create 0 (.sub 5 (some 20) true) (.auto none) true (.tokens 30)
    (.nft 1) (.fixed 40))) (.signed 1) (Demo.at_ ready) = .ok w' := by
  obtain ⟨w', k, h, _⟩ := C66_rent (du := .sub 5 (some 20) true) (acc := .auto none) (rev := true)
    (fee := .tokens 30) (f1 := .nft 1) (f2 := .fixed 40) Demo.cfg_ok
    ready_reach ready_nft ready_free ⟨rfl, rfl⟩ rfl nofun
    (by rintro _ _ _ ⟨⟩; exact ⟨by decide, by decide, by decide, ⟨_, rfl⟩, nofun, nofun⟩)
    (by simp [Spec.nftOf])
    (by rintro _ ⟨⟩; exact ⟨_, rfl, rfl, ready_free, ⟨rfl, rfl⟩, rfl⟩)
    (by decide) (by decide) (by unfold Spec.CanPay; decide) (by decide)
  exact ⟨w', h⟩

example : ∃ w', dispatch Demo.cfg (.tr (.set 0 2 (.onConsentAtBlock [3, 4] 1 50) .anytime)) (.signed 1)
    (Demo.at_ ready) = .ok w' := by
  obtain ⟨w', h, _⟩ := C66_transmission (r := 2) (p := .onConsentAtBlock [3, 4] 1 50) (k := .anytime) Demo.cfg_ok
    ready_reach ready_nft ready_free ⟨rfl, rfl⟩ (fun _ => rfl) (by decide) nofun
    (by rintro _ ⟨⟩; decide) (by rintro _ _ ⟨⟩; decide) (by unfold Spec.CanPay; decide) (by decide)
  exact ⟨w', h⟩

example : ∃ b, Spec.PaidFee (Demo.at_ ready).bal b 1 6 :=
  have ⟨b, hb, _⟩ := C66_secret Demo.cfg_ok ready_reach ready_nft ready_free ⟨rfl, rfl⟩ rfl
    (by unfold Spec.CanPay; decide) [7]
  ⟨b, hb⟩

example : ∃ b, Spec.PaidFee (Demo.at_ ready).bal b 1 7 :=
  have ⟨b, hb, _⟩ := C66_capsule Demo.cfg_ok ready_reach ready_nft ready_free ⟨rfl, rfl⟩ rfl
    (by unfold Spec.CanPay; decide) [7]
  ⟨b, hb⟩

example : ∃ w', dispatch Demo.cfg (.nft (.setCapsuleData 0 [8])) (.signed 1)
    (Demo.at_ (Demo.enclaves ++ [Demo.mint1, Demo.by_ 1 (.nft (.toCapsule 0 [7])),
      Demo.by_ 18 (.nft (.addCapsuleShard 0)), Demo.by_ 19 (.nft (.addCapsuleShard 0))])) = .ok w' :=
  ⟨_, (C66_capsule_data (n := 0) (d := { fresh with st := { fresh.st with capsule := true } }) Demo.cfg_ok
    (Demo.reach _ (by decide)) rfl ⟨rfl, rfl, rfl, rfl, rfl⟩ ⟨rfl, rfl⟩ (y := [7]) rfl [8]).1⟩
