import Verif.Proofs.RentActs
import Verif.Proofs.StepCase
/-
What the calls and the hook of the rent pallet do to one contract.
-/
variable {c : Cfg} {w w' : World} {a : AccountId}

namespace RentM

/-- what starting contract `k` of NFT `n` with rentee `r` does -/
structure Started (c : Cfg) (w : World) (n : NFTId) (k : Contract) (r : AccountId) (w' : World) : Prop where
  out : ∃ b1 b2 q, w.bal.transfer c.ed r k.renter (rentTokens k.rentFee) .keepAlive = .ok b1 ∧
    b1.transfer c.ed r c.rentPot (feeTokens k.renteeFee) .keepAlive = .ok b2 ∧
    (∀ x, rentNft k.rentFee = some x →
      ∃ d, w.nfts.get x = some d ∧ d.owner = r ∧ valid d.st = true) ∧
    (∀ x, feeNft k.renteeFee = some x →
      ∃ d, w.nfts.get x = some d ∧ d.owner = r ∧ valid d.st = true) ∧
    insertKind c { w.rent with availQ := w.rent.availQ.remove n } k.duration n
      (w.now + period k.duration) = some q ∧
    w' = { w with
      bal := b2
      nfts := cho (cho w.nfts (rentNft k.rentFee) k.renter) (feeNft k.renteeFee) c.rentPot
      rent := { q with
        offers := w.rent.offers.erase n
        contracts := w.rent.contracts.insert n { k with rentee := some r, start := some w.now } } }

theorem startContract_started {n k r} (h : startContract c w n k r = .ok w') : Started c w n k r w' := by
  obtain ⟨w1, q, h1, h2, rfl⟩ := startContract_ok h
  obtain ⟨b1, b2, hb1, hb2, c1, c2, rfl⟩ := takeFees_ok h1
  exact ⟨b1, b2, q, hb1, hb2, c1, c2, h2, rfl⟩

theorem Started.rent {n k r} (h : Started c w n k r w') :
    ∃ F S, w'.rent = { w.rent with
      fixedQ := F, subQ := S, availQ := w.rent.availQ.remove n
      offers := w.rent.offers.erase n
      contracts := w.rent.contracts.insert n { k with rentee := some r, start := some w.now } } := by
  obtain ⟨b1, b2, q, _, _, _, _, hq, rfl⟩ := h.out
  exact ⟨q.fixedQ, q.subQ, by dsimp only; rw [insertKind_ok hq]⟩

/-- the two ways to start a contract -/
def StartCall (w : World) (n : NFTId) (k : Contract) (r : AccountId) (a : AccountId) (x : Call) : Prop :=
  (x = .rent n k.creation ∧ a = r ∧ k.rentee = none ∧ k.renter ≠ r ∧ isManual k.acceptance = false ∧
    admitted k.acceptance r) ∨
  (x = .acceptOffer n r ∧ a = k.renter ∧ ∃ l, w.rent.offers.get n = some l ∧ r ∈ l)

/-- what the deposits do when contract `k` of NFT `n` ends without fault -/
def Refund (c : Cfg) (w : World) (n : NFTId) (k : Contract) (b : Bal) (f : FMap NFTId NFTData) : Prop :=
  ∃ d b1, w.nfts.get n = some d ∧
    w.bal.transfer c.ed c.rentPot k.renter (feeTokens k.renterFee) .allowDeath = .ok b1 ∧
    b1.transfer c.ed c.rentPot (k.rentee.getD 0) (renteeTokens k) .allowDeath = .ok b ∧
    f = (cho (cho w.nfts (feeNft k.renterFee) k.renter) (renteeNft k) (k.rentee.getD 0)).insert n
      { d with st := { d.st with rented := false } }

/-- A successful call of the rent pallet. -/
inductive Did (c : Cfg) (w : World) (a : AccountId) : Call → World → Prop where
  | create {n dur acc rv rf f1 f2} {w' : World} : create c w a n dur acc rv rf f1 f2 = .ok w' →
      Did c w a (.create n dur acc rv rf f1 f2) w'
  | cancel {n k b f} : w.rent.contracts.get n = some k → k.renter = a → k.rentee = none →
      Refund c w n k b f →
      Did c w a (.cancel n) { w with
        bal := b
        nfts := f
        rent := { w.rent with
          contracts := w.rent.contracts.erase n
          availQ := w.rent.availQ.remove n
          offers := w.rent.offers.erase n } }
  | revoke {n} {w' : World} : revoke c w a n = .ok w' → Did c w a (.revoke n) w'
  | start {n k r} {x : Call} {w' : World} : w.rent.contracts.get n = some k → StartCall w n k r a x →
      Started c w n k r w' → Did c w a x w'
  | makeOffer {n k} : a ∉ (w.rent.offers.get n).getD [] → w.rent.contracts.get n = some k →
      k.start = none → k.renter ≠ a → isManual k.acceptance = true → admitted k.acceptance a →
      Did c w a (.makeOffer n k.creation) { w with
        rent := { w.rent with
          offers := w.rent.offers.insert n ((w.rent.offers.get n).getD [] ++ [a]) }
        evs := .offerMade n a :: w.evs }
  | retractOffer {n l} : w.rent.offers.get n = some l → a ∈ l →
      Did c w a (.retractOffer n) { w with rent := { w.rent with
        offers := w.rent.offers.insert n (l.erase a) } }
  | changeTerms {n k s fee per md ch} : w.rent.contracts.get n = some k → k.renter = a →
      k.duration = .sub s → s.changeable = true →
      md.getD c.rentMaxDur ≤ c.rentMaxDur → per ≤ c.rentMaxDur →
      0 < md.getD c.rentMaxDur → 0 < per →
      Did c w a (.changeTerms n fee per md ch) { w with rent := { w.rent with
        offers := if k.rentee.isSome then w.rent.offers else w.rent.offers.erase n
        contracts := w.rent.contracts.insert n { k with
          duration := .sub { period := per, maxDur := md.getD c.rentMaxDur, changeable := ch, newTerms := true }
          rentFee := .tokens fee } } }
  | acceptTerms {n k s fee per md ch} : w.rent.contracts.get n = some k → k.rentee = some a →
      k.duration = .sub s → s.newTerms = true → k.rentFee = .tokens fee → s.period = per →
      (md = none ∨ some s.maxDur = md) → s.changeable = ch →
      Did c w a (.acceptTerms n fee per md ch) { w with rent := { w.rent with
        contracts := w.rent.contracts.insert n { k with
          duration := .sub { s with newTerms := false } } } }

theorem call_did {x : Call} (h : call c w a x = .ok w') : Did c w a x w' := by
  cases x with
  | create => exact .create h
  | cancel n =>
    simp only [call, cancel] at h
    inv_ok at h
    obtain ⟨k, hk, hr, hn, h⟩ := h
    have h := ext_ok h
    have h2 : handleFinished c n { w with rent := { w.rent with
        availQ := w.rent.availQ.remove n, offers := w.rent.offers.erase n } } = (w', .ok ()) := h
    obtain ⟨k', d, b1, b2, hk', hd, t1, t2, rfl⟩ := finished_ok h2
    have e : k' = k := by
      have : w.rent.contracts.get n = some k' := hk'
      rw [hk] at this; simpa using this.symm
    subst e
    exact .cancel hk hr hn ⟨d, b1, hd, t1, t2, rfl⟩
  | revoke => exact .revoke h
  | rent n b =>
    simp only [call, rent] at h
    inv_ok at h
    obtain ⟨k, hk, rfl, h1, h2, h3, h4, h⟩ := h
    exact .start hk (Or.inl ⟨rfl, rfl, h1, h2, h3, h4⟩) (startContract_started h)
  | makeOffer n b =>
    simp only [call, makeOffer] at h
    inv_ok at h
    obtain ⟨k, h0, hk, rfl, h1, h2, h3, h4, _, _, _, _, _, _, rfl⟩ := h
    exact .makeOffer h0 hk h1 h2 h3 h4
  | acceptOffer n r =>
    simp only [call, acceptOffer] at h
    inv_ok at h
    obtain ⟨k, l, hk, hl, h1, h2, h⟩ := h
    exact .start hk (Or.inr ⟨rfl, h1.symm, l, hl, h2⟩) (startContract_started h)
  | retractOffer n =>
    simp only [call, retractOffer] at h
    inv_ok at h
    obtain ⟨l, hl, h1, rfl⟩ := h
    exact .retractOffer hl h1
  | changeTerms n fee per md ch =>
    simp only [call, changeTerms] at h
    inv_ok at h
    obtain ⟨k, hk, h1, h2, h3, h4, h5, h6, rfl⟩ := h
    cases hd : k.duration with
    | fixed => simp [hd, canAdjust] at h2
    | sub s => exact .changeTerms hk h1.symm hd (by simpa [hd, canAdjust] using h2) h3 h4 h5 h6
  | acceptTerms n fee per md ch =>
    simp only [call, acceptTerms] at h
    inv_ok at h
    obtain ⟨k, s, hk, hs, h1, h2, e1, e2, e3, e4, rfl⟩ := h
    cases hd : k.duration with
    | fixed => simp [hd] at hs
    | sub s' =>
      simp [hd] at hs; subst hs
      exact .acceptTerms hk h1.symm hd h2 e1 e2 e3 e4

/-- why the hook ends contract `k` of NFT `n` -/
inductive Over (c : Cfg) (w : World) (n : NFTId) (k : Contract) : Prop where
  /-- nobody rented it in time -/
  | unused : k.rentee = none → k.creation + c.rentAvail ≤ w.now → Over c w n k
  /-- its fixed duration is over -/
  | fixed {r s d} : k.rentee = some r → k.start = some s → k.duration = .fixed d → s + d ≤ w.now →
      Over c w n k
  /-- a period of the subscription is over, and the terms have changed, the maximal duration has
  passed, or the rentee cannot pay -/
  | sub {r s u b fee} : k.rentee = some r → k.start = some s → k.duration = .sub u →
      k.rentFee = .tokens fee → (n, b) ∈ w.rent.subQ → b ≤ w.now →
      u.newTerms = true ∨ s + u.maxDur ≤ w.now ∨
        (∃ e, w.bal.transfer c.ed r k.renter fee .keepAlive = .error e) → Over c w n k

/-- One action of the hook. -/
inductive Tick (c : Cfg) (w : World) : World → Prop where
  | finish {n k b f} : w.rent.contracts.get n = some k → Over c w n k → Refund c w n k b f →
      Tick c w { w with
        bal := b
        nfts := f
        rent := { w.rent with
          contracts := w.rent.contracts.erase n
          fixedQ := w.rent.fixedQ.remove n
          subQ := w.rent.subQ.remove n
          availQ := w.rent.availQ.remove n } }
  | renew {n b k r s u fee bal} : (n, b) ∈ w.rent.subQ → b ≤ w.now →
      w.rent.contracts.get n = some k → k.rentee = some r → k.start = some s →
      k.duration = .sub u → k.rentFee = .tokens fee →
      u.newTerms = false → w.now < s + u.maxDur →
      w.bal.transfer c.ed r k.renter fee .keepAlive = .ok bal →
      Tick c w { w with
        bal := bal
        rent := { w.rent with
          subQ := Queue.ins n (w.now + u.period) (w.rent.subQ.remove n) } }

theorem handleSub_over {n k} (h : handleSub c w n = (w, none)) (hk : w.rent.contracts.get n = some k)
    {r s u fee} (hr : k.rentee = some r) (hs : k.start = some s) (hd : k.duration = .sub u)
    (hf : k.rentFee = .tokens fee) :
    u.newTerms = true ∨ s + u.maxDur ≤ w.now ∨
        (∃ e, w.bal.transfer c.ed r k.renter fee .keepAlive = .error e) := by
  unfold handleSub at h
  rw [hk] at h
  simp only [hr, hf] at h
  split at h
  · rename_i h1
    rcases h1 with h1 | h1
    · left; simpa [hd, termsChanged] using h1
    · right; left
      simp [hasEnded, hs, hd, full] at h1; omega
  · cases ht : w.bal.transfer c.ed r k.renter fee .keepAlive with
    | error e => exact Or.inr (Or.inr ⟨e, rfl⟩)
    | ok b => rw [ht] at h; simp at h

theorem RentAct.tick (h : RentAct c w w') : RInv c w ∧ BalInv c w.bal ∧ Tick c w w' := by
  cases h with
  | @finish n b k w1 hi hb hq hn hk hf =>
    refine ⟨hi, hb, ?_⟩
    obtain ⟨k', d, b1, b2, hk', hd, t1, t2, rfl⟩ := finished_ok hf
    rw [hk] at hk'; simp at hk'; subst hk'
    refine .finish hk ?_ ⟨d, b1, hd, t1, t2, rfl⟩
    rcases hq with hq | ⟨hq, hs⟩ | hq
    · obtain ⟨k', s, d', h1, h2, h3, h4, h5⟩ := hi.q.inF n b hq
      rw [hk] at h1; simp at h1; subst h1
      obtain ⟨r, hr⟩ := Option.ne_none_iff_exists'.1 h2
      exact .fixed hr h3 h4 (by omega)
    · obtain ⟨k', s, u, h1, h2, h3, h4, h5⟩ := hi.q.inS n b hq
      rw [hk] at h1; simp at h1; subst h1
      obtain ⟨r, hr⟩ := Option.ne_none_iff_exists'.1 h2
      have := (hi.q.con n k hk).rentFee
      cases hf : k.rentFee with
      | nft => simp [h4, hf, allowsRent] at this
      | tokens fee => exact .sub hr h3 h4 hf hq hn (handleSub_over hs hk hr h3 h4 hf)
    · obtain ⟨k', h1, h2, h3⟩ := hi.q.inA n b hq
      rw [hk] at h1; simp at h1; subst h1
      exact .unused h2 (by omega)
  | @renew n b k r fee bal hi hb hq hn hk hr hf ht he hbl =>
    refine ⟨hi, hb, ?_⟩
    obtain ⟨k', s, u, h1, h2, h3, h4, h5⟩ := hi.q.inS n b hq
    rw [hk] at h1; simp at h1; subst h1
    rw [h4] at ht
    have hs := (hi.q.con n k hk).started s h3
    simp only [hasEnded, h3, h4, full, Bool.and_eq_false_iff, decide_eq_false_iff_not] at he
    rw [h4]
    exact .renew hq hn hk hr h3 h4 hf ht (by omega) hbl

/-- the hook as a sequence of actions, with the invariants in between -/
def Ticks (c : Cfg) := Relation.ReflTransGen fun w w' => RInv c w ∧ BalInv c w.bal ∧ Tick c w w'

theorem RInv.ticks (h : RInv c w) (hb : BalInv c w.bal) : Ticks c w (RentM.hook c w) :=
  Relation.ReflTransGen.mono (fun _ _ (h : RentAct c _ _) => h.tick) _ _ (h.hook_acts hb)

end RentM

/-- Where a change of the rent pallet's records comes from. -/
theorem step_rent_case (hc : c.Ok) (hr : Reach c w) (o : Op) (ho : o.Ok c) :
    (∃ a x, o = .call (.signed a) (.rent x) ∧ ¬ c.pot a ∧ RentM.Did c w a x (step c w o)) ∨
    (o = .hookRent ∧ RentM.Ticks c w (step c w o)) ∨
    (step c w o).rent = w.rent := by
  generalize hw' : step c w o = w'
  have key := step_case w o ho
  rw [hw'] at key
  cases key with
  | rent x ha h => exact Or.inl ⟨_, x, rfl, ha, RentM.call_did h⟩
  | hookRent => exact Or.inr (Or.inl ⟨rfl, (hr.inv hc).rent.ticks hr.micro.balInv⟩)
  | mkt x ha h =>
    have e := MktM.call_frame h
    right; right; rw [e]
  | nft x ha h =>
    have e := NftM.call_frame h
    right; right; rw [e]
  | auc x ha h =>
    have e := AucM.call_frame h
    right; right; rw [e]
  | tr x ha h =>
    have e := TrM.call_frame h
    right; right; rw [e]
  | hookAuc =>
    have e := AucM.hook_frame (c := c) w
    right; right; rw [e]
  | hookTr =>
    have e := TrM.hook_frame (c := c) w
    right; right; rw [e]
  | quiet _ hk hq => exact Or.inr (Or.inr hq.rent)

namespace RentM

theorem Tick.now (h : Tick c w w') : w'.now = w.now := by cases h <;> rfl

theorem Ticks.now (h : Ticks c w w') : w'.now = w.now := by
  induction h with
  | refl => rfl
  | tail _ h ih => rw [h.2.2.now, ih]

theorem Tick.none {n} (h : Tick c w w') (hn : w.rent.contracts.get n = none) :
    w'.rent.contracts.get n = none := by
  cases h with
  | finish => simp only [FMap.get_erase]; split <;> [rfl; exact hn]
  | renew => exact hn

theorem Ticks.none {n} (h : Ticks c w w') (hn : w.rent.contracts.get n = none) :
    w'.rent.contracts.get n = none := by
  induction h with
  | refl => exact hn
  | tail _ h ih => exact h.2.2.none ih

theorem Tick.offers (h : Tick c w w') : w'.rent.offers = w.rent.offers := by cases h <;> rfl

theorem Ticks.offers (h : Ticks c w w') : w'.rent.offers = w.rent.offers := by
  induction h with
  | refl => rfl
  | tail _ h ih => rw [h.2.2.offers, ih]

/-- what the hook does to one contract -/
theorem Ticks.at {n k} (h : Ticks c w w') (hk : w.rent.contracts.get n = some k) :
    w'.rent.contracts.get n = some k ∨
    ∃ w1, Ticks c w w1 ∧ w1.rent.contracts.get n = some k ∧ Over c w1 n k ∧
      w'.rent.contracts.get n = Option.none := by
  induction h with
  | refl => exact Or.inl hk
  | @tail w1 w2 h1 h2 ih =>
    rcases ih with ih | ⟨v, a1, a2, a3, a4⟩
    · obtain ⟨_, _, ht⟩ := h2
      cases ht with
      | @finish m k' b f hk' ho hf =>
        by_cases e : n = m
        · subst e
          rw [ih] at hk'; simp at hk'; subst hk'
          exact Or.inr ⟨w1, h1, ih, ho, by simp⟩
        · left; simp only [FMap.get_erase, e, if_false]; exact ih
      | renew => exact Or.inl ih
    · exact Or.inr ⟨v, a1, a2, a3, h2.2.2.none a4⟩

/-- what can happen to contract `k` of NFT `n` -/
inductive Turn (c : Cfg) (w : World) (n : NFTId) (k : Contract) : Op → World → Prop where
  | stay {o : Op} {w' : World} : w'.rent.contracts.get n = some k → Turn c w n k o w'
  | cancel {w' : World} : k.rentee = none → w'.rent.contracts.get n = none →
      Turn c w n k (.call (.signed k.renter) (.rent (.cancel n))) w'
  | revoke {a r : AccountId} {w' : World} : k.rentee = some r →
      (a = r ∨ a = k.renter ∧ k.renterCanRevoke = true) → w'.rent.contracts.get n = none →
      Turn c w n k (.call (.signed a) (.rent (.revoke n))) w'
  | start {a r : AccountId} {x : Call} {w' : World} : k.rentee = none → StartCall w n k r a x →
      Started c w n k r w' →
      w'.rent.contracts.get n = some { k with rentee := some r, start := some w.now } →
      Turn c w n k (.call (.signed a) (.rent x)) w'
  | change {s : Subscription} {fee : Balance} {per : Block} {md : Option Block} {ch : Bool}
      {w' : World} : k.duration = .sub s → s.changeable = true →
      w'.rent.contracts.get n = some { k with
          duration := .sub { period := per, maxDur := md.getD c.rentMaxDur, changeable := ch, newTerms := true }
          rentFee := .tokens fee } →
      (k.rentee = none → w'.rent.offers.get n = none) →
      Turn c w n k (.call (.signed k.renter) (.rent (.changeTerms n fee per md ch))) w'
  | accept {r : AccountId} {s : Subscription} {fee : Balance} {md : Option Block}
      {w' : World} : k.rentee = some r → k.duration = .sub s → s.newTerms = true →
      k.rentFee = .tokens fee → (md = none ∨ md = some s.maxDur) →
      w'.rent.contracts.get n = some { k with duration := .sub { s with newTerms := false } } →
      Turn c w n k (.call (.signed r) (.rent (.acceptTerms n fee s.period md s.changeable))) w'
  | over {w1 w' : World} : Ticks c w w1 → w1.rent.contracts.get n = some k → Over c w1 n k →
      w'.rent.contracts.get n = none → Turn c w n k .hookRent w'

theorem Did.turn {n k} {x : Call} (hi : RInv c w) (h : Did c w a x w')
    (hk : w.rent.contracts.get n = some k) : Turn c w n k (.call (.signed a) (.rent x)) w' := by
  cases h with
  | @create m dur acc rv rf f1 f2 _ h =>
    obtain ⟨d, b, q, _, hd, _, hv, _, _, _, _, _, _, _, _, _, _, _, _, _, _, rfl⟩ := create_ok h
    have : m ≠ n := by
      rintro rfl
      have := ((hi.dep.ok m k hk).owner d hd).2
      simp [valid, this] at hv
    exact .stay (by simp only [FMap.get_insert]; rw [if_neg (Ne.symm this)]; exact hk)
  | @cancel m k' b f hk' h1 h2 h3 =>
    by_cases e : n = m
    · subst e
      rw [hk] at hk'; simp at hk'; subst hk'; subst h1
      exact .cancel h2 (by simp)
    · exact .stay (by simp only [FMap.get_erase, e, if_false]; exact hk)
  | @revoke m _ h =>
    obtain ⟨k', r, d, b0, b1, b2, hk', hr, hp, hcr, hd, h0, h1, h2, _, rfl⟩ := revoke_ok h
    by_cases e : n = m
    · subst e
      rw [hk] at hk'; simp at hk'; subst hk'
      refine .revoke hr ?_ (by simp)
      rcases hp with hp | hp
      · exact Or.inr ⟨hp.symm, hcr hp⟩
      · exact Or.inl hp.symm
    · exact .stay (by simp only [FMap.get_erase, e, if_false]; exact hk)
  | @start m k' r _ _ hk' hs h =>
    obtain ⟨F, S, hr⟩ := h.rent
    by_cases e : n = m
    · subst e
      rw [hk] at hk'; simp at hk'; subst hk'
      refine .start ?_ hs h (by rw [hr]; simp)
      rcases hs with ⟨_, _, h1, _⟩ | ⟨_, _, l, hl, _⟩
      · exact h1
      · by_contra hne
        rw [hi.q.offers n k hk hne] at hl; simp at hl
    · exact .stay (by rw [hr]; simp only [FMap.get_insert, e, if_false]; exact hk)
  | makeOffer => exact .stay hk
  | retractOffer => exact .stay hk
  | @changeTerms m k' s fee per md ch hk' h1 h2 h3 h4 h5 h6 h7 =>
    by_cases e : n = m
    · subst e
      rw [hk] at hk'; simp at hk'; subst hk'; subst h1
      exact .change h2 h3 (by simp) (fun hn => by simp [hn])
    · exact .stay (by simp only [FMap.get_insert, e, if_false]; exact hk)
  | @acceptTerms m k' s fee per md ch hk' h1 h2 h3 h4 h5 h6 h7 =>
    by_cases e : n = m
    · subst e
      rw [hk] at hk'; simp at hk'; subst hk'; subst h5 h7
      exact .accept h1 h2 h3 h4 (h6.imp id Eq.symm) (by simp)
    · exact .stay (by simp only [FMap.get_insert, e, if_false]; exact hk)

end RentM

/-- Everything that can happen to a contract in one step. -/
theorem step_rent_turn (hc : c.Ok) (hr : Reach c w) (o : Op) (ho : o.Ok c) {n k}
    (hk : w.rent.contracts.get n = some k) : RentM.Turn c w n k o (step c w o) := by
  rcases step_rent_case hc hr o ho with ⟨a, x, rfl, _, h⟩ | ⟨rfl, h⟩ | e
  · exact h.turn (hr.inv hc).rent hk
  · rcases h.at hk with h | ⟨w1, h1, h2, h3, h4⟩
    · exact .stay h
    · exact .over h1 h2 h3 h4
  · exact .stay (by rw [e]; exact hk)
