import Verif.Model.Step
import Mathlib.Tactic.Common
/-
What the rent pallet's composite actions do when they succeed, as explicit state changes.
-/
namespace RentM
variable {c : Cfg} {w w' : World} {a : AccountId}

/-- the NFT map after giving NFT `m`, if any, to `a` -/
def cho (f : FMap NFTId NFTData) (m : Option NFTId) (a : AccountId) : FMap NFTId NFTData :=
  match m with
  | none => f
  | some m => match f.get m with
    | none => f
    | some d => f.insert m { d with owner := a }

theorem get_cho (f : FMap NFTId NFTData) (m : Option NFTId) (a : AccountId) (k : NFTId) :
    (cho f m a).get k =
      if m = some k then (f.get k).map (fun d => { d with owner := a }) else f.get k := by
  unfold cho
  cases m with
  | none => simp
  | some m =>
    cases h : f.get m with
    | none => by_cases e : m = k <;> simp_all
    | some d => by_cases e : m = k <;> simp_all [FMap.get_insert, eq_comm]

theorem payAct_ok {s d v l} (h : payAct c s d v l w = (w', .ok ())) :
    ∃ b, w.bal.transfer c.ed s d v l = .ok b ∧ w' = w.putBal b := by
  unfold payAct at h
  split at h
  · rename_i b hb; simp at h; exact ⟨b, hb, h.symm⟩
  · simp at h

theorem chownOpt_ok {m} (h : chownOpt m a w = (w', .ok ())) :
    (∀ x, m = some x → (w.nfts.get x).isSome) ∧ w' = { w with nfts := cho w.nfts m a } := by
  unfold chownOpt at h
  cases m with
  | none => simp [Act.skip] at h; simp [cho, h]
  | some m =>
    simp only [chownAct] at h
    split at h
    · rename_i d hd
      simp at h
      simp [← h, cho, hd, World.putNft]
    · simp at h

theorem seq_ok {f g : Act} (h : f.seq g w = (w', .ok ())) :
    ∃ w1, f w = (w1, .ok ()) ∧ g w1 = (w', .ok ()) := by
  unfold Act.seq at h
  split at h
  · rename_i w1 h1; exact ⟨w1, h1, h⟩
  · simp at h

theorem ext_ok {f : Act} (h : f.ext w = .ok w') : f w = (w', .ok ()) := by
  unfold Act.ext at h
  split at h
  · rename_i w1 h1; simp at h; subst h; exact h1
  · simp at h

/-- the NFT the rentee deposited, if the contract runs -/
def renteeNft (k : Contract) : Option NFTId := k.rentee.bind fun _ => feeNft k.renteeFee

/-- the tokens the rentee deposited, if the contract runs -/
def renteeTokens (k : Contract) : Balance := if k.rentee.isSome then feeTokens k.renteeFee else 0

/-- What a finished or cancelled contract leaves behind. -/
theorem finished_ok {n} (h : handleFinished c n w = (w', .ok ())) :
    ∃ k d b1 b2, w.rent.contracts.get n = some k ∧ w.nfts.get n = some d ∧
      w.bal.transfer c.ed c.rentPot k.renter (feeTokens k.renterFee) .allowDeath = .ok b1 ∧
      b1.transfer c.ed c.rentPot (k.rentee.getD 0) (renteeTokens k) .allowDeath = .ok b2 ∧
      w' = { w with
        bal := b2
        nfts := (cho (cho w.nfts (feeNft k.renterFee) k.renter)
          (renteeNft k) (k.rentee.getD 0)).insert n { d with st := { d.st with rented := false } }
        rent := { w.rent with contracts := w.rent.contracts.erase n } } := by
  unfold handleFinished at h
  split at h
  · simp at h
  · rename_i k hk
    split at h
    · simp at h
    · rename_i d hd
      obtain ⟨w1, h1, h⟩ := seq_ok h
      obtain ⟨b1, hb1, rfl⟩ := payAct_ok h1
      refine ⟨k, d, b1, ?_⟩
      cases hr : k.rentee with
      | none =>
        simp only [hr] at h
        obtain ⟨w2, h2, h⟩ := seq_ok h
        simp only [Act.skip, Prod.mk.injEq, and_true] at h2
        subst h2
        obtain ⟨w3, h3, h⟩ := seq_ok h
        obtain ⟨_, rfl⟩ := chownOpt_ok h3
        obtain ⟨w4, h4, h⟩ := seq_ok h
        simp only [Act.skip, Prod.mk.injEq, and_true] at h4
        subst h4
        simp only [Prod.mk.injEq, and_true] at h
        refine ⟨b1, hk, hd, hb1, by simp [renteeTokens, hr, Bal.transfer], ?_⟩
        rw [← h]
        simp [World.putBal, World.putNft, renteeNft, hr, cho]
      | some r =>
        simp only [hr] at h
        obtain ⟨w2, h2, h⟩ := seq_ok h
        obtain ⟨b2, hb2, rfl⟩ := payAct_ok h2
        obtain ⟨w3, h3, h⟩ := seq_ok h
        obtain ⟨_, rfl⟩ := chownOpt_ok h3
        obtain ⟨w4, h4, h⟩ := seq_ok h
        obtain ⟨_, rfl⟩ := chownOpt_ok h4
        simp only [Prod.mk.injEq, and_true] at h
        refine ⟨b2, hk, hd, hb1, by simpa [renteeTokens, hr, World.putBal] using hb2, ?_⟩
        rw [← h]
        simp [World.putBal, World.putNft, renteeNft, hr]

theorem returnFee_ok {f dst} (h : (returnFee c f dst).ext w = .ok w') :
    ∃ b, w.bal.transfer c.ed c.rentPot dst (feeTokens f) .allowDeath = .ok b ∧
      (∀ x, feeNft f = some x → (w.nfts.get x).isSome) ∧
      w' = { w with bal := b, nfts := cho w.nfts (feeNft f) dst } := by
  have h := ext_ok h
  unfold returnFee at h
  obtain ⟨w1, h1, h⟩ := seq_ok h
  obtain ⟨b1, hb1, rfl⟩ := payAct_ok h1
  obtain ⟨hx, rfl⟩ := chownOpt_ok h
  exact ⟨b1, hb1, hx, rfl⟩

/-- what the offender of a revoked contract gets back of a flexible deposit -/
def keptPart (k : Contract) (now : Block) (f : CancelFee) : Balance :=
  match flexible f with
  | none => 0
  | some x => (Permill.fromPercent (min ((now - k.start.getD 0) * 100) U32MAX / full k.duration)).mul x

theorem keptPart_le (k : Contract) (now : Block) (f : CancelFee) :
    keptPart k now f ≤ feeTokens f := by
  unfold keptPart
  cases f <;> simp [flexible, feeTokens, Permill.mul_le]

theorem penalty_ok {k now f dam} (h : penalty c k now f a dam w = .ok w') :
    ∃ b1 b2,
      w.bal.transfer c.ed c.rentPot a (keptPart k now f) .allowDeath = .ok b1 ∧
      b1.transfer c.ed c.rentPot dam (feeTokens f - keptPart k now f) .allowDeath = .ok b2 ∧
      ((flexible f).isSome → ∃ s, k.start = some s ∧ s ≤ now) ∧
      w' = { w with bal := b2, nfts := cho w.nfts (feeNft f) dam } := by
  unfold penalty at h
  split at h
  · rename_i x hx
    cases f <;> simp [flexible] at hx
    subst hx
    simp only [completion] at h
    inv_ok at h
    obtain ⟨p, s, hs, h1, h2, rfl, h⟩ := h
    have h := ext_ok h
    unfold returnFlexible at h
    obtain ⟨w1, h1', h⟩ := seq_ok h
    obtain ⟨b1, hb1, rfl⟩ := payAct_ok h1'
    obtain ⟨b2, hb2, rfl⟩ := payAct_ok h
    refine ⟨b1, b2, ?_, ?_, ?_, ?_⟩
    · simpa [keptPart, flexible, hs] using hb1
    · simpa [keptPart, flexible, hs, feeTokens, World.putBal] using hb2
    · intro _; refine ⟨s, hs, ?_⟩
      by_contra hc; simp [hc] at h1
    · simp [cho, feeNft, World.putBal]
  · rename_i hx
    obtain ⟨b, h1, h2, rfl⟩ := returnFee_ok h
    refine ⟨w.bal, b, by simp [keptPart, hx, Bal.transfer], by simpa [keptPart, hx] using h1, ?_, rfl⟩
    simp [hx]

/-- What a revocation leaves behind. -/
theorem revoke_ok {n} (h : revoke c w a n = .ok w') :
    ∃ k r d b0 b1 b2, w.rent.contracts.get n = some k ∧ k.rentee = some r ∧
      (k.renter = a ∨ r = a) ∧ (k.renter = a → k.renterCanRevoke = true) ∧
      (cho (cho w.nfts (feeNft (if k.renter = a then k.renteeFee else k.renterFee))
          (if k.renter = a then r else k.renter))
        (feeNft (if k.renter = a then k.renterFee else k.renteeFee))
          (if k.renter = a then r else k.renter)).get n = some d ∧
      w.bal.transfer c.ed c.rentPot (if k.renter = a then r else k.renter)
        (feeTokens (if k.renter = a then k.renteeFee else k.renterFee)) .allowDeath = .ok b0 ∧
      b0.transfer c.ed c.rentPot a
        (keptPart k w.now (if k.renter = a then k.renterFee else k.renteeFee)) .allowDeath = .ok b1 ∧
      b1.transfer c.ed c.rentPot (if k.renter = a then r else k.renter)
        (feeTokens (if k.renter = a then k.renterFee else k.renteeFee) -
          keptPart k w.now (if k.renter = a then k.renterFee else k.renteeFee)) .allowDeath
        = .ok b2 ∧
      ((flexible (if k.renter = a then k.renterFee else k.renteeFee)).isSome →
        ∃ s, k.start = some s ∧ s ≤ w.now) ∧
      w' = { w with
        bal := b2
        nfts := (cho (cho w.nfts (feeNft (if k.renter = a then k.renteeFee else k.renterFee))
          (if k.renter = a then r else k.renter))
        (feeNft (if k.renter = a then k.renterFee else k.renteeFee))
          (if k.renter = a then r else k.renter)).insert n
            { d with st := { d.st with rented := false } }
        rent := { removeKind w.rent k.duration n with
          contracts := w.rent.contracts.erase n } } := by
  unfold revoke at h
  inv_ok at h
  obtain ⟨k, r, w1, w2, d, hk, hr, hp, hc, h1, h2, hd, rfl⟩ := h
  obtain ⟨b0, hb0, hx, rfl⟩ := returnFee_ok h1
  obtain ⟨b1, b2, hb1, hb2, hs, rfl⟩ := penalty_ok h2
  refine ⟨k, r, d, b0, b1, b2, hk, hr, hp, hc, hd, hb0, hb1, hb2, hs, ?_⟩
  have : (removeKind w.rent k.duration n).contracts = w.rent.contracts := by
    unfold removeKind; split <;> rfl
  simp [World.putNft, this]

theorem checkNft_ok {m u} (h : checkNft w a m = .ok u) :
    ∀ x, m = some x → ∃ d, w.nfts.get x = some d ∧ d.owner = a ∧ valid d.st = true := by
  unfold checkNft at h
  intro x hx
  subst hx
  inv_ok at h
  obtain ⟨d, h1, h2, h3⟩ := h
  exact ⟨d, h1, h2, h3⟩

/-- What taking the rentee's fees does. -/
theorem takeFees_ok {r k} (h : takeFees c w r k = .ok w') :
    ∃ b1 b2, w.bal.transfer c.ed r k.renter (rentTokens k.rentFee) .keepAlive = .ok b1 ∧
      b1.transfer c.ed r c.rentPot (feeTokens k.renteeFee) .keepAlive = .ok b2 ∧
      (∀ x, rentNft k.rentFee = some x →
        ∃ d, w.nfts.get x = some d ∧ d.owner = r ∧ valid d.st = true) ∧
      (∀ x, feeNft k.renteeFee = some x →
        ∃ d, w.nfts.get x = some d ∧ d.owner = r ∧ valid d.st = true) ∧
      w' = { w with
        bal := b2
        nfts := cho (cho w.nfts (rentNft k.rentFee) k.renter) (feeNft k.renteeFee) c.rentPot } := by
  unfold takeFees at h
  inv_ok at h
  obtain ⟨b1, b2, w1, h1, h2, h3, h4, h5, h6⟩ := h
  obtain ⟨_, rfl⟩ := chownOpt_ok (ext_ok h5)
  obtain ⟨_, rfl⟩ := chownOpt_ok (ext_ok h6)
  exact ⟨b1, b2, h1, h2, checkNft_ok h3, checkNft_ok h4, rfl⟩

theorem insertKind_ok {r r' : RentSt} {d n b} (h : insertKind c r d n b = some r') :
    r' = { r with fixedQ := r'.fixedQ, subQ := r'.subQ } := by
  unfold insertKind at h
  split at h <;> simp only [Option.map_eq_some_iff] at h <;> obtain ⟨q, _, rfl⟩ := h <;> rfl

theorem startContract_ok {n k r} (h : startContract c w n k r = .ok w') :
    ∃ w1 q, takeFees c w r k = .ok w1 ∧
      insertKind c { w.rent with availQ := w.rent.availQ.remove n } k.duration n
        (w.now + period k.duration) = some q ∧
      w' = { w1 with rent := { q with
        offers := w.rent.offers.erase n
        contracts := w.rent.contracts.insert n { k with rentee := some r, start := some w.now } } } := by
  unfold startContract at h
  inv_ok at h
  obtain ⟨w1, q, h1, h2, rfl⟩ := h
  have e : w1.rent = w.rent ∧ w1.now = w.now := by
    obtain ⟨_, _, _, _, _, _, rfl⟩ := takeFees_ok h1; simp
  rw [e.1, e.2] at h2
  have e2 := insertKind_ok h2
  refine ⟨w1, q, h1, h2, ?_⟩
  rw [e.2]
  have e3 : q.offers = w.rent.offers := by rw [e2]
  have e4 : q.contracts = w.rent.contracts := by rw [e2]
  rw [e3, e4]

end RentM
