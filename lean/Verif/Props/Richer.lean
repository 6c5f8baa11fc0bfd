import Verif.Proofs.Richer
import Verif.Props.Hook
/-
C110: having more tokens never makes a call fail, or act differently.
-/
open Spec
variable {c : Cfg} {w w1 w2 v1 : World}

/- demo calls -/

/-- account 1 rents its NFT out to account 6, who pays; both then part, and the NFT is given to account 7 -/
abbrev givenTo : List (AccountId × Call) :=
  [(1, .rent (.create 0 (.fixed 10) (.auto none) true (.tokens 300) .none .none)), (6, .rent (.rent 0 0)),
   (1, .rent (.revoke 0)), (1, .nft (.transferNft 0 7))]

/-- **C110.**  If a signed call is accepted, it is also accepted in every world that differs only in that accounts own
more tokens or have less locked by pallets outside.  It then does the same to everything but balances, collects the same fees and locks the same stakes, and
again nobody owns less.  (A vote for a bridge transfer could hit the limit of the total issuance.) -/
theorem C110 {a : AccountId} {x : Call} (h : Richer w1 w2) (hx : w2.bal.issuance + issues x ≤ U128MAX)
    (hok : dispatch c x (.signed a) w1 = .ok v1) : ∃ v2, dispatch c x (.signed a) w2 = .ok v2 ∧ Richer v1 v2 := by
  have e : ∀ w, dispatch c x (.signed a) w = signedCall c w a x := fun w => by cases x <;> rfl
  rw [e] at hok ⊢
  obtain ⟨v2, h1, h2⟩ := (signed_le (c := c) (w := w1) h.bal a x hx).out v1 hok
  rw [h.eq]
  exact ⟨v2, h1, h2.richer⟩

/-- C110 for lists of calls of any length. -/
theorem C110_run {l : List (AccountId × Call)} (h : Richer w1 w2) (hl : w2.bal.issuance + issuedBy l ≤ U128MAX)
    (hok : allOk c w1 l = .ok v1) : ∃ v2, allOk c w2 l = .ok v2 ∧ Richer v1 v2 := by
  induction l generalizing w1 w2 with
  | nil => cases hok; exact ⟨w2, rfl, h⟩
  | cons x l ih =>
    simp only [issuedBy, List.map_cons, List.sum_cons] at hl
    simp only [allOk] at hok ⊢
    cases h1 : dispatch c x.2 (.signed x.1) w1 with
    | error e => rw [h1] at hok; cases hok
    | ok u1 =>
      rw [h1] at hok
      obtain ⟨u2, h2, h'⟩ := C110 h (by omega) h1
      rw [h2]
      have e : ∀ w, dispatch c x.2 (.signed x.1) w = signedCall c w x.1 x.2 := fun w => by cases x.2 <;> rfl
      rw [e] at h2
      have := signed_issuance h2
      refine ih h' ?_ hok
      simp only [issuedBy]
      omega

/-- C110 for a gift: whoever receives tokens from outside first, every list of calls that would have been accepted is
still accepted, with the same effects but for the balances. -/
theorem C110_gift {l : List (AccountId × Call)} (a : AccountId) (g : Balance)
    (hl : w.bal.issuance + g + issuedBy l ≤ U128MAX) (hok : allOk c w l = .ok v1) :
    ∃ v2, allOk c (step c w (.mint a g)) l = .ok v2 ∧ Richer v1 v2 := by
  have hm := (Bal.mint_issuance (ed := c.ed) w.bal a g).2.1
  refine C110_run ⟨fun z => ?_, ?_, ?_, ?_, rfl⟩ (by simp only [step, World.putBal]; omega) hok
  · show _ ≤ (w.bal.mint c.ed a g).freeOf z
    unfold Bal.mint
    dsimp only
    generalize min g _ = u
    split
    · exact Nat.le_refl _
    · show _ ≤ (w.bal.setFree a (w.bal.freeOf a + u)).freeOf z
      rw [Bal.freeOf_setFree]
      split
      · next e => subst e; exact Nat.le_add_right _ _
      · exact Nat.le_refl _
  · simp only [step, World.putBal, Bal.mint]
    split <;> rfl
  · intro z
    simp only [step, World.putBal, Bal.mint]
    split <;> exact Nat.le_refl _
  · simp only [step, World.putBal, Bal.mint]
    split <;> rfl

/-- C110 for locks: if a pallet outside lowers its lock on an account, every list of calls that would have been accepted
is still accepted, with the same effects. -/
theorem C110_unlock {l : List (AccountId × Call)} (a : AccountId) (v : Balance) (hv : v ≤ (w.bal.other.get a).getD 0)
    (hl : w.bal.issuance + issuedBy l ≤ U128MAX) (hok : allOk c w l = .ok v1) :
    ∃ v2, allOk c (step c w (.lock a v)) l = .ok v2 ∧ Richer v1 v2 := by
  refine C110_run (w1 := w) ⟨fun z => Nat.le_refl _, rfl, fun z => ?_, rfl, rfl⟩ hl hok
  show ((w.bal.other.insert a v).get z).getD 0 ≤ _
  rw [FMap.get_insert]
  split
  · next e => subst e; exact hv
  · exact Nat.le_refl _

/-- A list of calls of several pallets that is accepted with and without the gift; account 6 is left with different
balances. -/
example : ∃ w v1 v2, Reach Demo.cfg w ∧ allOk Demo.cfg w givenTo = .ok v1 ∧
    allOk Demo.cfg (step Demo.cfg w (.mint 6 500)) givenTo = .ok v2 ∧
    w.bal.issuance + 500 + issuedBy givenTo ≤ U128MAX ∧ v1.bal.freeOf 6 = 9700 ∧ v2.bal.freeOf 6 = 10200 ∧
    (v1.nfts.get 0).map (·.owner) = some 7 ∧ (v2.nfts.get 0).map (·.owner) = some 7 :=
  ⟨Demo.at_ [Demo.mint1], _, _, Demo.reach _ (by decide), rfl, rfl, by decide, by decide, by decide, by decide, by decide⟩

/-- **A refused call may be accepted with more tokens**, so `C110` cannot be an equivalence. -/
theorem C110_more : ∃ c w a x, Reach c w ∧ (∃ e, dispatch c x (.signed a) w = .error e) ∧
    ∃ v, dispatch c x (.signed a) (step c w (.mint a 1000)) = .ok v :=
  ⟨Demo.cfg, Demo.at_ [], 1, .bal 2 10500 .keepAlive, Demo.reach _ (by decide), ⟨_, rfl⟩, ⟨_, rfl⟩⟩

/-- **The hook of the rent pallet is different**: with more tokens a subscriber pays the next period, so the rental
goes on where it would have ended. -/
theorem C110_hook : ∃ c w n, c.Ok ∧ Reach c w ∧
    (step c w .hookRent).rent.contracts.get n = none ∧
    (step c (step c w (.mint 2 5000)) .hookRent).rent.contracts.get n ≠ none :=
  ⟨Demo.cfg, Demo.at_ (dueTogether 2), 0, Demo.cfg_ok, Demo.reach _ (by decide), by rfl, by decide⟩

/-- An outside lock that is lowered; with the old lock the transfer is refused. -/
example : (∃ e, dispatch Demo.cfg (.bal 2 500 .keepAlive) (.signed 1) (Demo.at_ [.lock 1 9600]) = .error e) ∧
    (∃ v, allOk Demo.cfg (Demo.at_ [.lock 1 9600]) [(1, .bal 2 400 .keepAlive)] = .ok v) ∧
    (∃ v, allOk Demo.cfg (Demo.at_ [.lock 1 9600, .lock 1 9000]) [(1, .bal 2 400 .keepAlive), (1, .bal 2 500 .keepAlive)]
      = .ok v) := ⟨⟨_, rfl⟩, ⟨_, rfl⟩, ⟨_, rfl⟩⟩
