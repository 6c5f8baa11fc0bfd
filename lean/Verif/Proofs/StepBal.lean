import Verif.Proofs.StepCase
/-
Balances of pallet accounts at the level of operations.
-/
variable {c : Cfg} {w w' : World} {a : AccountId}

/-- Root and committee calls move no tokens; they may change staking locks. -/
theorem dispatch_bal (x : Call) : ∀ (o : Origin) (w w' : World), (∀ a, o ≠ .signed a) →
    dispatch c x o w = .ok w' → w'.bal = { w.bal with tee := w'.bal.tee } := by
  induction x with
  | mandate y ih =>
    have key : ∀ w w', mandateResult w (dispatch c y .root w) = .ok w' →
        w'.bal = { w.bal with tee := w'.bal.tee } := by
      intro w w' h
      rcases mandateResult_ok h with ⟨w1, hy, rfl⟩ | ⟨e, hy, rfl⟩
      · exact ih .root w w1 (by simp) hy
      · rfl
    intro o w w' ho h
    cases o with
    | signed a => exact absurd rfl (ho a)
    | root => exact key w w' h
    | ext => exact key w w' h
  | root y =>
    intro o w w' ho h
    cases o with
    | signed a => exact absurd rfl (ho a)
    | root =>
      simp only [dispatch] at h
      cases y <;> simp only [rootCall] at h
      case tee r => exact fr% World.bal (TeeM.root_frame h)
      all_goals simp only [Except.ok.injEq] at h; subst h
      case trFee k x => cases k <;> rfl
      all_goals rfl
    | ext => simp [dispatch] at h
  | ext y =>
    intro o w w' ho h
    cases o with
    | signed a => exact absurd rfl (ho a)
    | root =>
      have e := BrM.ext_frame h
      rw [e]
    | ext =>
      have e := BrM.ext_frame h
      rw [e]
  | _ =>
    intro o w w' ho h
    cases o with
    | signed a => exact absurd rfl (ho a)
    | root => simp [dispatch] at h
    | ext => simp [dispatch] at h

/-- Which operations can take money out of a pallet account. -/
theorem step_pot_free (hc : c.Ok) (hr : Reach c w) (o : Op) (ho : o.Ok c) {p : AccountId} (hp : c.pot p) :
    w.bal.freeOf p ≤ (step c w o).bal.freeOf p ∨
    (p = c.aucPot ∧ ((∃ a x, o = .call (.signed a) (.auc x)) ∨ o = .hookAuc)) ∨
    (p = c.rentPot ∧ ((∃ a x, o = .call (.signed a) (.rent x)) ∨ o = .hookRent)) ∨
    (p = c.teePot ∧ ∃ a x, o = .call (.signed a) (.tee x)) ∨
    (p = c.rewPot ∧ o = .eraPayout) := by
  have hi := (hr.inv hc).rent
  cases o <;> simp only [step]
  case call o x =>
    cases h : dispatch c x o w with
    | error e => exact Or.inl (Nat.le_refl _)
    | ok w' =>
      cases o with
      | root => exact Or.inl (Nat.le_of_eq (by rw [orSame, dispatch_bal x _ _ _ (by simp) h]; rfl))
      | ext => exact Or.inl (Nat.le_of_eq (by rw [orSame, dispatch_bal x _ _ _ (by simp) h]; rfl))
      | signed a =>
        have hs : signedCall c w a x = .ok w' := by cases x <;> exact h
        simp only [orSame]
        have mono : ∀ {S}, Bal.Mono S w.bal w'.bal → ¬ S p → w.bal.freeOf p ≤ w'.bal.freeOf p :=
          fun h => h.free p
        cases x <;> simp only [signedCall] at hs
        case auc x =>
          by_cases e : p = c.aucPot
          · exact Or.inr (Or.inl ⟨e, Or.inl ⟨_, _, rfl⟩⟩)
          · refine Or.inl (mono (AucM.call_pays hs).mono ?_)
            rintro (e' | e')
            · exact ho (e' ▸ hp)
            · exact e e'
        case rent x =>
          by_cases e : p = c.rentPot
          · exact Or.inr (Or.inr (Or.inl ⟨e, Or.inl ⟨_, _, rfl⟩⟩))
          · refine Or.inl ?_
            refine mono (RentM.call_pays hs).mono ?_
            cases x <;> simp only [RentM.payer] <;> rintro (e' | e')
            case acceptOffer.inr =>
              obtain ⟨rfl, l, hl, hm⟩ := e'
              exact hi.q.offersOk _ _ hl _ hm hp
            all_goals first | exact e e' | exact ho (e' ▸ hp)
        case tee x =>
          by_cases e : p = c.teePot
          · exact Or.inr (Or.inr (Or.inr (Or.inl ⟨e, _, _, rfl⟩)))
          · rcases TeeM.call_bal hs with ⟨_, h⟩ | ⟨m, e', hm⟩
            · exact Or.inl (h.mono.free _ e)
            · rw [e']; exact Or.inl (Nat.le_refl _)
        case nft x => exact Or.inl ((NftM.call_pays hs).mono.free _ (not_pot_ne ho hp))
        case mkt x => exact Or.inl ((MktM.call_pays hs).mono.free _ (not_pot_ne ho hp))
        case tr x => exact Or.inl ((TrM.call_pays hs).mono.free _ (not_pot_ne ho hp))
        case br x =>
          refine Or.inl ?_
          cases x <;> simp only [BrM.call] at hs
          case vote k t =>
            simp only [BrM.voteFor] at hs; inv_ok at hs
            obtain ⟨y, _, _, _, rfl⟩ := hs
            cases y.2
            · exact Nat.le_refl _
            · exact (Bal.mint_mono ..).free _ (S := fun _ => False) (by simp)
          case deposit =>
            simp only [BrM.deposit] at hs; inv_ok at hs
            obtain ⟨b1, b2, _, _, h3, h4, rfl⟩ := hs
            have m1 := (Bal.payFee_mono h3).free _ (not_pot_ne ho hp)
            have m2 := (Bal.withdraw_mono h4).free _ (not_pot_ne ho hp)
            exact Nat.le_trans m1 m2
        case bal d v l =>
          cases hb : w.bal.transfer c.ed a d v l with
          | error e => simp [hb, Except.map] at hs
          | ok b =>
            simp [hb, Except.map] at hs; subst hs
            exact Or.inl ((Bal.transfer_mono hb).free _ (not_pot_ne ho hp))
        all_goals simp at hs
  case hookAuc =>
    by_cases e : p = c.aucPot
    · exact Or.inr (Or.inl ⟨e, Or.inr trivial⟩)
    · exact Or.inl ((AucM.hook_pays w).mono.free _ e)
  case hookRent =>
    by_cases e : p = c.rentPot
    · exact Or.inr (Or.inr (Or.inl ⟨e, Or.inr trivial⟩))
    · refine Or.inl ((RentM.hook_pays w).mono.free _ ?_)
      rintro (e' | ⟨n, k, hk, hx⟩)
      · exact e e'
      · exact (hi.q.con n k hk).rentee p hx hp
  case hookTr =>
    have := congrArg World.bal (TrM.hook_frame (c := c) w)
    rw [this]; exact Or.inl (Nat.le_refl _)
  case hookTee =>
    have := congrArg World.bal (TeeM.hook_frame (c := c) w)
    rw [this]; exact Or.inl (Nat.le_refl _)
  case tick => exact Or.inl (Nat.le_refl _)
  case era e => split <;> exact Or.inl (Nat.le_refl _)
  case txFee q f t au =>
    refine Or.inl ?_
    cases h : RewM.txFee c w q f t au with
    | error e => exact Nat.le_refl _
    | ok w' =>
      simp only [orSame]
      simp only [RewM.txFee] at h; inv_ok at h
      obtain ⟨b, h3, rfl⟩ := h
      have m := (Bal.withdraw_mono h3).free _ (not_pot_ne ho hp)
      cases au with
      | none => exact m
      | some x =>
        refine Nat.le_trans m ?_
        exact (Bal.mint_mono (S := fun _ => False) (b.burn _) _ _).free _ (by simp)
  case eraPayout =>
    by_cases e : p = c.rewPot
    · exact Or.inr (Or.inr (Or.inr (Or.inr ⟨e, trivial⟩)))
    · refine Or.inl ?_
      unfold RewM.eraPayout
      dsimp only [World.putBal, World.ev]
      split
      · rename_i b h3
        exact (Bal.withdraw_mono h3).free _ e
      · exact Nat.le_refl _
  case mint => exact Or.inl ((Bal.mint_mono ..).free _ (S := fun _ => False) (by simp))
  case lock => exact Or.inl (Nat.le_refl _)
