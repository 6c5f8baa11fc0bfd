import Verif.Proofs.Lift
/-
A fact that holds after some operations was established by one of them, or has held all along.
-/
variable {c : Cfg} {w : World}

theorem run_since {P : World → Prop} {Q : World → Op → Prop}
    (h : ∀ w o, Reach c w → o.Ok c → P (step c w o) → P w ∨ Q w o)
    (hr : Reach c w) (l : List Op) (hl : ∀ o ∈ l, o.Ok c) (hp : P (run c w l)) :
    (∀ l3 l4, l = l3 ++ l4 → P (run c w l3)) ∨
    ∃ l1 o l2, l = l1 ++ o :: l2 ∧ Q (run c w l1) o ∧
      ∀ l3 l4, l2 = l3 ++ l4 → P (run c w (l1 ++ o :: l3)) := by
  induction l generalizing w with
  | nil =>
    left
    intro l3 l4 e
    have : l3 = [] := by
      have := congrArg List.length e
      simp at this; exact List.length_eq_zero_iff.1 (by omega)
    subst this; exact hp
  | cons o t ih =>
    have ho := hl o (by simp)
    rcases ih (hr.step o ho) (fun x hx => hl x (by simp [hx])) hp with h1 | ⟨l1, o', l2, rfl, h1, h2⟩
    · rcases h w o hr ho (h1 [] t rfl) with h2 | h2
      · left
        intro l3 l4 e
        cases l3 with
        | nil => exact h2
        | cons x l3 =>
          simp only [List.cons_append, List.cons.injEq] at e
          obtain ⟨rfl, e⟩ := e
          exact h1 l3 l4 e
      · exact Or.inr ⟨[], o, t, rfl, h2, h1⟩
    · exact Or.inr ⟨o :: l1, o', l2, rfl, h1, h2⟩

theorem run_since' {P : World → Prop} {Q : World → Op → Prop}
    (h : ∀ w o, Reach c w → o.Ok c → P (step c w o) → P w ∨ Q w o)
    (hr : Reach c w) (h0 : ¬ P w) (l : List Op) (hl : ∀ o ∈ l, o.Ok c) (hp : P (run c w l)) :
    ∃ l1 o l2, l = l1 ++ o :: l2 ∧ Q (run c w l1) o ∧
      ∀ l3 l4, l2 = l3 ++ l4 → P (run c w (l1 ++ o :: l3)) := by
  rcases run_since h hr l hl hp with h1 | h1
  · exact absurd (h1 [] l rfl) h0
  · exact h1
