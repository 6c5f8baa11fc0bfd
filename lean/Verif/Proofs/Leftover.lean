import Mathlib.Data.List.Induction
import Verif.Props.LeftoverSpec
import Verif.Proofs.TeeRew
import Verif.Proofs.Stray
import Verif.Proofs.AucHook
/-
Pruning of the per-era tables.
-/
open Spec

variable {c : Cfg} {w : World}

/-- only `.era` changes the active era -/
theorem step_active_eq (w : World) (o : Op) (ho : o.Ok c) (h : ∀ e, o ≠ .era e) : (step c w o).active = w.active := by
  cases step_tee w o ho with
  | quiet h1 h2 h3 h4 =>
    rcases h4 with h4 | ⟨e, h4, _⟩
    · exact h4
    · exact absurd h4 (h e)
  | call _ _ h' =>
    have e := TeeM.call_frame h'
    exact fr% World.active e
  | @root g x r w1 l _ _ _ h' _ e' =>
    have e := TeeM.root_frame h'
    have e : w1.active = w.active := fr% World.active e
    rw [e']; exact e
  | hook _ e' =>
    have e := TeeM.hook_frame (c := c) w
    have e : (TeeM.hook c w).active = w.active := fr% World.active e
    rw [e', e]

/-- what is recorded after a step was recorded before, or is for an era in the window -/
theorem step_recorded (hc : 2 ≤ c.history) (w : World) (o : Op) (ho : o.Ok c) {E : Era} (h : Recorded (step c w o) E) :
    (Recorded w E ∧ (o = .hookTee → ∀ A, w.active = some A → c.history ≤ A → E ≠ A - c.history)) ∨
    ∃ A, w.active = some A ∧ E ≤ A ∧ A < E + c.history ∧ o ≠ .hookTee ∧ ∀ e, o ≠ .era e := by
  obtain ⟨op, h | h⟩ := h
  · by_cases hk : o = .hookTee
    · subst hk
      left
      revert h
      simp only [step, TeeM.hook]
      cases hA : w.active with
      | none => intro h; exact ⟨⟨op, Or.inl h⟩, by simp⟩
      | some A =>
        dsimp only
        split
        · rename_i hA'
          intro h
          simp only [TeeM.clearEra, FMap.get_filterKeys] at h
          split at h
          · rename_i hE
            refine ⟨⟨op, Or.inl h⟩, ?_⟩
            intro _ B hB _; simp at hB; subst hB; simpa using hE
          · exact absurd rfl h
        · rename_i hA'
          intro h
          refine ⟨⟨op, Or.inl h⟩, ?_⟩
          intro _ B hB hB'; simp at hB; subst hB; exact absurd hB' hA'
    · have hm := step_reports w o ho E op
      generalize (step c w o).tee.reports.get (E, op) = y at hm h
      generalize hx : w.tee.reports.get (E, op) = x at hm
      cases hm with
      | same => exact Or.inl ⟨⟨op, Or.inl (by rw [hx]; exact h)⟩, fun e => absurd e hk⟩
      | cleared => exact absurd rfl h
      | @reported _ _ _ A _ h1 _ _ _ _ h6 h7 _ =>
        right
        exact ⟨A, h6, by omega, by omega, hk, by subst h1; simp⟩
  · by_cases hk : o = .hookTee
    · subst hk
      left
      revert h
      simp only [step, TeeM.hook]
      cases hA : w.active with
      | none => intro h; exact ⟨⟨op, Or.inr h⟩, by simp⟩
      | some A =>
        dsimp only
        split
        · rename_i hA'
          intro h
          simp only [TeeM.clearEra, FMap.get_filterKeys] at h
          split at h
          · rename_i hE
            refine ⟨⟨op, Or.inr h⟩, ?_⟩
            intro _ B hB _; simp at hB; subst hB; simpa using hE
          · exact absurd rfl h
        · rename_i hA'
          intro h
          refine ⟨⟨op, Or.inr h⟩, ?_⟩
          intro _ B hB hB'; simp at hB; subst hB; exact absurd hB' hA'
    · by_cases hq : w.tee.claimed.get (E, op) = none
      · rcases step_claimed w o ho (E, op) with h1 | ⟨h1, _⟩ | ⟨h1, h2⟩
        · rw [h1] at h; exact absurd hq h
        · exact absurd h1 hk
        · subst h1
          right
          simp only [step, dispatch, signedCall, TeeM.call] at h
          cases hx : TeeM.claim c w op E with
          | error e => rw [hx] at h; exact absurd hq h
          | ok w' =>
            obtain ⟨A, as, e, b, h1, h2, h3, h4, h5, h6, h7, h8, _⟩ := TeeM.claim_ok hx
            exact ⟨A, h2, by omega, by omega, by simp, by simp⟩
      · exact Or.inl ⟨⟨op, Or.inr hq⟩, fun e => absurd e hk⟩

/-- the hook has run since the last change of the era -/
def Hooked (l : List Op) : Prop := ∀ l1 e l2, l = l1 ++ .era e :: l2 → .hookTee ∈ l2

theorem Spec.EraPaced.left {l : List Op} {o : Op} (h : EraPaced c w (l ++ [o])) : EraPaced c w l :=
  ⟨fun l1 e l2 e1 => h.next l1 e (l2 ++ [o]) (by rw [e1]; simp),
   fun l1 e l2 e' l3 e1 => h.hook l1 e l2 e' (l3 ++ [o]) (by rw [e1]; simp)⟩

theorem run_pruned (hc : 2 ≤ c.history) {w0 : World} (h0 : Genesis c w0) (l : List Op) (hl : ∀ o ∈ l, o.Ok c)
    (hp : EraPaced c w0 l) {E : Era} (h : Recorded (run c w0 l) E) :
    ∃ A, (run c w0 l).active = some A ∧ E ≤ A ∧ A ≤ E + c.history ∧ (Hooked l → A < E + c.history) := by
  induction l using List.reverseRecOn with
  | nil =>
    obtain ⟨_, _, _, _, _, _, _, _, _, _, e1, e2, _⟩ := h0.tee
    obtain ⟨op, h | h⟩ := h
    · exact absurd (show w0.tee.reports.get _ = none by rw [e1]; rfl) h
    · exact absurd (show w0.tee.claimed.get _ = none by rw [e2]; rfl) h
  | append_singleton l o ih =>
    have ho := hl o (by simp)
    have hrun : run c w0 (l ++ [o]) = step c (run c w0 l) o := by rw [run_append]; rfl
    rw [hrun] at h ⊢
    have ih := ih (fun x hx => hl x (by simp [hx])) hp.left
    rcases step_recorded hc _ o ho h with ⟨h1, h2⟩ | ⟨A, h1, h2, h3, h4, h5⟩
    · obtain ⟨A, i1, i2, i3, i4⟩ := ih h1
      by_cases hk : o = .hookTee
      · subst hk
        refine ⟨A, by rw [step_active_eq _ _ ho (by simp)]; exact i1, i2, i3, fun _ => ?_⟩
        have := h2 rfl A i1
        omega
      · by_cases he : ∃ e, o = .era e
        · obtain ⟨e, rfl⟩ := he
          have i5 := i4 fun l1 e1 l2 hh => hp.hook l1 e1 l2 e [] (by rw [hh]; simp)
          have hn := hp.next l e [] rfl A i1
          simp only [step]
          split
          · rename_i ha
            have ha := ha A (by simp [i1])
            refine ⟨e, rfl, by omega, by omega, fun hh => ?_⟩
            have := hh l e [] rfl
            simp at this
          · exact ⟨A, i1, i2, i3, fun _ => i5⟩
        · refine ⟨A, by rw [step_active_eq _ _ ho (fun e hh => he ⟨e, hh⟩)]; exact i1, i2, i3, fun hh => i4 ?_⟩
          intro l1 e l2 hs
          have := hh l1 e (l2 ++ [o]) (by rw [hs]; simp)
          simp only [List.mem_append, List.mem_singleton] at this
          rcases this with h | h
          · exact h
          · exact absurd h.symm hk
    · exact ⟨A, by rw [step_active_eq _ _ ho h5]; exact h1, h2, by omega, fun _ => h3⟩

/-- the commission noted for an auction is never removed -/
theorem step_comm (w : World) (o : Op) (ho : o.Ok c) {n : NFTId} (h : w.auc.comm.get n ≠ none) :
    (step c w o).auc.comm.get n ≠ none := by
  rcases step_auc_case w o ho with ⟨a, x, _, _, h1⟩ | ⟨_, h1⟩ | h1
  · generalize step c w o = w' at h1
    cases h1 with
    | create => simp only [FMap.get_insert]; split <;> simp [h]
    | _ => exact h
  · generalize step c w o = w' at h1
    induction h1 with
    | refl => exact h
    | tail _ h2 ih => rw [h2.comm]; exact ih
  · rw [h1]; exact h
