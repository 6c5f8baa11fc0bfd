import Verif.Props.Tee
/-
C48, what holds whatever happens to pool and operators in between.
-/
variable {c : Cfg} {w w' : World} {a : AccountId}
set_option maxRecDepth 10000

/-- the largest reward pool at any time of a history -/
def Spec.largestPool (c : Cfg) (w : World) : List Op → Balance
  | [] => w.tee.pool
  | o :: t => max w.tee.pool (largestPool c (step c w o) t)

/-- C48 (bound): along every history, with any changes of pool and operators, each reward paid for an era is at most the largest
pool there was, and all of them go to different operators; so together they are at most the pool times their number. -/
theorem C48_bound (hr : Reach c w) {E : Era} (h0 : Spec.paid E w.evs = []) (l : List Op) (hl : ∀ o ∈ l, o.Ok c) :
    (∀ p ∈ Spec.paid E (run c w l).evs, p.2 ≤ Spec.largestPool c w l) ∧
    ((Spec.paid E (run c w l).evs).map Prod.fst).Nodup ∧
    ((Spec.paid E (run c w l).evs).map Prod.snd).sum ≤
      Spec.largestPool c w l * (Spec.paid E (run c w l).evs).length := by
  have key : ∀ (l : List Op) (w : World) (P : Balance), (∀ o ∈ l, o.Ok c) → Spec.largestPool c w l ≤ P →
      (∀ p ∈ Spec.paid E w.evs, p.2 ≤ P) → ∀ p ∈ Spec.paid E (run c w l).evs, p.2 ≤ P := by
    intro l
    induction l with
    | nil => intro w P _ _ h; exact h
    | cons o t ih =>
      intro w P hl hP h
      simp only [Spec.largestPool, Nat.max_le] at hP
      refine ih (step c w o) P (fun y hy => hl y (by simp [hy])) hP.2 ?_
      by_cases e : Spec.paid E (step c w o).evs = Spec.paid E w.evs
      · rw [e]; exact h
      · obtain ⟨a, x, _, _, _, _, e1, _, _, _, _, _, _, _, hx, _⟩ := C47_claim o (hl o (by simp)) e
        rw [e1]
        intro p hp
        rcases List.mem_cons.1 hp with rfl | hp
        · exact Nat.le_trans hx hP.1
        · exact h p hp
  have h1 := key l w _ hl (Nat.le_refl _) (by rw [h0]; simp)
  refine ⟨h1, C47_once (hr.run l hl) E, ?_⟩
  generalize Spec.paid E (run c w l).evs = p at h1 ⊢
  generalize Spec.largestPool c w l = P at h1 ⊢
  induction p with
  | nil => simp
  | cons y t ih =>
    have h2 := h1 y (by simp)
    have h3 := ih fun q hq => h1 q (by simp [hq])
    simp only [List.map_cons, List.sum_cons, List.length_cons, Nat.mul_succ]
    omega

/-- the history of `C48_fails_shrinking`: two rewards of 50 and 100, from a pool of 100 -/
example : Spec.paid 5 Demo.w0.evs = [] ∧
    Spec.largestPool Demo.cfg Demo.w0 (Demo.claims ++ [Demo.by_ 8 (.tee .unregister),
      .call .root (.root (.tee (.approveUnregister 8))), Demo.by_ 9 (.tee (.claim 5))]) = 100 ∧
    Spec.paid 5 (Demo.at_ (Demo.claims ++ [Demo.by_ 8 (.tee .unregister),
      .call .root (.root (.tee (.approveUnregister 8))), Demo.by_ 9 (.tee (.claim 5))])).evs = [(9, 100), (8, 50)] :=
  ⟨rfl, by decide +kernel, by decide⟩
