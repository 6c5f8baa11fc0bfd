import Verif.Props.Fair
/-
C152: whether it matters when an operator claims the reward of an era.
-/
open Spec

variable {c : Cfg} {w w' : World}

/-- what decides a reward besides the reports: the number of operators, the pool and the weights of the five values -/
def Spec.basis (w : World) : Nat × Balance × Params := (w.tee.data.keys.length, w.tee.pool, w.tee.weights)

namespace Patience

/-- from one moment at which the reward of an era can be claimed to another its reports are the same -/
theorem reports (l : List Op) (hl : ∀ o ∈ l, o.Ok c) {A A' E : Era} (hA : w.active = some A) (hE : E + 2 < A)
    (hA' : (run c w l).active = some A') (hw : A' < E + c.history) (op : AccountId) :
    (run c w l).tee.reports.get (E, op) = w.tee.reports.get (E, op) := by
  induction l generalizing w A with
  | nil => rfl
  | cons o t ih =>
    have ho := hl o (by simp)
    have ht := fun o' (h : o' ∈ t) => hl o' (by simp [h])
    obtain ⟨B, hB, hAB⟩ := step_active w o ho hA
    have hBA : ∀ (t : List Op) (v : World) (B : Era), (∀ o ∈ t, o.Ok c) → v.active = some B →
        ∀ C, (run c v t).active = some C → B ≤ C := by
      intro t
      induction t with
      | nil => intro v B _ hB C hC; rw [show run c v [] = v from rfl, hB] at hC; simp at hC; omega
      | cons o t ih =>
        intro v B hl hB C hC
        obtain ⟨B', h1, h2⟩ := step_active v o (hl o (by simp)) hB
        have := ih (step c v o) B' (fun o ho => hl o (by simp [ho])) h1 C hC
        omega
    have hle := hBA t (step c w o) B ht hB A' hA'
    have h1 := ih ht hB (by omega) hA'
    have h2 := C49_claimable hA hE (by omega) o ho op
    exact h1.trans h2

end Patience

/-- **C152**, what holds of it: if an operator could claim the reward of an era before a history as well as after it, and the number of
operators, the pool and the weights are the same, the amount is the same, whatever happened, however many eras have passed. -/
theorem C152_partial (l : List Op) (hl : ∀ o ∈ l, o.Ok c) {a : AccountId} {E : Era} {w1 w2 : World}
    (h1 : dispatch c (.tee (.claim E)) (.signed a) w = .ok w1)
    (h2 : dispatch c (.tee (.claim E)) (.signed a) (run c w l) = .ok w2) (hb : basis (run c w l) = basis w) (hp : a ≠ c.teePot) :
    ∃ g, w1.evs = .rewardClaimed E a g :: w.evs ∧ w2.evs = .rewardClaimed E a g :: (run c w l).evs ∧
      Gains w w1 a g ∧ Gains (run c w l) w2 a g := by
  have c1 : TeeM.claim c w a E = .ok w1 := h1
  have c2 : TeeM.claim c (run c w l) a E = .ok w2 := h2
  obtain ⟨A, _, _, b1, _, g2, _, g4, _, _, _, g8, g9⟩ := TeeM.claim_ok c1
  obtain ⟨A', _, _, b2, _, k2, _, k4, k5, _, _, k8, k9⟩ := TeeM.claim_ok c2
  have hrep := Patience.reports (E := E) l hl g2 (by omega) k2 (by omega) a
  have hrew : TeeM.reward (run c w l).tee E a = TeeM.reward w.tee E a := by
    simp only [basis, Prod.mk.injEq] at hb
    obtain ⟨e1, e2, e3⟩ := hb
    have ec : ∀ v : World, v.tee.data.card = v.tee.data.keys.length := fun v => by simp [FMap.card, FMap.keys]
    simp only [TeeM.reward, TeeM.share, hrep, ec, e1, e2, e3]
  refine ⟨TeeM.reward w.tee E a, claim_evs h1, ?_, ?_, ?_⟩
  · rw [← hrew]; exact claim_evs h2
  · have hf := Bal.transfer_free g8 (Ne.symm hp) a
    rw [if_pos rfl] at hf
    subst g9
    exact hf
  · have hf := Bal.transfer_free k8 (Ne.symm hp) a
    rw [if_pos rfl, hrew] at hf
    subst k9
    exact hf

/-- C152, whatever changes: the reports that count are the same at every moment at which the reward can be claimed; so the amount is fair
for the number of operators, the pool and the weights of the moment, and for these reports. -/
theorem C152_score_partial (l : List Op) (hl : ∀ o ∈ l, o.Ok c) {a : AccountId} {E : Era} {w1 w2 : World}
    (h1 : dispatch c (.tee (.claim E)) (.signed a) w = .ok w1)
    (h2 : dispatch c (.tee (.claim E)) (.signed a) (run c w l) = .ok w2) (hp : a ≠ c.teePot) :
    ∃ g, w2.evs = .rewardClaimed E a g :: (run c w l).evs ∧ Gains (run c w l) w2 a g ∧
      Fair g (run c w l).tee.pool (run c w l).tee.data.keys.length
        (score (run c w l).tee.weights (w.tee.reports.get (E, a))) := by
  have c1 : TeeM.claim c w a E = .ok w1 := h1
  have c2 : TeeM.claim c (run c w l) a E = .ok w2 := h2
  obtain ⟨A, _, _, b1, _, g2, _, g4, _⟩ := TeeM.claim_ok c1
  obtain ⟨A', _, _, b2, _, k2, _, k4, k5, _⟩ := TeeM.claim_ok c2
  have hrep := Patience.reports (E := E) l hl g2 (by omega) k2 (by omega) a
  obtain ⟨g, e1, e2, _, e3⟩ := C143_reward h2 hp
  rw [hrep] at e3
  exact ⟨g, e1, e2, e3⟩

/-- the reward of era 5 can be claimed; account 6 waits to become an operator -/
abbrev claimable : List Op := Demo.third ++ [.era 8]

/-- C152 fails: operator 8 can claim 50 for era 5.  If it waits, and operator 6, who was no operator in era 5, is assigned meanwhile, it
gets 33; if instead operator 9, who was one in era 5, is removed, it gets 100; if operator 8 itself leaves, it gets nothing. -/
theorem C152_fails : Reach Demo.cfg (Demo.at_ claimable) ∧
    paid 5 (Demo.at_ (claimable ++ [Demo.by_ 8 (.tee (.claim 5))])).evs = [(8, 50)] ∧
    paid 5 (Demo.at_ (claimable ++ [.call .root (.root (.tee (.assign 6 0 2))), Demo.by_ 8 (.tee (.claim 5))])).evs = [(8, 33)] ∧
    paid 5 (Demo.at_ (claimable ++ [.call .root (.root (.tee (.forceRemove 9))), Demo.by_ 8 (.tee (.claim 5))])).evs = [(8, 100)] ∧
    paid 5 (Demo.at_ (claimable ++ [Demo.by_ 8 (.tee .unregister), .call .root (.root (.tee (.approveUnregister 8))),
      Demo.by_ 8 (.tee (.claim 5))])).evs = [] :=
  ⟨Demo.reach _ (by decide), by decide, by decide, by decide, by decide⟩

-- operator 9 claims, somebody bids, blocks pass: the claim of operator 8 stays the same
example := C152_partial (c := Demo.cfg) (w := Demo.at_ claimable) [Demo.by_ 9 (.tee (.claim 5)), .tick, .hookTee, Demo.mint1] (by decide)
  (a := 8) (E := 5) (w1 := _) rfl (w2 := _) rfl rfl (by decide)

-- operator 6 joins: the reports that count are the same
example := C152_score_partial (c := Demo.cfg) (w := Demo.at_ claimable) [.call .root (.root (.tee (.assign 6 0 2)))] (by decide)
  (a := 8) (E := 5) (w1 := _) rfl (w2 := _) rfl (by decide)
