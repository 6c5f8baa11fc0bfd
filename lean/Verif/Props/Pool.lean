import Verif.Props.Fair
import Verif.Props.Collect
/-
C145: what all operators together get for an era.
-/
variable {c : Cfg} {w : World} {E : Era}
open Spec

namespace Pool

theorem one {a : AccountId} (ha : w.tee.data.get a ≠ none) :
    Fair (TeeM.reward w.tee E a) w.tee.pool w.tee.data.keys.length (score w.tee.weights (w.tee.reports.get (E, a))) := by
  have hN : 0 < w.tee.data.keys.length := List.length_pos_of_mem (FMap.get_ne_none_iff_mem_keys.1 ha)
  have hc : w.tee.data.card = w.tee.data.keys.length := by simp [FMap.card, FMap.keys]
  obtain ⟨h1, h2⟩ := Fair.share (P := w.tee.pool) hN
  unfold TeeM.reward
  cases hr : w.tee.reports.get (E, a) with
  | none =>
    refine Fair.fair (Nat.le_refl _) h1 h2 ?_ ?_ <;> simp only [TeeM.share, hc, score] <;> linarith
  | some l =>
    simp only [TeeM.share, hc, TeeM.weighted, Fair.topOf_eq]
    obtain ⟨h3, h4⟩ := Fair.scored
      (S := topOf l Params.p1 * w.tee.weights.p1 + topOf l Params.p2 * w.tee.weights.p2 + topOf l Params.p3 * w.tee.weights.p3 +
        topOf l Params.p4 * w.tee.weights.p4 + topOf l Params.p5 * w.tee.weights.p5)
      (Y := perbillMul (perbillOf 1 w.tee.data.keys.length) w.tee.pool)
    exact Fair.fair (Nat.min_le_left ..) h1 h2 h3 h4

/-- fair rewards add up -/
theorem add {P N : Nat} {f s : AccountId → Nat} (l : List AccountId) (h : ∀ a ∈ l, Fair (f a) P N (s a)) :
    (l.map f).sum * N * 10000 ≤ P * (l.map s).sum + l.length * (N * 10000) ∧
    P * (l.map s).sum * 1000000000 ≤ (l.map f).sum * N * 10000000000000 + l.length * (P * N * 10000 + N * 10000000000000) := by
  induction l with
  | nil => simp
  | cons a t ih =>
    obtain ⟨i1, i2⟩ := ih fun b hb => h b (by simp [hb])
    obtain ⟨j1, j2⟩ := h a (by simp)
    simp only [List.map_cons, List.sum_cons, List.length_cons, Nat.add_mul, Nat.mul_add, Nat.one_mul] at i2 j2 ⊢
    constructor <;> linarith

theorem score_le (k : Params) (r : Option (List Report)) : score k r ≤ 10000 := by
  cases r with
  | none => exact Nat.le_refl _
  | some l => exact Nat.min_le_left ..

theorem sum_le (l : List AccountId) (s : AccountId → Nat) (h : ∀ a ∈ l, s a ≤ 10000) : (l.map s).sum ≤ l.length * 10000 := by
  induction l with
  | nil => simp
  | cons a t ih =>
    have := ih fun b hb => h b (by simp [hb])
    have := h a (by simp)
    simp only [List.map_cons, List.sum_cons, List.length_cons]
    omega

theorem sum_eq (l : List AccountId) (s : AccountId → Nat) (h : ∀ a ∈ l, s a = 10000) : (l.map s).sum = l.length * 10000 := by
  induction l with
  | nil => simp
  | cons a t ih =>
    have := ih fun b hb => h b (by simp [hb])
    have := h a (by simp)
    simp only [List.map_cons, List.sum_cons, List.length_cons]
    omega

theorem cancel {N a b : Nat} (hN : 0 < N) (h : N * a ≤ N * b) : a ≤ b := Nat.le_of_mul_le_mul_left h hN

end Pool

/-- **C145**: if all operators claim the reward of an era, one after the other in any order, and the account holds the pool, one
unit for each operator and the existential deposit, then the account pays together the pool times the average score: at most one
unit per operator more, and at most one unit and a billionth of the pool per operator less. -/
theorem C145_scores (hr : Reach c w) {l : List AccountId} (hne : l ≠ []) (hd : l.Nodup)
    (hall : ∀ a, a ∈ l ↔ w.tee.data.get a ≠ none) (hl : ∀ a ∈ l, MayClaim c w a E)
    (hp : w.tee.pool + l.length + c.ed ≤ w.bal.freeOf c.teePot) :
    ∃ total, (run c w (claimRewards (l.map fun a => (a, E)))).bal.freeOf c.teePot + total = w.bal.freeOf c.teePot ∧
      total * l.length * 10000 ≤
        w.tee.pool * (l.map fun a => score w.tee.weights (w.tee.reports.get (E, a))).sum + l.length * l.length * 10000 ∧
      w.tee.pool * (l.map fun a => score w.tee.weights (w.tee.reports.get (E, a))).sum * 1000000000 ≤
        total * l.length * 10000000000000 + w.tee.pool * l.length * l.length * 10000 + l.length * l.length * 10000000000000 := by
  have hN : w.tee.data.keys.length = l.length := by
    refine (List.Perm.length_eq ?_)
    refine (List.perm_ext_iff_of_nodup ?_ hd).2 fun a => ?_
    · exact w.tee.data.nd
    · rw [hall, FMap.get_ne_none_iff_mem_keys]
  have hf : ∀ a ∈ l, Fair (TeeM.reward w.tee E a) w.tee.pool l.length (score w.tee.weights (w.tee.reports.get (E, a))) :=
    fun a ha => hN ▸ Pool.one ((hall a).1 ha)
  obtain ⟨h1, h2⟩ := Pool.add l hf
  have hpos : 0 < l.length := List.length_pos_iff.2 hne
  have hS := Pool.sum_le l (fun a => score w.tee.weights (w.tee.reports.get (E, a))) fun a _ => Pool.score_le ..
  have hsum : rewardSum w (l.map fun a => (a, E)) = (l.map fun a => TeeM.reward w.tee E a).sum := by
    simp only [rewardSum, List.map_map]
    exact congrArg List.sum (List.map_congr_left fun a _ => Spec.reward_eq w E a)
  generalize hT : (l.map fun a => TeeM.reward w.tee E a).sum = T at *
  generalize (l.map fun a => score w.tee.weights (w.tee.reports.get (E, a))).sum = S at *
  have hle : T ≤ w.tee.pool + l.length := by
    have := Nat.mul_le_mul_left w.tee.pool hS
    refine Pool.cancel (N := l.length * 10000) (by omega) ?_
    nlinarith
  obtain ⟨_, _, h3, _⟩ := C135_rewards hr (l.map fun a => (a, E)) (hd.map fun _ _ h => (Prod.mk.inj h).1)
    (by intro x hx; obtain ⟨a, ha, rfl⟩ := List.mem_map.1 hx; exact hl a ha) (by rw [hsum]; omega)
  refine ⟨T, by rw [← hsum]; exact h3, ?_, ?_⟩
  · linarith
  · linarith

/-- **C145, full scores**: if nobody was reported, the era's pool is paid out, up to that rounding. -/
theorem C145_pool (hr : Reach c w) {l : List AccountId} (hne : l ≠ []) (hd : l.Nodup)
    (hall : ∀ a, a ∈ l ↔ w.tee.data.get a ≠ none) (hl : ∀ a ∈ l, MayClaim c w a E)
    (hs : ∀ a ∈ l, w.tee.reports.get (E, a) = none)
    (hp : w.tee.pool + l.length + c.ed ≤ w.bal.freeOf c.teePot) :
    ∃ total, (run c w (claimRewards (l.map fun a => (a, E)))).bal.freeOf c.teePot + total = w.bal.freeOf c.teePot ∧
      total ≤ w.tee.pool + l.length ∧
      w.tee.pool * 1000000000 ≤ total * 1000000000 + w.tee.pool * l.length + l.length * 1000000000 := by
  obtain ⟨T, h1, h2, h3⟩ := C145_scores hr hne hd hall hl hp
  rw [Pool.sum_eq l _ fun a ha => by rw [hs a ha]; rfl] at h2 h3
  have hpos : 0 < l.length := List.length_pos_iff.2 hne
  generalize l.length = N at *
  generalize w.tee.pool = P at *
  refine ⟨T, h1, ?_, ?_⟩
  · refine Pool.cancel (N := N * 10000) (by omega) ?_
    linarith
  · refine Pool.cancel (N := N * 10000) (by omega) ?_
    linarith

-- both operators claim and get a pool of 100 paid out
theorem Demo.operators (a : AccountId) : a ∈ [8, 9] ↔ (Demo.at_ Demo.entitled).tee.data.get a ≠ none := by
  have : (Demo.at_ Demo.entitled).tee.data.keys = [9, 8] := by decide +kernel
  rw [FMap.get_ne_none_iff_mem_keys, this]
  simp only [List.mem_cons, List.not_mem_nil, or_false]
  exact or_comm

set_option maxRecDepth 20000 in
example := C145_pool (c := Demo.cfg) (Demo.reach Demo.entitled (by decide)) (l := [8, 9]) (E := 5) (by decide) (by decide)
  Demo.operators (fun a ha => Demo.entitled_may (by simpa using ha)) (by decide +kernel) (by decide +kernel)
example : (Demo.at_ Demo.entitled).tee.pool = 100 ∧
    (run Demo.cfg (Demo.at_ Demo.entitled) (claimRewards [(8, 5), (9, 5)])).bal.freeOf Demo.cfg.teePot + 100 =
      (Demo.at_ Demo.entitled).bal.freeOf Demo.cfg.teePot := by decide +kernel
