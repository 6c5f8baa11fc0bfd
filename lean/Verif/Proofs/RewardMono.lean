import Verif.Model.Step
import Verif.Proofs.TeeRew
/-
C111: the reward grows with the reported values.
-/

/-- rounding to the nearest is monotone -/
theorem round_mono {m z1 z2 : Nat} (hm : 0 < m) (h : z1 ≤ z2) :
    z1 / m + (if z1 % m > m / 2 then 1 else 0) ≤ z2 / m + (if z2 % m > m / 2 then 1 else 0) := by
  have h1 := Nat.div_add_mod z1 m
  have h2 := Nat.div_add_mod z2 m
  have h3 := Nat.mod_lt z1 hm
  have h4 := Nat.mod_lt z2 hm
  have h5 : z1 / m ≤ z2 / m := Nat.div_le_div_right h
  rcases Nat.lt_or_ge (z1 / m) (z2 / m) with h6 | h6
  · split <;> split <;> omega
  · have h7 : z1 / m = z2 / m := by omega
    rw [h7] at h1 ⊢
    split <;> split <;> omega

theorem fracMul_mono {m p q x : Nat} (hm : 0 < m) (h : p ≤ q) : fracMul m p x ≤ fracMul m q x := by
  unfold fracMul
  have h1 : x / m * p ≤ x / m * q := Nat.mul_le_mul_left _ h
  have h2 := round_mono hm (Nat.mul_le_mul_left (x % m) h)
  omega

theorem perbillOf_mono {a b n : Nat} (h : a ≤ b) : perbillOf a n ≤ perbillOf b n := by
  unfold perbillOf
  split
  · omega
  · have : a * 1000000000 / n ≤ b * 1000000000 / n := Nat.div_le_div_right (by omega)
    omega

namespace TeeM

theorem highest_ge (l : List Report) (p0 : Params) :
    let f := l.foldl (fun p (r : Report) =>
      ({ p1 := max p.p1 r.params.p1, p2 := max p.p2 r.params.p2, p3 := max p.p3 r.params.p3,
         p4 := max p.p4 r.params.p4, p5 := max p.p5 r.params.p5 } : Params)) p0
    ∀ g ∈ [Params.p1, Params.p2, Params.p3, Params.p4, Params.p5], ∀ y,
      g f ≤ y ↔ g p0 ≤ y ∧ ∀ r ∈ l, g r.params ≤ y := by
  induction l generalizing p0 with
  | nil => intro f g _ y; simp [f]
  | cons x t ih =>
    intro f g hg y
    simp only [f, List.foldl_cons]
    rw [ih _ g hg y]
    simp only [List.mem_cons, List.not_mem_nil, or_false] at hg
    rcases hg with rfl | rfl | rfl | rfl | rfl <;>
      simp only [List.forall_mem_cons, Nat.max_le, and_assoc]

theorem highest_mono {l1 l2 : List Report} {g : Params → Nat}
    (hg : g ∈ [Params.p1, Params.p2, Params.p3, Params.p4, Params.p5])
    (h : ∀ r ∈ l1, ∃ r' ∈ l2, g r.params ≤ g r'.params) : g (highest l1) ≤ g (highest l2) := by
  refine ((highest_ge l1 _) g hg _).2 ⟨?_, fun r hr => ?_⟩
  · simp only [List.mem_cons, List.not_mem_nil, or_false] at hg
    rcases hg with rfl | rfl | rfl | rfl | rfl <;> exact Nat.zero_le _
  · obtain ⟨r', h1, h2⟩ := h r hr
    exact Nat.le_trans h2 ((((highest_ge l2 ⟨0, 0, 0, 0, 0⟩) g hg _).1 (Nat.le_refl _)).2 r' h1)

theorem weighted_mono {v1 v2 k : Params}
    (h : ∀ g ∈ [Params.p1, Params.p2, Params.p3, Params.p4, Params.p5], g v1 ≤ g v2) : weighted v1 k ≤ weighted v2 k := by
  simp only [List.forall_mem_cons] at h
  obtain ⟨h1, h2, h3, h4, h5, -⟩ := h
  have := Nat.mul_le_mul_right k.p1 h1
  have := Nat.mul_le_mul_right k.p2 h2
  have := Nat.mul_le_mul_right k.p3 h3
  have := Nat.mul_le_mul_right k.p4 h4
  have := Nat.mul_le_mul_right k.p5 h5
  unfold weighted
  omega

end TeeM
