import Verif.Props.FairSpec
import Verif.Props.Round
import Verif.Props.Metric
/-
C143: a reward is the operator's fair share.
-/
open Spec

variable {c : Cfg} {w w' : World} {a : AccountId} {E : Era}

namespace Fair

theorem topOf_eq (l : List Report) : TeeM.highest l =
    ⟨topOf l Params.p1, topOf l Params.p2, topOf l Params.p3, topOf l Params.p4, topOf l Params.p5⟩ := by
  have h : ∀ (l : List Report) (p : Params), l.foldl (fun p r =>
      ({ p1 := max p.p1 r.params.p1, p2 := max p.p2 r.params.p2, p3 := max p.p3 r.params.p3,
         p4 := max p.p4 r.params.p4, p5 := max p.p5 r.params.p5 } : Params)) p =
      ⟨max p.p1 (topOf l Params.p1), max p.p2 (topOf l Params.p2), max p.p3 (topOf l Params.p3),
        max p.p4 (topOf l Params.p4), max p.p5 (topOf l Params.p5)⟩ := by
    intro l
    induction l with
    | nil => intro p; simp [topOf]
    | cons r t ih =>
      intro p
      rw [List.foldl_cons, ih]
      simp only [topOf, List.map_cons, List.foldr_cons, Nat.max_assoc]
  rw [TeeM.highest, h]
  simp

theorem part {m N P : Nat} (h0 : 0 < m) (hN : 0 < N) :
    2 * (fracMul m (m / N) P * N * m) ≤ 2 * (P * m) + N * m ∧
    2 * (P * m) ≤ 2 * (fracMul m (m / N) P * N * m) + 2 * (P * N) + N * m := by
  have h := Round.frac m (m / N) P h0
  have e := Nat.div_add_mod m N
  have hm := Nat.mod_lt m hN
  generalize m / N = q at *
  generalize m % N = z at *
  generalize fracMul m q P = y at *
  obtain ⟨h1, h2⟩ := h
  have m1 := Nat.mul_le_mul_right N h1
  have m2 := Nat.mul_le_mul_right N h2
  have e1 : P * (N * q) + P * z = P * m := by rw [← Nat.mul_add, e]
  have e2 : 2 * (y * m) * N = 2 * (y * N * m) := by ring
  have e3 : (2 * (q * P) + m) * N = 2 * (P * (N * q)) + N * m := by ring
  have e4 : 2 * (q * P) * N = 2 * (P * (N * q)) := by ring
  have e5 : (2 * (y * m) + m) * N = 2 * (y * N * m) + N * m := by ring
  have e6 : P * z ≤ P * N := Nat.mul_le_mul_left _ (by omega)
  rw [e2, e3] at m1
  rw [e4, e5] at m2
  constructor <;> omega

-- the equal share
set_option maxRecDepth 10000 in
theorem share {P N : Nat} (hN : 0 < N) :
    2 * (perbillMul (perbillOf 1 N) P * N) ≤ 2 * P + N ∧
    2 * (P * 1000000000) ≤ 2 * (perbillMul (perbillOf 1 N) P * N * 1000000000) + 2 * (P * N) + N * 1000000000 := by
  have hq : perbillOf 1 N = 1000000000 / N := by
    unfold perbillOf
    rw [if_neg (by omega), Nat.one_mul]
    exact Nat.min_eq_left (Nat.div_le_self ..)
  rw [hq, perbillMul]
  obtain ⟨h1, h2⟩ := part (m := 1000000000) (N := N) (P := P) (by omega) hN
  exact ⟨by omega, h2⟩

set_option maxRecDepth 10000 in
theorem tenth {y Z : Nat} (h : 2 * (y * 1000000000) ≤ 2 * (100000 * Z) + 1000000000 ∧
    2 * (100000 * Z) ≤ 2 * (y * 1000000000) + 1000000000) :
    2 * (y * 10000) ≤ 2 * Z + 10000 ∧ 2 * Z ≤ 2 * (y * 10000) + 10000 := by
  constructor <;> linarith [h.1, h.2]

-- the score
set_option maxRecDepth 10000 in
theorem scored {S Y : Nat} : 2 * (perbillMul (perbillOf S 10000) Y * 10000) ≤ 2 * (min 10000 S * Y) + 10000 ∧
    2 * (min 10000 S * Y) ≤ 2 * (perbillMul (perbillOf S 10000) Y * 10000) + 10000 := by
  have hq : perbillOf S 10000 = min 10000 S * 100000 := by
    unfold perbillOf
    rw [if_neg (by omega)]
    have : S * 1000000000 / 10000 = S * 100000 := by omega
    rw [this]
    omega
  rw [hq, perbillMul]
  have h := Round.frac 1000000000 (min 10000 S * 100000) Y (by omega)
  rw [show min 10000 S * 100000 * Y = 100000 * (min 10000 S * Y) by ring] at h
  exact tenth h

theorem fair {P N s Y g : Nat} (hs : s ≤ 10000) (h1 : 2 * (Y * N) ≤ 2 * P + N)
    (h2 : 2 * (P * 1000000000) ≤ 2 * (Y * N * 1000000000) + 2 * (P * N) + N * 1000000000)
    (h3 : 2 * (g * 10000) ≤ 2 * (s * Y) + 10000) (h4 : 2 * (s * Y) ≤ 2 * (g * 10000) + 10000) : Fair g P N s := by
  have m1 := Nat.mul_le_mul_left s h1
  have m2 := Nat.mul_le_mul_left s h2
  have m3 := Nat.mul_le_mul_right N h3
  have m4 := Nat.mul_le_mul_right N h4
  have sN : s * N ≤ 10000 * N := Nat.mul_le_mul_right _ hs
  have sPN : s * (P * N) ≤ 10000 * (P * N) := Nat.mul_le_mul_right _ hs
  have a1 : s * (2 * (Y * N)) = 2 * (s * Y * N) := by ring
  have a2 : s * (2 * P + N) = 2 * (P * s) + s * N := by ring
  have a3 : s * (2 * (P * 1000000000)) = 2000000000 * (P * s) := by ring
  have a4 : s * (2 * (Y * N * 1000000000) + 2 * (P * N) + N * 1000000000) =
    2000000000 * (s * Y * N) + 2 * (s * (P * N)) + 1000000000 * (s * N) := by ring
  have a5 : 2 * (g * 10000) * N = 20000 * (g * N) := by ring
  have a6 : (2 * (s * Y) + 10000) * N = 2 * (s * Y * N) + 10000 * N := by ring
  have a7 : 2 * (s * Y) * N = 2 * (s * Y * N) := by ring
  have a8 : (2 * (g * 10000) + 10000) * N = 20000 * (g * N) + 10000 * N := by ring
  rw [a1, a2] at m1
  rw [a3, a4] at m2
  rw [a5, a6] at m3
  rw [a7, a8] at m4
  unfold Spec.Fair
  constructor <;> omega

end Fair

/-- **C143**: a claim that is accepted announces and pays the fair reward for the number of operators, the pool and the score at that
moment. -/
theorem C143_reward (h : dispatch c (.tee (.claim E)) (.signed a) w = .ok w') (hp : a ≠ c.teePot) :
    ∃ g, w'.evs = .rewardClaimed E a g :: w.evs ∧ Gains w w' a g ∧ 0 < w.tee.data.keys.length ∧
      Fair g w.tee.pool w.tee.data.keys.length (score w.tee.weights (w.tee.reports.get (E, a))) := by
  have hcl : TeeM.claim c w a E = .ok w' := h
  obtain ⟨A, as, e, b, g1, g2, g3, g4, g5, g6, g7, g8, g9⟩ := TeeM.claim_ok hcl
  have hN : 0 < w.tee.data.keys.length :=
    List.length_pos_of_mem (FMap.get_ne_none_iff_mem_keys.1 (show w.tee.data.get a ≠ none by simp [g7]))
  refine ⟨TeeM.reward w.tee E a, claim_evs h, ?_, hN, ?_⟩
  · have hf := Bal.transfer_free g8 (Ne.symm hp) a
    rw [if_pos rfl] at hf
    subst g9
    exact hf
  · have hc : w.tee.data.card = w.tee.data.keys.length := by simp [FMap.card, FMap.keys]
    obtain ⟨h1, h2⟩ := Fair.share (P := w.tee.pool) hN
    unfold TeeM.reward
    cases hr : w.tee.reports.get (E, a) with
    | none =>
      refine Fair.fair (Nat.le_refl _) h1 h2 ?_ ?_ <;> simp only [TeeM.share, hc, score] <;> linarith
    | some l =>
      simp only [TeeM.share, hc, TeeM.weighted, Fair.topOf_eq]
      obtain ⟨h3, h4⟩ := Fair.scored
        (S := topOf l Params.p1 * w.tee.weights.p1 + topOf l Params.p2 * w.tee.weights.p2 + topOf l Params.p3 * w.tee.weights.p3 +
          topOf l Params.p4 * w.tee.weights.p4 + topOf l Params.p5 * w.tee.weights.p5)
        (Y := perbillMul (perbillOf 1 w.tee.data.keys.length) w.tee.pool)
      exact Fair.fair (Nat.min_le_left ..) h1 h2 h3 h4

-- two operators share a pool of 100
example := C143_reward (c := Demo.cfg) (w := Demo.at_ (Demo.enclaves ++ [.era 8, .hookTee])) (a := 8) (E := 5) rfl (by decide)

-- the same after a report of 33 percent: the score is 3300, the fair reward 16.5, and 16 are paid
example : score (Demo.at_ (Demo.measured (some 33))).tee.weights
      ((Demo.at_ (Demo.measured (some 33))).tee.reports.get (5, 8)) = 3300 ∧
    Demo.gets (some 33) = [(8, 16)] := by decide

example := C143_reward (c := Demo.cfg) (w := Demo.at_ (Demo.measured (some 33))) (a := 8) (E := 5) rfl (by decide)
