/-
Fixed-point arithmetic of `sp_arithmetic` (modelled from its documentation; the
crate's source is not part of /repo).
-/

/-- `u32::MAX` -/
def U32MAX : Nat := 2 ^ 32 - 1
/-- `u128::MAX` -/
def U128MAX : Nat := 2 ^ 128 - 1

/-- `Permill`: parts per million.  The type guarantees at most `1_000_000`. -/
structure Permill where
  parts : Nat
  le : parts ≤ 1000000
deriving DecidableEq

/-- `p * x` for a fraction `p/m`: `x / m * p + round((x % m) * p / m)` with
`Rounding::NearestPrefDown` (`sp_arithmetic::per_things`, `overflow_prune_mul`,
`rational_mul_correction`). -/
def fracMul (m p x : Nat) : Nat :=
  x / m * p + (x % m * p) / m + (if (x % m * p) % m > m / 2 then 1 else 0)

/-- `Permill * Balance` -/
def Permill.mul (p : Permill) (x : Nat) : Nat := fracMul 1000000 p.parts x

/-- `Permill::from_percent(x)`: saturates at 100 percent. -/
def Permill.fromPercent (x : Nat) : Permill := ⟨min x 100 * 10000, by omega⟩

/-- `Permill::zero()` -/
def Permill.zero : Permill := ⟨0, by omega⟩

/-- `Perbill::from_rational(a, b) * x`, the part `a/b` rounded down to billionths and
saturated at one; `from_rational(_, 0)` is one. -/
def perbillOf (a b : Nat) : Nat := if b = 0 then 1000000000 else min (a * 1000000000 / b) 1000000000

/-- `Perbill * Balance` -/
def perbillMul (p x : Nat) : Nat := fracMul 1000000000 p x

theorem fracMul_le {m p : Nat} (hm : 0 < m) (hp : p ≤ m) (x : Nat) : fracMul m p x ≤ x := by
  unfold fracMul
  have hx := Nat.div_add_mod x m
  have h1 : x / m * p ≤ x / m * m := Nat.mul_le_mul_left _ hp
  have h1' : x / m * m = m * (x / m) := Nat.mul_comm _ _
  have h2 : x % m * p ≤ x % m * m := Nat.mul_le_mul_left _ hp
  have h3 := Nat.div_add_mod (x % m * p) m
  have h4 : (x % m * p) % m < m := Nat.mod_lt _ hm
  -- m * q + r ≤ (x%m) * m
  have h5 : (x % m * p) / m + (if (x % m * p) % m > m / 2 then 1 else 0) ≤ x % m := by
    split
    · next hr =>
      have : m * ((x % m * p) / m) < m * (x % m) := by
        have := Nat.mul_comm (x % m) m
        omega
      have := Nat.lt_of_mul_lt_mul_left this
      omega
    · have : m * ((x % m * p) / m) ≤ m * (x % m) := by
        have := Nat.mul_comm (x % m) m
        omega
      have := Nat.le_of_mul_le_mul_left this hm
      omega
  omega

theorem Permill.mul_le (p : Permill) (x : Nat) : p.mul x ≤ x :=
  fracMul_le (by omega) p.le x

theorem perbillOf_le (a b : Nat) : perbillOf a b ≤ 1000000000 := by
  unfold perbillOf; split <;> omega

theorem perbillMul_le {p : Nat} (hp : p ≤ 1000000000) (x : Nat) : perbillMul p x ≤ x :=
  fracMul_le (by omega) hp x

@[simp] theorem fracMul_zero (m p : Nat) : fracMul m p 0 = 0 := by simp [fracMul]
@[simp] theorem Permill.mul_zero (p : Permill) : p.mul 0 = 0 := by simp [Permill.mul]
