import Verif.Model.Step
/-
Rewards of enclave operators: what a fair reward is.
-/
namespace Spec

/-- the best value anybody reported -/
def topOf (l : List Report) (g : Params → Nat) : Nat := (l.map fun r => g r.params).foldr max 0

/-- the score of an operator in parts of ten thousand: full without reports; otherwise the weighted sum of the best reported
values, at most full -/
def score (weights : Params) : Option (List Report) → Nat
  | none => 10000
  | some l => min 10000 (topOf l Params.p1 * weights.p1 + topOf l Params.p2 * weights.p2 + topOf l Params.p3 * weights.p3 +
      topOf l Params.p4 * weights.p4 + topOf l Params.p5 * weights.p5)

/-- `g` is the fair reward out of the pool `P` for one of `N` operators with the score `s`, that is `P / N * s / 10⁴`: at most one
unit above it, and at most one unit and a billionth of the pool below it -/
def Fair (g P N s : Nat) : Prop :=
  g * N * 10000 ≤ P * s + N * 10000 ∧
  P * s * 1000000000 ≤ g * N * 10000000000000 + P * N * 10000 + N * 10000000000000

end Spec
