import Verif.Model.Step
/-
Percentages: what it means for an amount to be a given part of another one.
-/
namespace Spec

/-- `s` is `p` millionths of `x`, to half a unit: `|s - p x / 10⁶| ≤ 1/2` -/
def PartOf (s p x : Nat) : Prop :=
  2 * (s * 1000000) ≤ 2 * (p * x) + 1000000 ∧ 2 * (p * x) ≤ 2 * (s * 1000000) + 1000000

/-- `s` is what is left of `x` after first `p` millionths and then `r` millionths of the rest are taken off, to one unit:
`|s - x (1 - p / 10⁶) (1 - r / 10⁶)| ≤ 1` -/
def LeftOf (s x p r : Nat) : Prop :=
  s * 1000000000000 ≤ x * (1000000 - p) * (1000000 - r) + 1000000000000 ∧
  x * (1000000 - p) * (1000000 - r) ≤ s * 1000000000000 + 1000000000000

/-- `m` is the commission `f` on the price `v` -/
def CommissionOn (v : Balance) (m : Balance) : Option CompoundFee → Prop
  | none => m = 0
  | some (.flat x) => m = x
  | some (.percentage p) => PartOf m p.parts v

/-- `w'` differs from `w` in the balance of `y` by a gain of `g` -/
def Gains (w w' : World) (y : AccountId) (g : Balance) : Prop := w'.bal.freeOf y = w.bal.freeOf y + g

end Spec
