import Verif.Model.Step
/-
Vocabulary of C110: two worlds that differ only in how many tokens accounts can use, and lists of calls
of which every one is accepted.
-/
namespace Spec

/-- The two worlds differ in the free balances, the locks of pallets outside and the total issuance
only, and in the second nobody owns less or has more locked by pallets outside. -/
def Richer (w1 w2 : World) : Prop :=
  (∀ a, w1.bal.freeOf a ≤ w2.bal.freeOf a) ∧ w1.bal.tee = w2.bal.tee ∧
  (∀ a, (w2.bal.other.get a).getD 0 ≤ (w1.bal.other.get a).getD 0) ∧
  w1.bal.collected = w2.bal.collected ∧ { w1 with bal := w2.bal } = w2

/-- what a call mints, at most: the amount of a bridge transfer that is voted for -/
def issues : Call → Balance
  | .br (.vote _ t) => t.amount
  | _ => 0

/-- one call after the other, each by its signer; every one must be accepted -/
def allOk (c : Cfg) (w : World) : List (AccountId × Call) → Except Err World
  | [] => .ok w
  | x :: l => dispatch c x.2 (.signed x.1) w >>= fun w' => allOk c w' l

/-- everything ever minted by the calls of a list -/
def issuedBy (l : List (AccountId × Call)) : Balance := (l.map fun x => issues x.2).sum

end Spec
