import Verif.Props.Auction
import Verif.Props.Operate
/-
What C135 speaks of.
-/
namespace Spec

/-- accounts claim their refunds from the auction pallet, one after the other; who has none is refused -/
def claimRefunds (l : List AccountId) : List Op := l.map fun a => .call (.signed a) (.auc .claim)

/-- operators claim the rewards of eras, one after the other -/
def claimRewards (l : List (AccountId × Era)) : List Op := l.map fun x => .call (.signed x.1) (.tee (.claim x.2))

/-- the sum of rewards -/
def rewardSum (w : World) (l : List (AccountId × Era)) : Balance := (l.map fun x => reward w x.2 x.1).sum

/-- what an account holds after payments leave it with `v`: below the existential deposit it is closed -/
def unlessClosed (ed v : Balance) : Balance := if v < ed then 0 else v

/-- an operator may claim the reward of an era -/
structure MayClaim (c : Cfg) (w : World) (a : AccountId) (E : Era) : Prop where
  user : ¬ c.pot a
  pos : 0 < E
  enclave : w.tee.data.get a ≠ none
  since : ∃ s, w.tee.assignedEra.get a = some s ∧ s ≤ E
  window : ∃ A, w.active = some A ∧ E + 2 < A ∧ A < E + c.history
  open_ : w.tee.claimed.get (E, a) = none
  account : CanGet c w a (reward w E a)

end Spec
