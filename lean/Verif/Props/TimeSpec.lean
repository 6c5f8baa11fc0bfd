import Verif.Model.Step
/-
Which calls depend on the time, and what it means that nothing is due.
-/
namespace Spec

/-- the same state at block `b` -/
def atBlock (b : Block) (w : World) : World := { w with now := b }

/-- The call compares the block number with a date or a deadline, or writes it down. -/
def Timed : Call → Bool
  | .auc (.create ..) => true
  | .auc (.cancel _) => true
  | .auc (.addBid ..) => true
  | .auc (.removeBid _) => true
  | .auc (.buyItNow ..) => true
  | .rent (.create ..) => true
  | .rent (.revoke _) => true
  | .rent (.rent ..) => true
  | .rent (.acceptOffer ..) => true
  | .tr _ => true
  | .tee .unregister => true
  | .tee .withdraw => true
  | .root (.tee (.forceRemove _)) => true
  | .br (.vote ..) => true
  | .mandate x => Timed x
  | _ => false

/-- everything scheduled is scheduled for a block after `b` -/
def Quiet (w : World) (b : Block) : Prop :=
  ∀ q ∈ [w.auc.deadlines, w.rent.fixedQ, w.rent.subQ, w.rent.availQ, w.tr.queue], ∀ x ∈ q, b < x.2

instance (w : World) (b : Block) : Decidable (Quiet w b) := by unfold Quiet; infer_instance

/-- no report or claim is about to leave the history -/
def Tidy (c : Cfg) (w : World) : Prop :=
  ∀ e, w.active = some e → ∀ x, x.1 + c.history = e → w.tee.claimed.get x = none ∧ w.tee.reports.get x = none

/-- the start of a block, or what the pallets do at the start of one -/
def IsBlock : Op → Bool
  | .tick => true
  | .hookAuc => true
  | .hookRent => true
  | .hookTr => true
  | .hookTee => true
  | _ => false

/-- the number of blocks begun -/
def blocks (l : List Op) : Nat := l.countP fun | .tick => true | _ => false

end Spec
