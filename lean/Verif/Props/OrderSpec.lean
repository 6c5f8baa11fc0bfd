import Verif.Model.Step
/-
The five schedules the block hooks work through.
-/
namespace Spec

/-- what can be waiting for its block -/
inductive Work where
  /-- an auction that is to be settled -/
  | auction
  /-- a rental for a fixed time that is to end -/
  | fixed
  /-- a subscription whose next period is to be paid -/
  | subscription
  /-- a contract nobody has taken, that is to expire -/
  | unused
  /-- an NFT that is to be transmitted -/
  | transmission

/-- NFTs waiting for work of one kind, each with its block, in the order in which the pallet stores them -/
def schedule (w : World) : Work → List (NFTId × Block)
  | .auction => w.auc.deadlines
  | .fixed => w.rent.fixedQ
  | .subscription => w.rent.subQ
  | .unused => w.rent.availQ
  | .transmission => w.tr.queue

/-- the hook that does work of this kind -/
def hookFor : Work → Op
  | .auction => .hookAuc
  | .fixed => .hookRent
  | .subscription => .hookRent
  | .unused => .hookRent
  | .transmission => .hookTr

/-- is `x` ahead of `y` in a schedule? -/
def Ahead (l : List (NFTId × Block)) (x y : NFTId × Block) : Prop := List.Sublist [x, y] l

/-- Does the operation put the NFT of `x` into the schedule anew, for the block it already waits for?  Only the owner of an
NFT with a resettable timer can ask for this. -/
def Requeues (x : NFTId × Block) (o : Op) : Prop := ∃ a, o = .call (.signed a) (.tr (.resetTimer x.1 x.2))

end Spec
