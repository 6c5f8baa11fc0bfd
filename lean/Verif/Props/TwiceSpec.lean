import Verif.Model.Step
/-
C118: which calls add something new each time they are made.
-/
namespace Spec

/-- Calls that make something new or send tokens: each time they are made counts. -/
def EachCounts : Call → Prop
  | .nft (.createNft ..) => True
  | .nft (.createSecret ..) => True
  | .nft (.createCapsule ..) => True
  | .nft (.createColl ..) => True
  | .mkt (.create _) => True
  | .br (.deposit ..) => True
  | .bal .. => True
  | .root (.tee (.createCluster _)) => True
  | .mandate x => EachCounts x
  | _ => False

/-- nothing is stored differently; there may be new events -/
def OnlyEvents (w w' : World) : Prop := w' = { w with evs := w'.evs }

end Spec
