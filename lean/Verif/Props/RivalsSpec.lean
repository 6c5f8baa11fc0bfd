import Verif.Model.Step
/-
What C132 speaks of.
-/
/-- accounts bid for an NFT, one after the other; a bid that is refused changes nothing -/
def Spec.bidding (n : NFTId) (l : List (AccountId × Balance)) : List Op :=
  l.map fun b => .call (.signed b.1) (.auc (.addBid n b.2))
