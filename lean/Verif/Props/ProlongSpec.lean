import Verif.Model.Step
/-
What C147 speaks of: an auction that goes on, and its price.
-/
namespace Spec

/-- the auction `x` of NFT `n` in the world `w` goes on, and is `x'` in the later world `w'` -/
inductive Lasts (c : Cfg) (n : NFTId) (w : World) (x : Auction) : World → Auction → Prop where
  | here : w.auc.auctions.get n = some x → Lasts c n w x w x
  | next {w' : World} {x' x2 : Auction} (o : Op) : Lasts c n w x w' x' → o.Ok c →
      (step c w' o).auc.auctions.get n = some x2 → Lasts c n w x (step c w' o) x2

/-- what the next bid has to exceed -/
def price (x : Auction) : Balance := (x.bids.getLast?.map Prod.snd).getD x.startPrice

end Spec
