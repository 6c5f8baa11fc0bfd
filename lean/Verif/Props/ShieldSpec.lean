import Verif.Props.ProlongSpec
/-
What C150 speaks of: a bid that its bidder leaves standing, while others may withdraw theirs.
-/
namespace Spec

/-- the auction `x` of NFT `n` goes on and is `x'` in the later world `w'`; account `a` withdraws no bid, others withdraw `k` -/
inductive Stands (c : Cfg) (n : NFTId) (a : AccountId) (w : World) (x : Auction) : Nat → World → Auction → Prop where
  | here : w.auc.auctions.get n = some x → Stands c n a w x 0 w x
  | next {k : Nat} {w' : World} {x' x2 : Auction} (o : Op) : Stands c n a w x k w' x' → o.Ok c →
      (step c w' o).auc.auctions.get n = some x2 → (∀ b, o = .call (.signed b) (.auc (.removeBid n)) → x2 = x') →
      Stands c n a w x k (step c w' o) x2
  | withdrawn {k : Nat} {w' : World} {x' x2 : Auction} (b : AccountId) : Stands c n a w x k w' x' → ¬ c.pot b → b ≠ a →
      (step c w' (.call (.signed b) (.auc (.removeBid n)))).auc.auctions.get n = some x2 →
      Stands c n a w x (k + 1) (step c w' (.call (.signed b) (.auc (.removeBid n)))) x2

end Spec
