import Verif.Props.Auction
/-
What C134 speaks of.
-/
namespace Spec

/-- the highest bid of an auction -/
def topBid (x : Auction) : Balance := (x.bids.getLast?.map Prod.snd).getD 0

/-- the highest bids of the auctions that left the schedule but are still there: their payout failed -/
def unpaid (w w' : World) : Balance :=
  w'.auc.auctions.sumBy fun n x =>
    if n ∈ w.auc.deadlines.map Prod.fst ∧ n ∉ w'.auc.deadlines.map Prod.fst then topBid x else 0

/-- the most that is lost when the auction pallet's account is emptied while it still owes something -/
def dusted (c : Cfg) (w w' : World) : Balance :=
  if w.bal.freeOf c.aucPot ≠ 0 ∧ w'.bal.freeOf c.aucPot = 0 ∧ owed w' ≠ 0 then c.ed - 1 else 0

/-- both together, along a history -/
def damage (c : Cfg) (w : World) : List Op → Balance
  | [] => 0
  | o :: t => unpaid w (step c w o) + dusted c w (step c w o) + damage c (step c w o) t

end Spec
