import Verif.Props.ObserverSpec
/-
What events tell about the tokens of those who bid in auctions.  Refers to the model's records and events, not to its calls
or hooks.
-/
namespace Spec

/-- the bids on an NFT that the books show -/
def bidsOn (v : View) (n : NFTId) : List (AccountId × Balance) := (v.auction n).elim [] (·.bids)

/-- what `y` hands over when bidding: the bid less what an earlier bid of theirs has handed over -/
def handsOver (y : AccountId) (_ : Block) (v : View) : Event → Balance
  | .bidAdded n a x => if a = y then x - (((bidsOn v n).filter (·.1 = y)).map (·.2)).sum else 0
  | _ => 0

/-- what `y` gets back: a bid taken back or a refund claimed -/
def getsBack (y : AccountId) (_ : Block) (_ : View) : Event → Balance
  | .bidRemoved _ a x => if a = y then x else 0
  | .balanceClaimed a x => if a = y then x else 0
  | _ => 0

/-- what `y` gets an NFT for: the winning bid, not the price of a purchase -/
def spends (y : AccountId) (_ : Block) (v : View) : Event → Balance
  | .auctionCompleted n (some a) (some x) _ => if a = y ∧ (a, x) ∈ bidsOn v n then x else 0
  | _ => 0

/-- sum over a series of events, if the books were `v` before -/
def total (c : Cfg) (f : Block → View → Event → Balance) (v : View) : List (Block × Event) → Balance
  | [] => 0
  | (now, e) :: l => f now v e + total c f (see c.rentPot c.grace now v e) l

end Spec
