import Verif.Model.CallSize
/-
Specification for C120: the lists on chain that grow with use.
-/
namespace Spec

/-- The lists whose length calls are charged by, or could be. -/
inductive Lst where
  /-- NFTs of a collection -/
  | members (k : CollId)
  /-- bids of an auction -/
  | bids (n : NFTId)
  /-- schedule of the auctions -/
  | deadlines
  /-- offers to rent an NFT -/
  | offers (n : NFTId)
  /-- schedules of rent contracts -/
  | rentals
  /-- consents to a transmission -/
  | consents (n : NFTId)
  /-- schedule of the transmissions -/
  | transmissions
deriving DecidableEq

def membersOf (w : World) (k : CollId) : List NFTId := ((w.nft.colls.get k).map Coll.nfts).getD []
def bidsOf (w : World) (n : NFTId) : List (AccountId × Balance) := ((w.auc.auctions.get n).map Auction.bids).getD []
def offersOf (w : World) (n : NFTId) : List AccountId := (w.rent.offers.get n).getD []
def consentsOf (w : World) (n : NFTId) : List AccountId := (w.tr.consents.get n).getD []

/-- how long a list is -/
def lengthOf (w : World) : Lst → Nat
  | .members k => (membersOf w k).length
  | .bids n => (bidsOf w n).length
  | .deadlines => w.auc.deadlines.length
  | .offers n => (offersOf w n).length
  | .rentals => w.rent.fixedQ.length + w.rent.subQ.length + w.rent.availQ.length
  | .consents n => (consentsOf w n).length
  | .transmissions => w.tr.queue.length

/-- a list has changed -/
def Rewritten (w w' : World) : Lst → Prop
  | .members k => membersOf w' k ≠ membersOf w k
  | .bids n => bidsOf w' n ≠ bidsOf w n
  | .deadlines => w'.auc.deadlines ≠ w.auc.deadlines
  | .offers n => offersOf w' n ≠ offersOf w n
  | .rentals => w'.rent.fixedQ ≠ w.rent.fixedQ ∨ w'.rent.subQ ≠ w.rent.subQ ∨ w'.rent.availQ ≠ w.rent.availQ
  | .consents n => consentsOf w' n ≠ consentsOf w n
  | .transmissions => w'.tr.queue ≠ w.tr.queue

/-- Lists that a call may rewrite without being charged by their length: a bid moves the auction's place in the
schedule, the end of an auction returns the bids, rent calls make and clear offers, transmission calls make and clear
consents. -/
inductive Uncharged : Call → Lst → Prop
  | addBid {n v} : Uncharged (.auc (.addBid n v)) .deadlines
  | end_ {n} : Uncharged (.auc (.end_ n)) (.bids n)
  | buyItNow {n p} : Uncharged (.auc (.buyItNow n p)) (.bids n)
  | cancel {n} : Uncharged (.rent (.cancel n)) (.offers n)
  | rent {n b} : Uncharged (.rent (.rent n b)) (.offers n)
  | makeOffer {n b} : Uncharged (.rent (.makeOffer n b)) (.offers n)
  | acceptOffer {n r} : Uncharged (.rent (.acceptOffer n r)) (.offers n)
  | changeTerms {n f p m b} : Uncharged (.rent (.changeTerms n f p m b)) (.offers n)
  | remove {n} : Uncharged (.tr (.remove n)) (.consents n)
  | addConsent {n} : Uncharged (.tr (.addConsent n)) (.consents n)

/-- In some reachable state the call is accepted and rewrites a list longer than the size it is charged by. -/
def Undercharged (c : Cfg) (x : Call) (l : Lst) : Prop :=
  ∃ w w' a s, Reach c w ∧ ¬ c.pot a ∧ dispatch c x (.signed a) w = .ok w' ∧ Rewritten w w' l ∧
    callSize w x = some s ∧ s < lengthOf w l

end Spec
