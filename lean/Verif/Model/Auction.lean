import Verif.Model.Marketplace
/-
Model of /repo/auction/src/lib.rs and /repo/auction/src/types.rs.
Simplification: `saturating_add` on claims and block numbers is exact addition (no `u128`/`u32`
saturation).
-/
namespace AucM
variable (c : Cfg)

/-- `find_bid`, auction/src/types.rs 210-215: the first bid of an account -/
def findBid (who : AccountId) : List (AccountId × Balance) → Option Balance
  | [] => none
  | (a, v) :: t => if a = who then some v else findBid who t

/-- `remove_bid`, auction/src/types.rs 202-207: drops the first bid of an account -/
def removeBid (who : AccountId) : List (AccountId × Balance) → List (AccountId × Balance)
  | [] => []
  | (a, v) :: t => if a = who then t else (a, v) :: removeBid who t

/-- `insert_new_bid`, auction/src/types.rs 156-171: if full, drop the lowest (first) bid; returns the
dropped bid and the new list; `list.remove(0)` panics on an empty list -/
def insertBid (l : List (AccountId × Balance)) (who : AccountId) (v : Balance) :
    Except Err (Option (AccountId × Balance) × List (AccountId × Balance)) :=
  if c.bidLimit ≤ l.length then
    match l with
    | [] => .error (.panic "removal index (is 0) should be < len (is 0)")
    | x :: t => .ok (some x, t ++ [(who, v)])
  else .ok (none, l ++ [(who, v)])

/-- `add_claim`, auction/src/lib.rs 704-708 -/
def addClaim (m : FMap AccountId Balance) (who : AccountId) (v : Balance) : FMap AccountId Balance :=
  m.insert who ((m.get who).getD 0 + v)

/-- `auction.for_each_bidder(&|(owner, amount)| Self::add_claim(owner, *amount))` -/
def addClaims (m : FMap AccountId Balance) (l : List (AccountId × Balance)) :
    FMap AccountId Balance :=
  l.foldl (fun m x => addClaim m x.1 x.2) m

/-- claim of an optional dropped bid, auction/src/lib.rs 549-552 -/
def addClaimOpt (m : FMap AccountId Balance) : Option (AccountId × Balance) → FMap AccountId Balance
  | none => m
  | some x => addClaim m x.1 x.2

/-- The cuts of `pay_for_nft`, auction/src/lib.rs 681-692: (marketplace, NFT creator, auction
creator), with saturating subtractions. -/
def cuts (amount : Balance) (comm : Option CompoundFee) (royalty : Permill) :
    Balance × Balance × Balance :=
  let m := MktM.feeOnOpt amount comm
  let r := royalty.mul (amount - m)
  (m, r, amount - m - r)

/-- three transfers in a row, auction/src/lib.rs 694-697.  Each transfer is atomic; when one fails
the earlier ones stay done (which matters in the block hook, where nothing is rolled back). -/
def paySeq (b : Bal) (src : AccountId) (l : Live) : List (AccountId × Balance) → Bal × Except Err Unit
  | [] => (b, .ok ())
  | (d, v) :: t =>
    match b.transfer c.ed src d v l with
    | .error e => (b, .error e)
    | .ok b' => paySeq b' src l t

/-- `pay_for_nft`, auction/src/lib.rs 666-702 -/
def payForNft (w : World) (n : NFTId) (src : AccountId) (amount : Balance) (d : NFTData)
    (a : Auction) : Bal × Except Err Unit :=
  match w.mkt.mkts.get a.mkt with
  | none => (w.bal, .error (.e "MarketplaceNotFound"))
  | some m =>
    match w.auc.comm.get n with
    | none => (w.bal, .error (.e "AuctionCommissionDoesNotExist"))
    | some comm =>
      let k := cuts amount comm d.royalty
      paySeq c w.bal src (if src = c.aucPot then .allowDeath else .keepAlive)
        [(m.owner, k.1), (d.creator, k.2.1), (a.creator, k.2.2)]

/-- `pay_for_nft(..)?` inside an extrinsic: an error discards everything -/
def payForNftExt (w : World) (n : NFTId) (src : AccountId) (amount : Balance) (d : NFTData)
    (a : Auction) : Except Err Bal :=
  match payForNft c w n src amount d a with
  | (b, .ok ()) => .ok b
  | (_, .error e) => .error e

/-- `create_auction`, auction/src/lib.rs 342-447 -/
def create (w : World) (who : AccountId) (n : NFTId) (m : MktId) (start fin : Block)
    (startPrice : Balance) (buyIt : Option Balance) : Except Err World := do
  require (w.now ≤ start) "AuctionCannotStartInThePast"
  require (start < fin) "AuctionCannotEndBeforeItHasStarted"
  require (fin - start ≤ c.maxDur) "AuctionDurationIsTooLong"
  require (c.minDur ≤ fin - start) "AuctionDurationIsTooShort"
  require (start - w.now ≤ c.maxDelay) "AuctionStartIsTooFarAway"
  require (∀ p ∈ buyIt, startPrice < p) "BuyItPriceCannotBeLessOrEqualThanStartPrice"
  let d ← getOr (w.nfts.get n) "NFTNotFound"
  require (d.owner = who) "CannotListNotOwnedNFTs"
  require (d.st.listed = false) "CannotListListedNFTs"
  require (d.st.delegated = false) "CannotListDelegatedNFTs"
  require (¬ (d.st.soulbound = true ∧ d.creator ≠ d.owner)) "CannotListNotCreatedSoulboundNFTs"
  require (d.st.syncSecret = false) "CannotListNotSyncedSecretNFTs"
  require (d.st.rented = false) "CannotListRentedNFTs"
  require (d.st.syncCapsule = false) "CannotListNotSyncedCapsules"
  require (d.st.transmission = false) "CannotListNFTsInTransmission"
  let k ← getOr (w.mkt.mkts.get m) "MarketplaceNotFound"
  require (MktM.allowedToList k who d.coll = true) "NotAllowedToList"
  require (MktM.covers startPrice k.commission = true) "PriceCannotCoverMarketplaceFee"
  let q ← getOr (Queue.insert c.aucLimit w.auc.deadlines n fin) "MaximumAuctionsLimitReached"
  let w := w.putNft n { d with st := { d.st with listed := true } }
  pure { w with auc := { w.auc with
    comm := w.auc.comm.insert n k.commission
    deadlines := q
    auctions := w.auc.auctions.insert n
      { creator := who, start := start, fin := fin, startPrice := startPrice, buyIt := buyIt,
        bids := [], mkt := m, extended := false } } }

/-- `cancel_auction`, auction/src/lib.rs 451-472 -/
def cancel (w : World) (who : AccountId) (n : NFTId) : Except Err World := do
  let d ← getOr (w.nfts.get n) "NFTNotFound"
  let a ← getOr (w.auc.auctions.get n) "AuctionDoesNotExist"
  require (a.creator = who) "NotTheAuctionCreator"
  require (¬ a.start ≤ w.now) "CannotCancelAuctionInProgress"
  let w := w.putNft n { d with st := { d.st with listed := false } }
  pure { w with auc := { w.auc with
    claims := addClaims w.auc.claims a.bids
    auctions := w.auc.auctions.erase n
    deadlines := w.auc.deadlines.remove n } }

/-- `end_auction`, auction/src/lib.rs 476-502 -/
def end_ (w : World) (who : AccountId) (n : NFTId) : Except Err World := do
  let d ← getOr (w.nfts.get n) "NFTNotFound"
  let a ← getOr (w.auc.auctions.get n) "AuctionDoesNotExist"
  require (a.creator = who) "NotTheAuctionCreator"
  require (a.extended = true) "CannotEndAuctionThatWasNotExtended"
  let top ← getOr a.bids.getLast? "CannotEndAuctionWithoutBids"
  let b ← payForNftExt c w n c.aucPot top.2 d a
  let w := w.putBal b
  let w := w.putNft n { d with owner := top.1, st := { d.st with listed := false } }
  let w := { w with auc := { w.auc with
    claims := addClaims w.auc.claims a.bids.dropLast
    auctions := w.auc.auctions.erase n
    deadlines := w.auc.deadlines.remove n } }
  pure (w.ev (.auctionCompleted n (some top.1) (some top.2)))

/-- is `v` above the highest bid, or above the start price if there is none?
auction/src/lib.rs 526-533 -/
def beats (a : Auction) (v : Balance) : Bool :=
  match a.bids.getLast? with
  | some h => decide (h.2 < v)
  | none => decide (a.startPrice < v)

/-- `extend_if_necessary`, auction/src/types.rs 106-124 -/
def extend (a : Auction) (now : Block) : Auction × Option Block :=
  if a.fin - now < c.grace then
    let e := a.fin + (c.grace - (a.fin - now))
    ({ a with fin := e, extended := true }, some e)
  else (a, none)

/-- `Deadlines::<T>::mutate(|x| x.update(nft_id, new_end_block))`, if extended -/
def updateDeadline (q : Queue) (n : NFTId) : Option Block → Except Err Queue
  | none => .ok q
  | some e => q.update c.aucLimit n e

/-- `add_bid`, auction/src/lib.rs 512-566 -/
def addBid (w : World) (who : AccountId) (n : NFTId) (amount : Balance) : Except Err World := do
  let a ← getOr (w.auc.auctions.get n) "AuctionDoesNotExist"
  require (a.creator ≠ who) "CannotAddBidToYourOwnAuctions"
  require (a.start ≤ w.now) "AuctionNotStarted"
  require (c.ed < amount) "AmountTooLow"
  require (beats a amount = true) (if a.bids = [] then "CannotBidLessThanTheStartingPrice"
    else "CannotBidLessThanTheHighestBid")
  let b ← w.bal.transfer c.ed who c.aucPot (amount - (findBid who a.bids).getD 0) .keepAlive
  let (dropped, bids) ← insertBid c (removeBid who a.bids) who amount
  let (a, newEnd) := extend c { a with bids := bids } w.now
  let q ← updateDeadline c w.auc.deadlines n newEnd
  let w := w.putBal b
  pure { w with auc := { w.auc with
    auctions := w.auc.auctions.insert n a
    claims := addClaimOpt w.auc.claims dropped
    deadlines := q } }

/-- `remove_bid`, auction/src/lib.rs 576-602 -/
def removeBidCall (w : World) (who : AccountId) (n : NFTId) : Except Err World := do
  let a ← getOr (w.auc.auctions.get n) "AuctionDoesNotExist"
  require (c.ending < a.fin - w.now) "CannotRemoveBidAtTheEndOfAuction"
  let v ← getOr (findBid who a.bids) "BidDoesNotExist"
  let b ← w.bal.transfer c.ed c.aucPot who v .allowDeath
  let w := w.putBal b
  pure { w with auc := { w.auc with
    auctions := w.auc.auctions.insert n { a with bids := removeBid who a.bids } } }

/-- `buy_it_now`, auction/src/lib.rs 606-641 -/
def buyItNow (w : World) (who : AccountId) (n : NFTId) (signedPrice : Balance) :
    Except Err World := do
  let d ← getOr (w.nfts.get n) "NFTNotFound"
  let a ← getOr (w.auc.auctions.get n) "AuctionDoesNotExist"
  let price ← getOr a.buyIt "AuctionDoesNotSupportBuyItNow"
  require (price = signedPrice) "PriceDoesNotMatch"
  require (a.creator ≠ who) "CannotBuyItNowToYourOwnAuctions"
  require (a.start ≤ w.now) "AuctionNotStarted"
  require (∀ h ∈ a.bids.getLast?, h.2 < price) "CannotBuyItWhenABidIsHigherThanBuyItPrice"
  let b ← payForNftExt c w n who price d a
  let w := w.putBal b
  let w := w.putNft n { d with owner := who, st := { d.st with listed := false } }
  let w := { w with auc := { w.auc with
    claims := addClaims w.auc.claims a.bids
    auctions := w.auc.auctions.erase n
    deadlines := w.auc.deadlines.remove n } }
  pure (w.ev (.auctionCompleted n (some who) (some price)))

/-- `claim`, auction/src/lib.rs 645-656 -/
def claim (w : World) (who : AccountId) : Except Err World := do
  let v ← getOr (w.auc.claims.get who) "ClaimDoesNotExist"
  let b ← w.bal.transfer c.ed c.aucPot who v .allowDeath
  let w := w.putBal b
  pure { w with auc := { w.auc with claims := w.auc.claims.erase who } }

/-- Signed dispatchables of the auction pallet. -/
inductive Call where
  | create (n : NFTId) (m : MktId) (start fin : Block) (startPrice : Balance)
      (buyIt : Option Balance)
  | cancel (n : NFTId)
  | end_ (n : NFTId)
  | addBid (n : NFTId) (amount : Balance)
  | removeBid (n : NFTId)
  | buyItNow (n : NFTId) (signedPrice : Balance)
  | claim

/-- dispatch of the signed calls -/
def call (w : World) (who : AccountId) : Call → Except Err World
  | .create n m s e p b => create c w who n m s e p b
  | .cancel n => cancel w who n
  | .end_ n => end_ c w who n
  | .addBid n v => addBid c w who n v
  | .removeBid n => removeBidCall c w who n
  | .buyItNow n p => buyItNow c w who n p
  | .claim => claim c w who

/-- Settlement of one due auction in the hook, auction/src/lib.rs 135-170.  Returns whether the
action was counted.  `continue` on a missing auction or NFT and on a failing payment, whose
completed transfers stay. -/
def settleOne (w : World) (n : NFTId) : World × Bool :=
  match w.auc.auctions.get n with
  | none => (w, false)
  | some a =>
    match w.nfts.get n with
    | none => (w, false)
    | some d =>
      match a.bids.getLast? with
      | some top =>
        match payForNft c w n c.aucPot top.2 d a with
        | (b, .error _) => (w.putBal b, false)
        | (b, .ok ()) =>
          let w := w.putBal b
          let w := w.putNft n { d with owner := top.1, st := { d.st with listed := false } }
          let w := { w with auc := { w.auc with
            claims := addClaims w.auc.claims a.bids.dropLast
            auctions := w.auc.auctions.erase n } }
          (w.ev (.auctionCompleted n (some top.1) (some top.2)), true)
      | none =>
        let w := w.putNft n { d with st := { d.st with listed := false } }
        let w := { w with auc := { w.auc with auctions := w.auc.auctions.erase n } }
        (w.ev (.auctionCompleted n none none), true)

/-- The loop of `on_initialize`, auction/src/lib.rs 134-180.  `k` is the number of actions done so
far.  Returns the world and the remaining deadlines.  `Queue.popNext_cons` shows that popping the
front is what `pop_next` does. -/
def hookLoop (w : World) : Queue → Nat → World × Queue
  | [], _ => (w, [])
  | (n, b) :: t, k =>
    if b ≤ w.now then
      let (w', counted) := settleOne c w n
      if counted then
        if c.aucActions ≤ k + 1 then (w', t) else hookLoop w' t (k + 1)
      else hookLoop w' t k
    else (w, (n, b) :: t)

/-- `on_initialize`, auction/src/lib.rs 124-184 -/
def hook (w : World) : World :=
  let (w', q) := hookLoop c w w.auc.deadlines 0
  { w' with auc := { w'.auc with deadlines := q } }

end AucM
