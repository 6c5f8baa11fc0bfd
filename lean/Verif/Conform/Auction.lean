import Verif.Conform.Base
/-
The tests of auction/src/tests/extrinsics.rs, hooks.rs and types.rs on the model.
-/
namespace Conform.Auction

/-- auction/src/tests/mock.rs 46-55, 250-300: the constants -/
def c : Cfg :=
  { cfg0 with
    ed := 1, minDur := 100, maxDur := 1000, maxDelay := 50, grace := 5, ending := 10, bidLimit := 3, aucLimit := 20,
    aucActions := 10 }

/-- `ExtBuilder::new_build(None)`: ALICE 1 to EVE 5 own 1000 each, with the fees of auction/src/tests/mock.rs 52-55 -/
def ext : World :=
  let w := blank [(1, 1000), (2, 1000), (3, 1000), (4, 1000), (5, 1000)]
  { w with
    nft := { w.nft with fee := 10, secretFee := 75, capsuleFee := 100 }
    mkt := { w.mkt with fee := 100 } }

abbrev p0 : Permill := pm 0
abbrev p20 : Permill := pm 200000

abbrev by_ (a : AccountId) (x : AucM.Call) : Act := sg a (.auc x)

/-- `create_nft(origin(a), [], PERCENT_0, None, false)` -/
abbrev mint (a : AccountId) (r : Permill := p0) : Act := sg a (.nft (.createNft [] r none false))

/-- `AuctionBuilder::new()` in block 1 -/
abbrev builder (n : NFTId := 0) (m : MktId := 0) (s : Block := 1) (e : Block := 1000) (p : Balance := 100)
    (b : Option Balance := none) : AucM.Call := .create n m s e p b

/-- `set_marketplace_configuration(alice, 0, ..)` -/
abbrev conf (commission : ConfigOp CompoundFee := .noop) (accounts : ConfigOp (List AccountId) := .noop)
    (colls : ConfigOp (List CollId) := .noop) : Act :=
  sg 1 (.mkt (.setConfig 0 commission .noop accounts .noop colls))

/-- `prepare_tests`; leaves ALICE 880, BOB 990 and the others 1000 -/
def prep : List Act :=
  [sg 1 (.nft (.createColl [] none)), sg 1 (.nft (.createNft [] p0 (some 0) false)), mint 1, mint 2,
   sg 1 (.mkt (.create .pub)), conf (.set (.percentage p20)), by_ 1 (.create 1 0 10 1000 100 (some 110))]

/-- Blocks in which no auction is due: `run_to_block` up to a block before the next deadline.  Does nothing if some
deadline is reached. -/
abbrev idle (n : Block) : Act :=
  .poke fun w => if w.auc.deadlines.all (fun x => decide (n < x.2)) then { w with now := n } else w

/-- `run_to_block(n + 1)` when nothing is due before block `n + 1` -/
abbrev upTo (n : Block) : List Act := [idle n, .op .tick, .op .hookAuc]

/-- `assert_noop!` of a signed call after the steps `l` -/
abbrev Bad (l : List Act) (a : AccountId) (x : AucM.Call) (e : String) : Prop :=
  fails c ext l (.signed a) (.auc x) = some (.e e)

/-- `assert_ok!` of a signed call after the steps `l`, its last event, and what is seen afterwards -/
abbrev Good {α : Type} (l : List Act) (a : AccountId) (x : AucM.Call) (e : Event) (f : World → α) (v : α) : Prop :=
  lastEvent c ext l (.signed a) (.auc x) = some e ∧ see c ext (l ++ [by_ a x]) f = some v

/-- block, number of auctions, claims, deadlines -/
abbrev book (w : World) : Block × Nat × List (AccountId × Balance) × List (NFTId × Block) :=
  (w.now, w.auc.auctions.l.length, w.auc.claims.l, w.auc.deadlines)

/-- free balances of the accounts 1 to 5 and of the pallet -/
abbrev frees (w : World) : List Balance := [free 1 w, free 2 w, free 3 w, free 4 w, free 5 w, free c.aucPot w]

/-- owner and listed flag -/
abbrev own (n : NFTId) (w : World) : Option (AccountId × Bool) := (w.nfts.get n).map fun d => (d.owner, d.st.listed)

/-! `mod create_auction` -/

/-- `prepare_tests` -/
example : see c ext (prep)
    (fun w => (book w, frees w)) =
    some ((1, 1, [], [(1, 1000)]), [880, 990, 1000, 1000, 1000, 0]) := rfl

/-- `create_auction` -/
example : Good (prep) 1 (.create 0 0 10 110 300 (some 400))
    (.auctionCreated 0 0 1 300 (some 400) 10 110)
    (fun w => (book w, (w.nfts.get 0).map (·.st), w.auc.auctions.get 0))
    ((1, 2, [], [(0, 110), (1, 1000)]), some (st false true false false false false false false false),
      some ⟨1, 10, 110, 300, some 400, [], 0, false⟩) := ⟨rfl, rfl⟩

/-- `auction_cannot_start_in_the_past` -/
example : Bad (prep) 1 (builder (s := 0)) "AuctionCannotStartInThePast" := rfl

/-- `auction_cannot_end_before_it_has_started` -/
example : Bad (prep) 1 (builder (e := 0)) "AuctionCannotEndBeforeItHasStarted" := rfl

/-- `auction_duration_is_too_long` -/
example : Bad (prep) 1 (builder (e := 1002)) "AuctionDurationIsTooLong" := rfl

/-- `auction_duration_is_too_short` -/
example : Bad (prep) 1 (builder (e := 100)) "AuctionDurationIsTooShort" := rfl

/-- `auction_start_is_too_far_away` -/
example : Bad (prep) 1 (builder (s := 52) (e := 152)) "AuctionStartIsTooFarAway" := rfl

/-- `buy_it_price_cannot_be_less_or_equal_than_start_price` -/
example : Bad (prep) 1 (builder (p := 100) (b := some 99)) "BuyItPriceCannotBeLessOrEqualThanStartPrice" := rfl

/-- `nft_not_found` -/
example : Bad (prep) 1 (builder (n := 99)) "NFTNotFound" := rfl

/-- `cannot_list_not_owned_nfts` -/
example : Bad (prep) 1 (builder (n := 2)) "CannotListNotOwnedNFTs" := rfl

/-- `cannot_list_listed_nfts` -/
example : Bad (prep ++ [setState 0 { listed := true }]) 1 (builder) "CannotListListedNFTs" := rfl

/-- `cannot_list_not_synced_secret_nfts` -/
example :
    Bad (prep ++ [setState 0 { secret := true, syncSecret := true }]) 1
      (builder) "CannotListNotSyncedSecretNFTs" := rfl

/-- `cannot_list_delegated_nfts` -/
example : Bad (prep ++ [setState 0 { delegated := true }]) 1 (builder) "CannotListDelegatedNFTs" := rfl

/-- `cannot_list_soulbound_nfts` -/
example :
    Bad (prep ++ [.poke fun w => match w.nfts.get 0 with
      | some d => w.putNft 0 { d with creator := 2, st := { d.st with soulbound := true } }
      | none => w]) 1
      (builder) "CannotListNotCreatedSoulboundNFTs" := rfl

/-- `cannot_list_rented_nfts` -/
example : Bad (prep ++ [setState 0 { rented := true }]) 1 (builder) "CannotListRentedNFTs" := rfl

/-- `cannot_list_not_synced_capsules` -/
example :
    Bad (prep ++ [setState 0 { capsule := true, syncCapsule := true }]) 1
      (builder) "CannotListNotSyncedCapsules" := rfl

/-- `cannot_list_nfts_in_transmission` -/
example : Bad (prep ++ [setState 0 { transmission := true }]) 1 (builder) "CannotListNFTsInTransmission" := rfl

/-- `marketplace_not_found` -/
example : Bad (prep) 1 (builder (m := 99)) "MarketplaceNotFound" := rfl

/-- `not_allowed_to_list_public_account_blacklist` -/
example : Bad (prep ++ [conf (accounts := .set [1])]) 1 (builder) "NotAllowedToList" := rfl

/-- `not_allowed_to_list_public_collection_blacklist` -/
example : Bad (prep ++ [conf (colls := .set [0])]) 1 (builder) "NotAllowedToList" := rfl

/-- `not_allowed_to_list_public_account_and_collection_blacklist` -/
example : Bad (prep ++ [conf (accounts := .set [1]) (colls := .set [0])]) 1 (builder) "NotAllowedToList" := rfl

/-- `not_allowed_to_list_private_not_whitelist` -/
example : Bad (prep ++ [sg 1 (.mkt (.setKind 0 .priv))]) 1 (builder) "NotAllowedToList" := rfl

/-- `price_cannot_cover_marketplace_fee` -/
example : Bad (prep ++ [conf (.set (.flat 101))]) 1 (builder (p := 100)) "PriceCannotCoverMarketplaceFee" := rfl

/-- `maximum_auctions_limit_reached` -/
example :
    Bad (prep ++ List.replicate 20 (mint 1) ++ (List.range 19).map fun k => by_ 1 (builder (n := 3 + k))) 1
      (builder (n := 22)) "MaximumAuctionsLimitReached" := rfl

/-! `mod cancel_auction` -/

/-- `cancel_auction` -/
example : Good (prep) 1 (.cancel 1)
    (.auctionCancelled 1)
    (fun w => (book w, own 1 w, w.auc.auctions.get 1))
    ((1, 0, [], []), some (1, false), none) := ⟨rfl, rfl⟩

/-- `nft_not_found` -/
example : Bad (prep) 1 (.cancel 99) "NFTNotFound" := rfl

/-- `auction_does_not_exist` -/
example : Bad (prep ++ [mint 1]) 1 (.cancel 3) "AuctionDoesNotExist" := rfl

/-- `not_the_auction_creator` -/
example : Bad (prep) 2 (.cancel 1) "NotTheAuctionCreator" := rfl

/-- `cannot_cancel_auction_in_progress` -/
example : Bad (prep ++ upTo 9) 1 (.cancel 1) "CannotCancelAuctionInProgress" := rfl

/-! `mod end_auction` -/

/-- the steps of `end_auction`: the NFT 3 was created by BOB with 20% royalty and is owned by EVE; the other auction
ends in block 1000 -/
def ending : List Act :=
  prep ++ [mint 2 p20, .poke fun w => match w.nfts.get 3 with | some d => w.putNft 3 { d with owner := 5 } | none => w,
    by_ 5 (builder (n := 3) (s := 51) (e := 1051))] ++ upTo 50 ++ [by_ 3 (.addBid 3 110)] ++ upTo 999 ++ upTo 1049 ++
    [by_ 4 (.addBid 3 120)] ++ upTo 1051

/-- `end_auction` -/
example : see c ext (ending)
    (fun w => (book w, frees w)) =
    some ((1052, 1, [], [(3, 1055)]), [880, 980, 890, 880, 1000, 230]) := rfl

/-- `end_auction` -/
example : Good (ending) 5 (.end_ 3)
    (.auctionCompleted 3 (some 4) (some 120) (some (24, 19, 77)))
    (fun w => (book w, frees w, own 3 w))
    ((1052, 0, [(3, 110)], []), [904, 999, 890, 880, 1077, 110], some (4, false)) := ⟨rfl, rfl⟩

/-- `nft_not_found` -/
example : Bad (prep) 1 (.end_ 99) "NFTNotFound" := rfl

/-- `auction_does_not_exist` -/
example : Bad (prep ++ [mint 1]) 1 (.end_ 3) "AuctionDoesNotExist" := rfl

/-- `not_the_auction_creator` -/
example : Bad (prep) 2 (.end_ 1) "NotTheAuctionCreator" := rfl

/-- `cannot_end_auction_that_was_not_extended` -/
example : Bad (prep) 1 (.end_ 1) "CannotEndAuctionThatWasNotExtended" := rfl

/-! `mod add_bid` -/

/-- `add_bid` -/
example : Good (prep ++ upTo 9) 2 (.addBid 1 110)
    (.bidAdded 1 2 110)
    (fun w => (book w, frees w, w.auc.auctions.get 1))
    ((10, 1, [], [(1, 1000)]), [880, 880, 1000, 1000, 1000, 110], some ⟨1, 10, 1000, 100, some 110, [(2, 110)], 0, false⟩) := ⟨rfl, rfl⟩

/-- `add_bid_above_max_bidder_history_size` -/
example : see c ext (prep ++ upTo 9 ++ [by_ 2 (.addBid 1 101), by_ 3 (.addBid 1 102), by_ 4 (.addBid 1 103)])
    (fun w => (w.auc.auctions.get 1).map (·.bids)) =
    some (some [(2, 101), (3, 102), (4, 103)]) := rfl

/-- `add_bid_above_max_bidder_history_size` -/
example : lastEvents c ext (prep ++ upTo 9 ++ [by_ 2 (.addBid 1 101), by_ 3 (.addBid 1 102), by_ 4 (.addBid 1 103)])
      (.call (.signed 5) (.auc (.addBid 1 104))) =
    some [.bidDropped 1 2 101, .bidAdded 1 5 104] := rfl

/-- `add_bid_above_max_bidder_history_size` -/
example : Good
    (prep ++ upTo 9 ++ [by_ 2 (.addBid 1 101), by_ 3 (.addBid 1 102), by_ 4 (.addBid 1 103)]) 5
    (.addBid 1 104)
    (.bidAdded 1 5 104)
    (fun w => (book w, frees w, w.auc.auctions.get 1))
    ((10, 1, [(2, 101)], [(1, 1000)]), [880, 889, 898, 897, 896, 410],
      some ⟨1, 10, 1000, 100, some 110, [(3, 102), (4, 103), (5, 104)], 0, false⟩) := ⟨rfl, rfl⟩

/-- `add_bid_increase_auction_duration` -/
example : Good (prep ++ upTo 996) 2 (.addBid 1 110)
    (.bidAdded 1 2 110)
    (fun w => (book w, frees w, w.auc.auctions.get 1))
    ((997, 1, [], [(1, 1002)]), [880, 880, 1000, 1000, 1000, 110], some ⟨1, 10, 1002, 100, some 110, [(2, 110)], 0, true⟩) := ⟨rfl, rfl⟩

/-- `add_bid_and_replace_current` -/
example : Good (prep ++ upTo 9 ++ [by_ 2 (.addBid 1 110)]) 2 (.addBid 1 120)
    (.bidAdded 1 2 120)
    (fun w => (book w, frees w, w.auc.auctions.get 1))
    ((10, 1, [], [(1, 1000)]), [880, 870, 1000, 1000, 1000, 120], some ⟨1, 10, 1000, 100, some 110, [(2, 120)], 0, false⟩) := ⟨rfl, rfl⟩

/-- `auction_does_not_exist` -/
example : Bad (prep) 1 (.addBid 99 1) "AuctionDoesNotExist" := rfl

/-- `cannot_add_bid_to_your_own_auctions` -/
example : Bad (prep) 1 (.addBid 1 1) "CannotAddBidToYourOwnAuctions" := rfl

/-- `auction_not_started` -/
example : Bad (prep) 2 (.addBid 1 1) "AuctionNotStarted" := rfl

/-- `amount_too_low` -/
example :
    Bad (prep ++ [by_ 1 (.cancel 1), by_ 1 (.create 1 0 10 1000 0 (some 110))] ++ upTo 9) 2
      (.addBid 1 1) "AmountTooLow" := rfl

/-- `cannot_bid_less_than_the_highest_bid` -/
example : Bad (prep ++ upTo 9 ++ [by_ 2 (.addBid 1 101)]) 4 (.addBid 1 101) "CannotBidLessThanTheHighestBid" := rfl

/-- `cannot_bid_less_than_the_starting_price` -/
example : Bad (prep ++ upTo 9) 2 (.addBid 1 99) "CannotBidLessThanTheStartingPrice" := rfl

/-- `not_enough_funds` -/
example : Bad (prep ++ upTo 9) 2 (.addBid 1 991) "InsufficientBalance" := rfl

/-- `not_enough_funds_to_replace` -/
example : Bad (prep ++ upTo 9 ++ [by_ 2 (.addBid 1 989)]) 2 (.addBid 1 999) "InsufficientBalance" := rfl

/-! `mod remove_bid` -/

/-- `remove_bid` -/
example : Good (prep ++ upTo 9 ++ [by_ 2 (.addBid 1 110)]) 2 (.removeBid 1)
    (.bidRemoved 1 2 110)
    (fun w => (book w, frees w, w.auc.auctions.get 1))
    ((10, 1, [], [(1, 1000)]), [880, 990, 1000, 1000, 1000, 0], some ⟨1, 10, 1000, 100, some 110, [], 0, false⟩) := ⟨rfl, rfl⟩

/-- `auction_does_not_exist` -/
example : Bad (prep) 1 (.removeBid 99) "AuctionDoesNotExist" := rfl

/-- `cannot_remove_bid_at_the_end_of_auction` -/
example :
    Bad (prep ++ upTo 9 ++ [by_ 2 (.addBid 1 101)] ++ upTo 989) 2
      (.removeBid 1) "CannotRemoveBidAtTheEndOfAuction" := rfl

/-- `bid_does_not_exist` -/
example : Bad (prep) 2 (.removeBid 1) "BidDoesNotExist" := rfl

/-! `mod buy_it_now` -/

/-- `buy_it_now` -/
example : Good
    (prep ++ [mint 2 p20, .poke fun w => match w.nfts.get 3 with | some d => w.putNft 3 { d with owner := 5 } | none => w,
      by_ 5 (builder (n := 3) (b := some 200)), by_ 4 (.addBid 3 110)]) 3
    (.buyItNow 3 200)
    (.auctionCompleted 3 (some 3) (some 200) (some (40, 32, 128)))
    (fun w => (book w, frees w, own 3 w, w.auc.auctions.get 3))
    ((1, 1, [(4, 110)], [(1, 1000)]), [920, 1012, 800, 890, 1128, 110], some (3, false), none) := ⟨rfl, rfl⟩

/-- `nft_not_found` -/
example : Bad ([]) 2 (.buyItNow 99 100) "NFTNotFound" := rfl

/-- `auction_does_not_exist` -/
example : Bad ([mint 1]) 2 (.buyItNow 0 100) "AuctionDoesNotExist" := rfl

/-- `auction_does_not_support_buy_it_now` -/
example :
    Bad (prep ++ [.poke fun w => match w.auc.auctions.get 1 with
      | some a => { w with auc := { w.auc with auctions := w.auc.auctions.insert 1 { a with buyIt := none } } }
      | none => w]) 2
      (.buyItNow 1 100) "AuctionDoesNotSupportBuyItNow" := rfl

/-- `cannot_buy_it_now_to_your_own_auctions` -/
example : Bad (prep ++ upTo 9) 1 (.buyItNow 1 110) "CannotBuyItNowToYourOwnAuctions" := rfl

/-- `auction_not_started` -/
example : Bad (prep) 2 (.buyItNow 1 110) "AuctionNotStarted" := rfl

/-- `cannot_buy_it_when_a_bid_is_higher_than_buy_it_price` -/
example :
    Bad (prep ++ upTo 9 ++ [by_ 3 (.addBid 1 110)]) 2
      (.buyItNow 1 110) "CannotBuyItWhenABidIsHigherThanBuyItPrice" := rfl

/-- `price_does_not_match` -/
example : Bad (prep ++ upTo 9) 2 (.buyItNow 1 120) "PriceDoesNotMatch" := rfl

/-! `mod claim` -/

/-- `claim` -/
example : see c ext (prep ++ upTo 9 ++ [by_ 2 (.addBid 1 101), by_ 3 (.addBid 1 102)] ++ upTo 999 ++ upTo 1000)
    (fun w => (book w, free 2 w, free c.aucPot w)) =
    some ((1001, 0, [(2, 101)], []), 889, 101) := rfl

/-- `claim` -/
example : Good (prep ++ upTo 9 ++ [by_ 2 (.addBid 1 101), by_ 3 (.addBid 1 102)] ++ upTo 999 ++ upTo 1000) 2 (.claim)
    (.balanceClaimed 2 101)
    (fun w => (book w, free 2 w, free c.aucPot w))
    ((1001, 0, [], []), 990, 0) := ⟨rfl, rfl⟩

/-- `claim_does_not_exist` -/
example : Bad (prep) 2 (.claim) "ClaimDoesNotExist" := rfl

/-! hooks.rs -/

/-- the auctions of `on_initialize` -/
def two : List Act :=
  [mint 1, mint 2, sg 1 (.mkt (.create .pub)), by_ 1 (.create 0 0 10 110 300 (some 400)),
   by_ 2 (.create 1 0 15 115 300 (some 400))]

/-- `on_initialize` -/
example : see c ext (two)
    (fun w => (book w, (w.auc.auctions.get 0).isSome, (w.auc.auctions.get 1).isSome)) =
    some ((1, 2, [], [(0, 110), (1, 115)]), true, true) := rfl

/-- `on_initialize` -/
example : see c ext (two ++ upTo 109)
    (fun w => (book w, (w.auc.auctions.get 1).isSome)) =
    some ((110, 1, [], [(1, 115)]), true) := rfl

/-- `on_initialize` -/
example : see c ext (two ++ upTo 109 ++ upTo 114)
    (fun w => book w) =
    some (115, 0, [], []) := rfl

/-- the twenty auctions of `auctions_in_block`, all ending in block 1000 -/
def twenty : List Act :=
  sg 1 (.mkt (.create .pub)) :: (List.range 20).flatMap fun k => [mint 1, by_ 1 (builder (n := k))]

/-- how many deadlines and auctions there are -/
abbrev count (w : World) : Block × Nat × Nat := (w.now, w.auc.deadlines.length, w.auc.auctions.l.length)

/-- `auctions_in_block` -/
example : see c ext (twenty ++ upTo 998)
    (fun w => count w) =
    some (999, 20, 20) := rfl

/-- `auctions_in_block` -/
example : see c ext (twenty ++ upTo 999)
    (fun w => count w) =
    some (1000, 10, 10) := rfl

/-- `auctions_in_block` -/
example : see c ext (twenty ++ upTo 999 ++ [.op .tick, .op .hookAuc])
    (fun w => count w) =
    some (1001, 0, 0) := rfl

/-! types.rs; its lists hold ten entries -/

abbrev c10 : Cfg := { c with bidLimit := 10 }

/-- `insert_new_bid` one after another -/
def bidsOf (l : List (AccountId × Balance)) : List (AccountId × Balance) :=
  l.foldl (fun b x => match AucM.insertBid c10 b x.1 x.2 with | .ok r => r.2 | .error _ => []) []

/-- the ten bids of `test_sorted_bid_works` -/
def ten : List (AccountId × Balance) :=
  [(1, 2), (2, 3), (4, 5), (5, 6), (6, 7), (7, 8), (8, 9), (9, 10), (10, 11), (11, 12)]

/-- the list after the eleventh -/
def after : List (AccountId × Balance) :=
  [(2, 3), (4, 5), (5, 6), (6, 7), (7, 8), (8, 9), (9, 10), (10, 11), (11, 12), (1, 102)]

/-- `test_sorted_bid_works` -/
example : bidsOf ten = ten := rfl
example : AucM.insertBid c10 ten 1 102 = .ok (some (1, 2), after) := rfl
example : [5, 11, 7, 2021].map (AucM.findBid · after) = [some 6, some 12, some 8, none] := rfl
example : AucM.removeBid 5 after =
    [(2, 3), (4, 5), (6, 7), (7, 8), (8, 9), (9, 10), (10, 11), (11, 12), (1, 102)] := rfl
example : AucM.removeBid 11 (AucM.removeBid 5 after) =
    [(2, 3), (4, 5), (6, 7), (7, 8), (8, 9), (9, 10), (10, 11), (1, 102)] := rfl
example : AucM.removeBid 2022 after = after := rfl
example : [5, 11, 2022, 2, 4, 6, 7, 8, 9, 10, 1].foldl (fun l a => AucM.removeBid a l) after = [] := rfl

/-- `deadlines.insert` one after another -/
def dl (l : List (NFTId × Block)) : Queue :=
  l.foldl (fun q x => (Queue.insert 10 q x.1 x.2).getD []) []

/-- `insert_random_values` -/
example : dl [(0, 100)] = [(0, 100)] := rfl
example : dl [(0, 100), (1, 50)] = [(1, 50), (0, 100)] := rfl
example : dl [(0, 100), (1, 50), (2, 150)] = [(1, 50), (0, 100), (2, 150)] := rfl
example : dl [(0, 100), (1, 50), (2, 150), (3, 75)] = [(1, 50), (3, 75), (0, 100), (2, 150)] := rfl
example : dl [(0, 100), (1, 50), (2, 150), (3, 75), (4, 25)] = [(4, 25), (1, 50), (3, 75), (0, 100), (2, 150)] := rfl

/-- `remove_random_values` -/
example : (dl [(0, 100), (1, 50), (2, 150), (3, 75), (4, 25)]).remove 4 = [(1, 50), (3, 75), (0, 100), (2, 150)] := rfl
example : (dl [(0, 100), (1, 50), (2, 150), (3, 75)]).remove 3 = [(1, 50), (0, 100), (2, 150)] := rfl
example : (dl [(0, 100), (1, 50), (2, 150)]).remove 2 = [(1, 50), (0, 100)] := rfl
example : (dl [(0, 100), (1, 50)]).remove 1 = [(0, 100)] := rfl
example : (dl [(0, 100)]).remove 0 = [] := rfl

/-- `update_values` -/
example : (dl [(0, 100), (1, 50), (2, 150)]).update 10 0 200 = .ok [(1, 50), (2, 150), (0, 200)] := rfl
example : Queue.update 10 [(1, 50), (2, 150), (0, 200)] 1 175 = .ok [(2, 150), (1, 175), (0, 200)] := rfl
example : Queue.update 10 [(2, 150), (1, 175), (0, 200)] 1 25 = .ok [(1, 25), (2, 150), (0, 200)] := rfl

/-- `get_next_ready_blocks`: the model has no function `next`; the hook takes the first entry as long as it is due, so
entries leave in the order of the list -/
example : (dl [(0, 100), (1, 50), (2, 150)]).map (·.1) = [1, 0, 2] := rfl

end Conform.Auction
