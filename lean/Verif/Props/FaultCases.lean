import Verif.Props.FaultSpec
import Verif.Props.Demo
/-
For each declared error that can be met, a history and a call answered with it (C121).
-/
namespace FaultCases
open Demo Spec.Fault

/-- a chain with tight limits, for the errors that report a limit -/
def tight : Cfg :=
  { Demo.cfg with teeList := 1, shards := 0, aucLimit := 1, rentLimit := 1, trLimit := 1, rentAccounts := 1 }

theorem tight_ok : tight.Ok := by constructor <;> decide

theorem tight_genesis : Genesis tight w0 :=
  { bal := by obtain ⟨a, b, c, d, e⟩ := Demo.genesis.bal; exact ⟨a, b, c, d, e⟩, nfts := Demo.genesis.nfts, nft := Demo.genesis.nft, mkt := Demo.genesis.mkt,
    auc := Demo.genesis.auc, rent := Demo.genesis.rent, tr := Demo.genesis.tr, tee := Demo.genesis.tee,
    br := Demo.genesis.br, rew := Demo.genesis.rew, evs := Demo.genesis.evs }

/-- the demo chain, or the one with tight limits -/
def chain : Bool → Cfg
  | false => Demo.cfg
  | true => tight

/-- a call after a history, on the demo chain or the tight one, and the error it is answered with -/
structure Case where
  err : String
  pre : List Op
  who : Origin
  x : Call
  lim : Bool := false

/-- the answer to a call -/
def answer : Except Err World → Option String
  | .error (.e s) => some s
  | _ => none

/-- who is no pallet's account -/
def person (c : Cfg) : Origin → Bool
  | .signed a => !decide (c.pot a)
  | _ => true

/-- an operation that can happen -/
def opOk (c : Cfg) : Op → Bool
  | .call o _ => person c o
  | .txFee p _ _ _ => !decide (c.pot p)
  | .lock a _ => !decide (c.pot a)
  | _ => true

/-- the arguments fit their types -/
def fits (c : Cfg) : Call → Bool
  | .tr (.set _ _ (.onConsent l _) _) => decide (l.length ≤ c.trConsents)
  | .tr (.set _ _ (.onConsentAtBlock l _ _) _) => decide (l.length ≤ c.trConsents)
  | .ext (.setNonce _ x) => decide (x < 2 ^ 64)
  | _ => true

/-- what the case says is so -/
def Case.good (p : Pallet) (k : Case) : Bool :=
  k.pre.all (opOk (chain k.lim)) && person (chain k.lim) k.who && fits (chain k.lim) k.x &&
    decide (palletOf k.x = some p) &&
    decide (answer (dispatch (chain k.lim) k.x k.who (run (chain k.lim) w0 k.pre)) = some k.err)

theorem Case.met {p k} (h : Case.good p k = true) : Met p k.err := by
  unfold Case.good at h
  simp only [Bool.and_eq_true, decide_eq_true_eq, List.all_eq_true] at h
  obtain ⟨⟨⟨⟨h1, h2⟩, h3⟩, h4⟩, h5⟩ := h
  have hop : ∀ o ∈ k.pre, o.Ok (chain k.lim) := by
    intro o ho
    have := h1 o ho
    unfold opOk person at this; unfold Op.Ok
    split <;> simp_all
  have hg : Genesis (chain k.lim) w0 := by
    cases k.lim
    · exact Demo.genesis
    · exact tight_genesis
  have hc : (chain k.lim).Ok := by
    cases k.lim
    · exact Demo.cfg_ok
    · exact tight_ok
  refine ⟨chain k.lim, _, k.who, k.x, hc, (Reach.init hg).run k.pre hop, ?_, ?_, h4, ?_⟩
  · intro a ha; rw [ha] at h2; simpa [person] using h2
  · unfold fits at h3; unfold Encodable; split <;> simp_all
  · generalize dispatch (chain k.lim) k.x k.who (run (chain k.lim) w0 k.pre) = r at h5
    unfold answer at h5
    split at h5
    · cases h5; rfl
    · cases h5

/-! ### states of an NFT -/

abbrev nft0 : Permill := ⟨100000, by omega⟩
/-- NFT 0 of account 1 is on sale on marketplace 0 of account 2 -/
abbrev onSale : List Op := [mint1, by_ 2 (.mkt (.create .pub)), by_ 1 (.mkt (.list 0 0 100))]
/-- delegated -/
abbrev lent : List Op := [mint1, by_ 1 (.nft (.delegateNft 0 (some 2)))]
/-- an offer for rent at 20 tokens for ten blocks -/
abbrev offer (acc : Acceptance) : Op :=
  by_ 1 (.rent (.create 0 (.fixed 10) acc true (.tokens 20) .none .none))
/-- under a rent contract -/
abbrev inRent : List Op := [mint1, offer (.auto none)]
/-- rented out to account 2 -/
abbrev let_ : List Op := inRent ++ [by_ 2 (.rent (.rent 0 0))]
/-- in transmission -/
abbrev promised (p : Protocol) (k : Cancellation) : List Op := [mint1, by_ 1 (.tr (.set 0 2 p k))]
abbrev sent : List Op := promised (.atBlock 20) .anytime
/-- a secret waiting for its shares -/
abbrev secret : List Op := [mint1, by_ 1 (.nft (.addSecret 0 [1]))]
/-- a capsule waiting for its shares -/
abbrev capsule : List Op := [mint1, by_ 1 (.nft (.toCapsule 0 [1]))]
/-- a complete capsule -/
abbrev whole : List Op :=
  enclaves ++ capsule ++ [by_ 18 (.nft (.addCapsuleShard 0)), by_ 19 (.nft (.addCapsuleShard 0))]
/-- a soulbound NFT given away by its creator -/
abbrev bound : List Op := [by_ 1 (.nft (.createNft [1] nft0 none true)), by_ 1 (.nft (.transferNft 0 2))]

abbrev aNft (s : String) (pre : List Op) (x : NftM.Call) (a : AccountId := 1) : Case := ⟨s, pre, .signed a, .nft x, false⟩

/-- an open collection 0 of account 1 -/
abbrev coll (l : Option Nat) : Op := by_ 1 (.nft (.createColl [1] l))

def nftCases : List Case := [
  aNft "CannotTransferListedNFTs" onSale (.transferNft 0 2),
  aNft "CannotBurnListedNFTs" onSale (.burnNft 0),
  aNft "CannotDelegateListedNFTs" onSale (.delegateNft 0 none),
  aNft "CannotSetRoyaltyForListedNFTs" onSale (.setRoyalty 0 nft0),
  aNft "CannotTransferDelegatedNFTs" lent (.transferNft 0 2),
  aNft "CannotTransferNotSyncedSecretNFTs" secret (.transferNft 0 2),
  aNft "CannotBurnDelegatedNFTs" lent (.burnNft 0),
  aNft "CannotSetRoyaltyForDelegatedNFTs" lent (.setRoyalty 0 nft0),
  aNft "CannotTransferNotCreatedSoulboundNFTs" bound (.transferNft 0 1) 2,
  aNft "CannotTransferNFTsToYourself" [mint1] (.transferNft 0 1),
  aNft "CannotTransferRentedNFTs" inRent (.transferNft 0 2),
  aNft "CannotBurnRentedNFTs" inRent (.burnNft 0),
  aNft "CannotSetRoyaltyForRentedNFTs" inRent (.setRoyalty 0 nft0),
  aNft "CannotSetRoyaltyForSyncingNFTs" secret (.setRoyalty 0 nft0),
  aNft "CannotDelegateRentedNFTs" inRent (.delegateNft 0 none),
  aNft "CannotDelegateSyncingNFTs" secret (.delegateNft 0 none),
  aNft "CollectionLimitExceededMaximumAllowed" [] (.createColl [1] (some 6)),
  aNft "NFTNotFound" [] (.burnNft 0),
  aNft "NFTBelongToACollection" [coll none, by_ 1 (.nft (.createNft [1] nft0 (some 0) false))] (.addToColl 0 0),
  aNft "NotTheNFTOwner" [mint1] (.burnNft 0) 2,
  aNft "NotTheNFTCreator" [mint1, by_ 1 (.nft (.transferNft 0 2))] (.setRoyalty 0 nft0) 2,
  aNft "NotTheCollectionOwner" [coll none] (.burnColl 0) 2,
  aNft "CollectionNotFound" [] (.burnColl 0),
  aNft "CollectionIsClosed" [coll none, by_ 1 (.nft (.closeColl 0))] (.limitColl 0 3),
  aNft "CollectionHasReachedLimit" [coll (some 0), mint1] (.addToColl 0 0),
  aNft "CollectionIsNotEmpty" [coll none, by_ 1 (.nft (.createNft [1] nft0 (some 0) false))] (.burnColl 0),
  aNft "CollectionLimitAlreadySet" [coll (some 1)] (.limitColl 0 1),
  aNft "CollectionHasTooManyNFTs" [coll none, by_ 1 (.nft (.createNft [1] nft0 (some 0) false))] (.limitColl 0 0),
  aNft "NotARegisteredEnclave" secret (.addSecretShard 0),
  aNft "NFTIsNotSecret" (enclaves ++ [mint1]) (.addSecretShard 0) 18,
  aNft "NFTAlreadySynced" whole (.addCapsuleShard 0) 18,
  { aNft "NFTHasReceivedAllShards" (enclaves ++ secret) (.addSecretShard 0) 18 with lim := true },
  aNft "EnclaveAlreadyAddedShard" (enclaves ++ secret ++ [by_ 18 (.nft (.addSecretShard 0))]) (.addSecretShard 0) 18,
  aNft "InsufficientBalance" [] (.createSecret [1] [1] nft0 none false) 55,
  aNft "CannotAddSecretToListedNFTs" onSale (.addSecret 0 [1]),
  aNft "CannotAddSecretToSecretNFTs" secret (.addSecret 0 [1]),
  aNft "CannotAddSecretToRentedNFTs" inRent (.addSecret 0 [1]),
  aNft "CannotAddSecretToDelegatedNFTs" lent (.addSecret 0 [1]),
  aNft "ShareNotFromValidCluster"
    (enclaves ++ secret ++ [by_ 18 (.nft (.addSecretShard 0)), .call .root (.root (.tee (.createCluster .pub))),
      by_ 7 (.tee (.register 17 [1])), .call .root (.root (.tee (.assign 7 1 0)))]) (.addSecretShard 0) 17,
  aNft "CannotBurnNFTsInTransmission" sent (.burnNft 0),
  aNft "CannotTransferNotSyncedCapsules" capsule (.transferNft 0 2),
  aNft "CannotTransferNFTsInTransmission" sent (.transferNft 0 2),
  aNft "CannotDelegateSyncingCapsules" capsule (.delegateNft 0 none),
  aNft "CannotDelegateNFTsInTransmission" sent (.delegateNft 0 none),
  aNft "CannotSetRoyaltyForSyncingCapsules" capsule (.setRoyalty 0 nft0),
  aNft "CannotSetRoyaltyForNFTsInTransmission" sent (.setRoyalty 0 nft0),
  aNft "CannotAddSecretToSyncingCapsules" capsule (.addSecret 0 [1]),
  aNft "CannotAddSecretToNFTsInTransmission" sent (.addSecret 0 [1]),
  aNft "CannotConvertListedNFTs" onSale (.toCapsule 0 [1]),
  aNft "CannotConvertCapsules" capsule (.toCapsule 0 [1]),
  aNft "CannotConvertRentedNFTs" inRent (.toCapsule 0 [1]),
  aNft "CannotConvertDelegatedNFTs" lent (.toCapsule 0 [1]),
  aNft "CannotConvertSyncingNFTs" secret (.toCapsule 0 [1]),
  aNft "CannotConvertNFTsInTransmission" sent (.toCapsule 0 [1]),
  aNft "NFTIsNotCapsule" [mint1] (.notifyKey 0),
  aNft "CannotSetOffchainDataForListedNFTs"
    (whole ++ [by_ 2 (.mkt (.create .pub)), by_ 1 (.mkt (.list 0 0 100))]) (.setCapsuleData 0 [2]),
  aNft "CannotSetOffchainDataForRentedNFTs" (whole ++ [offer (.auto none)]) (.setCapsuleData 0 [2]),
  aNft "CannotSetOffchainDataForDelegatedNFTs"
    (whole ++ [by_ 1 (.nft (.delegateNft 0 (some 2)))]) (.setCapsuleData 0 [2]),
  aNft "CannotSetOffchainDataForSyncingNFTs" (whole ++ [by_ 1 (.nft (.addSecret 0 [1]))]) (.setCapsuleData 0 [2]),
  aNft "CannotSetOffchainDataForSyncingCapsules" capsule (.setCapsuleData 0 [2]),
  { aNft "CapsuleHasReceivedAllShards" (enclaves ++ capsule) (.addCapsuleShard 0) 18 with lim := true },
  aNft "CannotChangeKeyForListedNFTs"
    (whole ++ [by_ 2 (.mkt (.create .pub)), by_ 1 (.mkt (.list 0 0 100))]) (.notifyKey 0),
  aNft "CannotChangeKeyForRentedNFTs" (whole ++ [offer (.auto none)]) (.notifyKey 0),
  aNft "CannotChangeKeyForDelegatedNFTs" (whole ++ [by_ 1 (.nft (.delegateNft 0 (some 2)))]) (.notifyKey 0),
  aNft "CannotChangeKeyForSyncingNFTs" (whole ++ [by_ 1 (.nft (.addSecret 0 [1]))]) (.notifyKey 0),
  aNft "CannotChangeKeyForSyncingCapsules" capsule (.notifyKey 0),
  aNft "CannotChangeKeyForNFTsInTransmission"
    (whole ++ [by_ 1 (.tr (.set 0 2 (.atBlock 20) .anytime))]) (.notifyKey 0)]

abbrev aMkt (s : String) (pre : List Op) (x : MktM.Call) (a : AccountId := 1) : Case := ⟨s, pre, .signed a, .mkt x, false⟩

/-- a private marketplace 0 of account 2 -/
abbrev club : Op := by_ 2 (.mkt (.create .priv))
/-- account 2 asks a flat commission of 50 -/
abbrev dear : List Op :=
  [by_ 2 (.mkt (.create .pub)), by_ 2 (.mkt (.setConfig 0 (.set (.flat 50)) .noop .noop .noop .noop))]

def mktCases : List Case := [
  aMkt "NotAllowedToList" [mint1, club] (.list 0 0 100),
  aMkt "CannotListDelegatedNFTs" lent (.list 0 0 100),
  aMkt "CannotListNotCreatedSoulboundNFTs" bound (.list 0 0 100) 2,
  aMkt "CannotBuyOwnedNFT" onSale (.buy 0 100),
  aMkt "CannotTransferMarketplaceToYourself" [club] (.setOwner 0 2) 2,
  aMkt "CannotListAlreadytListedNFTs" onSale (.list 0 0 100),
  aMkt "PriceCannotCoverMarketplaceFee" (mint1 :: dear) (.list 0 0 49),
  aMkt "MarketplaceNotFound" [mint1] (.list 0 0 100),
  aMkt "NFTNotFound" [] (.buy 0 100),
  aMkt "NotTheNFTOwner" [mint1] (.list 0 0 100) 2,
  aMkt "NotTheMarketplaceOwner" [club] (.setKind 0 .pub),
  aMkt "NFTNotForSale" [mint1] (.buy 0 100) 2,
  aMkt "NotEnoughBalanceToBuy" onSale (.buy 0 100) 55,
  aMkt "CannotListNotSyncedSecretNFTs" secret (.list 0 0 100),
  aMkt "CannotListRentedNFTs" inRent (.list 0 0 100),
  aMkt "CannotListNotSyncedCapsules" capsule (.list 0 0 100),
  aMkt "CannotListNFTsInTransmission" sent (.list 0 0 100),
  aMkt "PriceDoesNotMatch" onSale (.buy 0 99) 3]

abbrev anAuc (s : String) (pre : List Op) (x : AucM.Call) (a : AccountId := 1) : Case := ⟨s, pre, .signed a, .auc x, false⟩

/-- an auction from block 0 to 10, starting at 100, to be had for 500 -/
abbrev hammer : List Op :=
  [mint1, by_ 2 (.mkt (.create .pub)), by_ 1 (.auc (.create 0 0 0 10 100 (some 500)))]
abbrev soon : List Op :=
  [mint1, by_ 2 (.mkt (.create .pub)), by_ 1 (.auc (.create 0 0 5 15 100 (some 500)))]

def aucCases : List Case := [
  anAuc "AuctionNotStarted" soon (.addBid 0 200) 3,
  anAuc "AuctionDoesNotExist" [] (.addBid 0 200) 3,
  anAuc "AuctionDoesNotSupportBuyItNow"
    [mint1, by_ 2 (.mkt (.create .pub)), by_ 1 (.auc (.create 0 0 0 10 100 none))] (.buyItNow 0 500) 3,
  anAuc "AuctionCannotStartInThePast" [.tick] (.create 0 0 0 10 100 none),
  anAuc "AuctionCannotEndBeforeItHasStarted" [] (.create 0 0 5 5 100 none),
  anAuc "AuctionDurationIsTooLong" [] (.create 0 0 0 101 100 none),
  anAuc "AuctionDurationIsTooShort" [] (.create 0 0 0 4 100 none),
  anAuc "AuctionStartIsTooFarAway" [] (.create 0 0 21 31 100 none),
  anAuc "BuyItPriceCannotBeLessOrEqualThanStartPrice" [] (.create 0 0 0 10 100 (some 100)),
  anAuc "BidDoesNotExist" hammer (.removeBid 0) 3,
  anAuc "CannotAddBidToYourOwnAuctions" hammer (.addBid 0 200),
  anAuc "CannotBuyItNowToYourOwnAuctions" hammer (.buyItNow 0 500),
  anAuc "CannotCancelAuctionInProgress" hammer (.cancel 0),
  anAuc "CannotBidLessThanTheHighestBid" (hammer ++ [by_ 3 (.auc (.addBid 0 200))]) (.addBid 0 200) 4,
  anAuc "CannotBidLessThanTheStartingPrice" hammer (.addBid 0 100) 3,
  anAuc "CannotBuyItWhenABidIsHigherThanBuyItPrice" (hammer ++ [by_ 3 (.auc (.addBid 0 500))]) (.buyItNow 0 500) 4,
  anAuc "CannotRemoveBidAtTheEndOfAuction" (hammer ++ [by_ 3 (.auc (.addBid 0 200))] ++ ticks 7) (.removeBid 0) 3,
  anAuc "CannotEndAuctionThatWasNotExtended" hammer (.end_ 0),
  anAuc "CannotListListedNFTs" onSale (.create 0 0 0 10 100 none),
  anAuc "CannotListNotOwnedNFTs" [mint1] (.create 0 0 0 10 100 none) 2,
  anAuc "CannotListDelegatedNFTs" lent (.create 0 0 0 10 100 none),
  anAuc "CannotListNotCreatedSoulboundNFTs" bound (.create 0 0 0 10 100 none) 2,
  anAuc "CannotListRentedNFTs" inRent (.create 0 0 0 10 100 none),
  anAuc "ClaimDoesNotExist" [] .claim,
  anAuc "NFTNotFound" [] (.cancel 0),
  anAuc "NotTheAuctionCreator" soon (.cancel 0) 3,
  anAuc "MarketplaceNotFound" [mint1] (.create 0 0 0 10 100 none),
  { anAuc "MaximumAuctionsLimitReached" (hammer ++ [mint1]) (.create 1 0 0 10 100 none) with lim := true },
  anAuc "PriceCannotCoverMarketplaceFee" (mint1 :: dear) (.create 0 0 0 10 49 none),
  anAuc "NotAllowedToList" [mint1, club] (.create 0 0 0 10 100 none),
  anAuc "CannotEndAuctionWithoutBids"
    (hammer ++ ticks 6 ++ [by_ 3 (.auc (.addBid 0 200)), by_ 3 (.auc (.removeBid 0))]) (.end_ 0),
  anAuc "CannotListNotSyncedSecretNFTs" secret (.create 0 0 0 10 100 none),
  anAuc "AmountTooLow" hammer (.addBid 0 10) 3,
  anAuc "CannotListNotSyncedCapsules" capsule (.create 0 0 0 10 100 none),
  anAuc "CannotListNFTsInTransmission" sent (.create 0 0 0 10 100 none),
  anAuc "PriceDoesNotMatch" hammer (.buyItNow 0 499) 3]

abbrev aRent (s : String) (pre : List Op) (x : RentM.Call) (a : AccountId := 1) : Case := ⟨s, pre, .signed a, .rent x, false⟩

abbrev byHand : List Op := [mint1, offer (.manual none)]
/-- account 2 creates the next NFT -/
abbrev mint2 : Op := by_ 2 (.nft (.createNft [1] nft0 none false))
/-- NFT 1 of account 2 is the price, or the deposit asked -/
abbrev swap : List Op :=
  [mint1, mint2, by_ 1 (.rent (.create 0 (.fixed 10) (.auto none) true (.nft 1) .none .none))]
abbrev pawn : List Op :=
  [mint1, mint2, by_ 1 (.rent (.create 0 (.fixed 10) (.auto none) true (.tokens 20) .none (.nft 1)))]
/-- a subscription, changeable, rented by account 2 -/
abbrev subscribed : List Op :=
  [mint1, by_ 1 (.rent (.create 0 (.sub 5 (some 50) true) (.auto none) true (.tokens 20) .none .none)),
   by_ 2 (.rent (.rent 0 0))]
/-- a contract offered by hand with these prices -/
abbrev priced (rent : Balance) (deposit : Balance) : List Op :=
  [mint1, by_ 1 (.rent (.create 0 (.fixed 10) (.manual none) true (.tokens rent) .none (.fixed deposit)))]

def rentCases : List Case := [
  aRent "NFTNotFound" [] (.create 0 (.fixed 10) (.auto none) true (.tokens 20) .none .none),
  aRent "RentNFTNotFound" [mint1] (.create 0 (.fixed 10) (.auto none) true (.nft 7) .none .none),
  aRent "CancellationNFTNotFound" [mint1] (.create 0 (.fixed 10) (.auto none) true (.tokens 20) .none (.nft 7)),
  aRent "NotAContractParticipant" let_ (.revoke 0) 3,
  aRent "CannotRevokeNonRunningContract" inRent (.revoke 0),
  aRent "CannotCancelRunningContract" let_ (.cancel 0),
  aRent "ContractCannotBeCanceledByRenter"
    [mint1, by_ 1 (.rent (.create 0 (.fixed 10) (.auto none) false (.tokens 20) .none .none)),
     by_ 2 (.rent (.rent 0 0))] (.revoke 0),
  aRent "ContractDoesNotSupportAutomaticRent" byHand (.rent 0 0) 2,
  aRent "ContractDoesNotSupportOffers" inRent (.makeOffer 0 0) 2,
  aRent "NotWhitelisted" [mint1, offer (.auto (some [3]))] (.rent 0 0) 2,
  aRent "CallerDoesNotOwnRentNFT"
    [mint1, mint2, by_ 1 (.rent (.create 0 (.fixed 10) (.manual none) true (.nft 1) .none .none))] (.makeOffer 0 0) 3,
  aRent "CallerDoesNotOwnCancellationNFT" [mint1, mint2]
    (.create 0 (.fixed 10) (.auto none) true (.tokens 20) (.nft 1) .none),
  aRent "RenteeDoesNotOwnTheRentNFT" swap (.rent 0 0) 3,
  aRent "RenteeDoesNotOwnTheCancellationNFT" pawn (.rent 0 0) 3,
  aRent "NotEnoughFundsForRentFee" (priced 20000 500) (.makeOffer 0 0) 2,
  aRent "NotEnoughFundsForCancellationFee" (priced 500 20000) (.makeOffer 0 0) 2,
  aRent "NotEnoughFundsForFees" (priced 6000 6000) (.makeOffer 0 0) 2,
  aRent "NotTheContractOwner" inRent (.cancel 0) 2,
  aRent "NotTheContractRentee" subscribed (.acceptTerms 0 20 5 none true) 3,
  aRent "ContractNFTNotInAValidState" lent (.create 0 (.fixed 10) (.auto none) true (.tokens 20) .none .none),
  aRent "RentNFTNotInValidState" (swap ++ [by_ 2 (.nft (.delegateNft 1 (some 3)))]) (.rent 0 0) 2,
  aRent "CancellationNFTNotInValidState" (pawn ++ [by_ 2 (.nft (.delegateNft 1 (some 3)))]) (.rent 0 0) 2,
  aRent "NotTheNFTOwner" [mint1] (.create 0 (.fixed 10) (.auto none) true (.tokens 20) .none .none) 2,
  { aRent "MaxSimultaneousContractReached" (inRent ++ [mint1])
      (.create 1 (.fixed 10) (.auto none) true (.tokens 20) .none .none) with lim := true },
  aRent "ContractNotFound" [] (.cancel 0),
  aRent "CannotRentStartedContract" let_ (.rent 0 0) 3,
  aRent "CannotRentOwnContract" inRent (.rent 0 0),
  { aRent "MaximumOffersReached" (byHand ++ [by_ 2 (.rent (.makeOffer 0 0))]) (.makeOffer 0 0) 3 with lim := true },
  aRent "ContractTermsAlreadyAccepted" subscribed (.acceptTerms 0 20 5 none true) 2,
  aRent "NoOffersForThisContract" byHand (.acceptOffer 0 2),
  aRent "NoOfferFromThisAddress" (byHand ++ [by_ 2 (.rent (.makeOffer 0 0))]) (.acceptOffer 0 3),
  aRent "DurationAndRentFeeMismatch" [mint1, mint2]
    (.create 0 (.sub 5 (some 50) true) (.auto none) true (.nft 1) .none .none),
  aRent "DurationAndCancellationFeeMismatch" [mint1]
    (.create 0 (.sub 5 (some 50) true) (.auto none) true (.tokens 20) (.flexible 30) .none),
  aRent "CannotAdjustSubscriptionTerms" inRent (.changeTerms 0 20 5 none true),
  aRent "DurationExceedsMaximumLimit" [mint1] (.create 0 (.fixed 101) (.auto none) true (.tokens 20) .none .none),
  aRent "DurationInvalid" [mint1] (.create 0 (.fixed 0) (.auto none) true (.tokens 20) .none .none),
  aRent "AmountTooLow" [mint1] (.create 0 (.fixed 10) (.auto none) true (.tokens 20) (.fixed 10) .none),
  aRent "ContractDoesNotMatch" inRent (.rent 0 1) 2,
  aRent "SubscriptionDataNotFound" let_ (.acceptTerms 0 20 5 none true) 2,
  aRent "ContractTermsDoNotMatch" (subscribed ++ [by_ 1 (.rent (.changeTerms 0 30 5 none true))])
    (.acceptTerms 0 20 5 none true) 2,
  aRent "CannotMakeOfferOnRunningContract" let_ (.makeOffer 0 0) 3,
  aRent "OfferAlreadyExists" (byHand ++ [by_ 2 (.rent (.makeOffer 0 0))]) (.makeOffer 0 0) 2]

abbrev aTr (s : String) (pre : List Op) (x : TrM.Call) (a : AccountId := 1) : Case := ⟨s, pre, .signed a, .tr x, false⟩

abbrev asked : List Op := promised (.onConsentAtBlock [3, 4] 1 20) .anytime

def trCases : List Case := [
  aTr "NFTNotFound" [] (.remove 0),
  aTr "NotTheNFTOwner" [mint1] (.remove 0) 2,
  aTr "InvalidRecipient" [mint1] (.set 0 1 (.atBlock 20) .anytime),
  aTr "CannotCancelTransmissionInThePast" [mint1] (.set 0 2 (.atBlock 20) (.untilBlock 0)),
  aTr "CannotSetTransmissionForListedNFTs" onSale (.set 0 2 (.atBlock 20) .anytime),
  aTr "CannotSetTransmissionForDelegatedNFTs" lent (.set 0 2 (.atBlock 20) .anytime),
  aTr "CannotSetTransmissionForRentedNFTs" inRent (.set 0 2 (.atBlock 20) .anytime),
  aTr "CannotSetTransmissionForNotCreatedSoulboundNFTs" bound (.set 0 3 (.atBlock 20) .anytime) 2,
  aTr "CannotSetTransmissionForSyncingSecretNFTs" secret (.set 0 2 (.atBlock 20) .anytime),
  aTr "CannotSetTransmissionForSyncingCapsules" capsule (.set 0 2 (.atBlock 20) .anytime),
  aTr "CannotSetTransmissionForNFTsInTransmission" sent (.set 0 2 (.atBlock 20) .anytime),
  aTr "CannotSetTransmissionInThePast" [mint1] (.set 0 2 (.atBlock 0) .anytime),
  aTr "TransmissionIsInTooMuchTime" [mint1] (.set 0 2 (.atBlock 101) .anytime),
  { aTr "SimultaneousTransmissionLimitReached" (sent ++ [mint1]) (.set 1 2 (.atBlock 20) .anytime) with lim := true },
  aTr "NFTIsNotInTransmission" [mint1] (.remove 0),
  aTr "ProtocolIsNotCancellable" (promised (.atBlock 20) .none) (.remove 0),
  aTr "ProtocolTimerCannotBeReset" sent (.resetTimer 0 30),
  aTr "ProtocolDoesNotAcceptConsent" sent (.addConsent 0) 3,
  aTr "ConsentAlreadyReachedThreshold" (asked ++ [by_ 3 (.tr (.addConsent 0))]) (.addConsent 0) 4,
  aTr "AlreadyAddedConsent" (promised (.onConsent [3, 4] 2) .anytime ++ [by_ 3 (.tr (.addConsent 0))]) (.addConsent 0) 3,
  aTr "ThresholdTooHigh" [mint1] (.set 0 2 (.onConsent [3, 4] 6) .anytime),
  aTr "ThresholdTooLow" [mint1] (.set 0 2 (.onConsent [3, 4] 0) .anytime),
  aTr "InvalidConsentList" [mint1] (.set 0 2 (.onConsent [3, 4] 3) .anytime),
  aTr "DuplicatesInConsentList" [mint1] (.set 0 2 (.onConsent [3, 3] 1) .anytime),
  aTr "ConsentNotAllowed" asked (.addConsent 0) 5]

abbrev aTee (s : String) (pre : List Op) (x : TeeM.Call) (a : AccountId := 1) : Case := ⟨s, pre, .signed a, .tee x, false⟩
abbrev asRoot (s : String) (pre : List Op) (x : TeeM.RootCall) : Case := ⟨s, pre, .root, .root (.tee x), false⟩
/-- a root call of the pallet -/
abbrev gov (x : TeeM.RootCall) : Op := .call .root (.root (.tee x))
/-- account 1 has asked to be registered -/
abbrev applied : Op := by_ 1 (.tee (.register 11 [1]))
abbrev report (k : AccountId) : TeeM.Call := .submitReport 8 ⟨⟨20, 20, 20, 20, 20⟩, k⟩

def teeCases : List Case := [
  asRoot "EnclaveNotFound" [] (.forceRemove 8),
  aTee "RegistrationAlreadyExists" [applied] (.register 12 [1]),
  aTee "OperatorAlreadyExists" enclaves (.register 12 [1]) 8,
  aTee "EnclaveAddressAlreadyExists" enclaves (.register 18 [1]),
  aTee "UnregistrationAlreadyExists" (enclaves ++ [by_ 8 (.tee .unregister)]) .unregister 8,
  { aTee "UnregistrationLimitReached" (enclaves ++ [by_ 8 (.tee .unregister)]) .unregister 9 with lim := true },
  aTee "RegistrationNotFound" [] .unregister,
  asRoot "ClusterNotFound" [] (.removeCluster 0),
  asRoot "ClusterIsNotEmpty" enclaves (.removeCluster 0),
  asRoot "ClusterIsFull"
    (enclaves ++ [applied, by_ 2 (.tee (.register 12 [1])), gov (.assign 1 0 2)]) (.assign 2 0 3),
  aTee "ApiUriIsEmpty" [] (.register 11 []),
  aTee "OperatorAndEnclaveAreSame" [] (.register 1 [1]),
  aTee "UpdateRequestAlreadyExists" (enclaves ++ [by_ 8 (.tee (.update 28 [1]))]) (.update 28 [1]) 8,
  aTee "UpdateRequestNotFound" [] .cancelUpdate,
  aTee "UpdateProhibitedForUnassignedEnclave" [] (.update 28 [1]),
  aTee "StakingNotFound" [] .withdraw,
  aTee "UnbondingNotStarted" [applied] .withdraw,
  aTee "WithdrawProhibited" (enclaves ++ [by_ 8 (.tee .unregister)]) .withdraw 8,
  asRoot "MetricsServerAlreadyExists" enclaves (.registerServer ⟨7, .pub⟩),
  asRoot "MetricsServerNotFound" [] (.unregisterServer 7),
  { asRoot "MetricsServerLimitReached" enclaves (.registerServer ⟨6, .pub⟩) with lim := true },
  aTee "MetricsServerAddressNotFound" enclaves (report 7) 6,
  aTee "MetricsServerUnsupportedClusterType" (enclaves ++ [gov (.setServerType 7 .priv)]) (report 7) 7,
  aTee "EnclaveNotFoundForTheOperator" [gov (.registerServer ⟨7, .pub⟩)] (report 7) 7,
  asRoot "UnregistrationNotFound" enclaves (.approveUnregister 8),
  asRoot "FailedToGetActiveEra" [applied, gov (.createCluster .pub)] (.assign 1 0 0),
  { aTee "MetricsReportsLimitReached" (enclaves ++ [by_ 7 (.tee (report 7))]) (report 6) 7 with lim := true },
  aTee "InvalidEraToClaimRewards" enclaves (.claim 5) 8,
  aTee "RewardsAlreadyClaimedForEra" (enclaves ++ [.era 8, by_ 8 (.tee (.claim 5))]) (.claim 5) 8,
  aTee "InsufficientBalanceToBond" [] (.register 11 [1]) 55,
  aTee "OperatorAssignedEraNotFound" enclaves (.claim 5),
  aTee "BondExtraNotAllowed" [applied] .bondExtra,
  aTee "RefundExcessNotAllowed" [applied] .refundExcess,
  asRoot "NoUpdatesProvided" enclaves (.forceUpdate 8 none none),
  aTee "UnbondingPeriod"
    (enclaves ++ [by_ 8 (.tee .unregister), gov (.approveUnregister 8)]) (.register 28 [1]) 8]

abbrev aBr (s : String) (pre : List Op) (x : BrM.Call) (a : AccountId := 1) : Case := ⟨s, pre, .signed a, .br x, false⟩
abbrev asExt (s : String) (pre : List Op) (x : BrM.ExtCall) : Case := ⟨s, pre, .ext, .ext x, false⟩
abbrev set_ (x : BrM.ExtCall) : Op := .call .ext (.ext x)
abbrev bridge : List Op := [set_ (.addChain 1), set_ (.setRelayers [1, 2, 3, 4, 5])]
abbrev ask : BrM.Call := .vote 1 ⟨0, 9, 100⟩

def brCases : List Case := [
  asExt "CannotAddSelfToAllowedChainList" [] (.addChain 0),
  asExt "ChainAlreadyWhitelisted" bridge (.addChain 1),
  asExt "ChainNotFound" [] (.setNonce 1 1),
  aBr "ChainNotAllowed" [] (.deposit 5 [1] 1),
  aBr "InsufficientBalance" bridge (.deposit 20000 [1] 1),
  aBr "MaximumVoteLimitExceeded"
    (bridge ++ [set_ (.setThreshold 10), by_ 1 (.br ask), by_ 2 (.br ask), by_ 3 (.br ask), by_ 4 (.br ask),
      by_ 5 (.br ask), set_ (.setRelayers [6])]) ask 6,
  aBr "MustBeRelayer" [set_ (.addChain 1)] ask,
  asExt "NewNonceTooLow" bridge (.setNonce 1 0),
  aBr "ProposalAlreadyCompleted" (bridge ++ [by_ 1 (.br ask), by_ 2 (.br ask)]) ask 3,
  aBr "ProposalExpired" (bridge ++ [by_ 1 (.br ask)] ++ ticks 10) ask 2,
  aBr "RelayerAlreadyVoted" (bridge ++ [by_ 1 (.br ask)]) ask,
  asExt "ThresholdCannotBeZero" [] (.setThreshold 0)]

/-- the cases of a pallet -/
def cases : Pallet → List Case
  | .nft => nftCases
  | .marketplace => mktCases
  | .auction => aucCases
  | .rent => rentCases
  | .transmission => trCases
  | .tee => teeCases
  | .bridge => brCases

/-- every case is as it says -/
theorem all_good : ∀ p, (cases p).all (Case.good p) = true := by
  intro p; cases p <;> decide +kernel

/-- no declared error is left out -/
theorem all_there : ∀ p, (declared p).all (fun s => decide (s ∈ idle p) || decide (s ∈ (cases p).map (·.err))) = true := by
  intro p; cases p <;> decide +kernel

end FaultCases
