import Verif.Props.AcceptSpec
/-
What the error of a refused call states about the call and the chain (C117).  Refers to the model's records only, and to
`Spec.Refuse` (C87) and `Spec.Accept` (C115) for payments and for what can be pledged or listed.
-/
namespace Spec.Why
open Spec.Accept

/-- the NFT exists, and this holds of it -/
abbrev Is (w : World) (n : NFTId) (P : NFTData → Prop) : Prop := ∃ d, w.nfts.get n = some d ∧ P d

/-- the collection exists, and this holds of it -/
abbrev Coll (w : World) (k : CollId) (P : _root_.Coll → Prop) : Prop := ∃ x, w.nft.colls.get k = some x ∧ P x

/-- the marketplace exists, and this holds of it -/
abbrev Market (w : World) (m : MktId) (P : _root_.Mkt → Prop) : Prop := ∃ x, w.mkt.mkts.get m = some x ∧ P x

/-- the NFT is for sale, and this holds of the offer -/
abbrev OnSale (w : World) (n : NFTId) (P : Sale → Prop) : Prop := ∃ x, w.mkt.sales.get n = some x ∧ P x

/-- the NFT is auctioned, and this holds of the auction -/
abbrev Auctioned (w : World) (n : NFTId) (P : Auction → Prop) : Prop := ∃ x, w.auc.auctions.get n = some x ∧ P x

/-- the NFT has a rent contract, and this holds of it -/
abbrev Rental (w : World) (n : NFTId) (P : Contract → Prop) : Prop := ∃ x, w.rent.contracts.get n = some x ∧ P x

/-- the NFT has a transmission protocol, and this holds of it -/
abbrev Trans (w : World) (n : NFTId) (P : Transmission → Prop) : Prop := ∃ x, w.tr.trans.get n = some x ∧ P x

/-- the operator has a stake, and this holds of it -/
abbrev Stake (w : World) (a : AccountId) (P : Ledger → Prop) : Prop := ∃ x, w.tee.ledger.get a = some x ∧ P x

/-- Why this payment fails, in words of the balances pallet. -/
inductive Blame (ed : Balance) (p : Purse) (d : Due) : String → Prop where
  /-- the payer has less than the amount -/
  | funds : p.free d.payer < d.amount → Blame ed p d "InsufficientBalance"
  /-- the rest would be less than what is locked, or less than an account must have -/
  | rest : d.amount ≤ p.free d.payer → p.free d.payer < d.amount + p.locked d.payer ∨
      (p.free d.payer < d.amount + ed ∧ (d.mayEmpty = true → 0 < p.locked d.payer)) →
      Blame ed p d "LiquidityRestrictions/KeepAlive"
  /-- the payee would have less than an account must have -/
  | payee (y : AccountId) : d.payee = some y → p.free y + d.amount < ed → Blame ed p d "ExistentialDeposit"

/-- One of these payments, the earlier ones made, fails for this reason. -/
def Unpaid (ed : Balance) (p : Purse) : List Due → String → Prop
  | [], _ => False
  | d :: t, s => (¬ d.Idle ∧ Blame ed p d s) ∨ (d.Can ed p ∧ Unpaid ed (d.after ed p) t s)

/-- The NFT a call is about, for the errors that say something of it. -/
def about : Call → Option NFTId
  | .nft (.burnNft n) => some n
  | .nft (.transferNft n _) => some n
  | .nft (.delegateNft n _) => some n
  | .nft (.setRoyalty n _) => some n
  | .nft (.addToColl n _) => some n
  | .nft (.addSecret n _) => some n
  | .nft (.addSecretShard n) => some n
  | .nft (.toCapsule n _) => some n
  | .nft (.setCapsuleData n _) => some n
  | .nft (.addCapsuleShard n) => some n
  | .nft (.notifyKey n) => some n
  | .mkt (.list n _ _) => some n
  | .mkt (.unlist n) => some n
  | .mkt (.buy n _) => some n
  | .auc (.create n ..) => some n
  | .auc (.cancel n) => some n
  | .auc (.end_ n) => some n
  | .auc (.buyItNow n _) => some n
  | .rent (.create n ..) => some n
  | .tr (.set n _ _ _) => some n
  | .tr (.remove n) => some n
  | .tr (.resetTimer n _) => some n
  | .tr (.addConsent n) => some n
  | _ => none

/-- Errors that name a flag of the NFT which forbids the call. -/
inductive Bars : Call → (NFTState → Bool) → String → Prop where
  | burnListed {n} : Bars (.nft (.burnNft n)) (·.listed) "CannotBurnListedNFTs"
  | burnDelegated {n} : Bars (.nft (.burnNft n)) (·.delegated) "CannotBurnDelegatedNFTs"
  | burnRented {n} : Bars (.nft (.burnNft n)) (·.rented) "CannotBurnRentedNFTs"
  | burnTrans {n} : Bars (.nft (.burnNft n)) (·.transmission) "CannotBurnNFTsInTransmission"
  | moveListed {n r} : Bars (.nft (.transferNft n r)) (·.listed) "CannotTransferListedNFTs"
  | moveDelegated {n r} : Bars (.nft (.transferNft n r)) (·.delegated) "CannotTransferDelegatedNFTs"
  | moveSecret {n r} : Bars (.nft (.transferNft n r)) (·.syncSecret) "CannotTransferNotSyncedSecretNFTs"
  | moveRented {n r} : Bars (.nft (.transferNft n r)) (·.rented) "CannotTransferRentedNFTs"
  | moveCapsule {n r} : Bars (.nft (.transferNft n r)) (·.syncCapsule) "CannotTransferNotSyncedCapsules"
  | moveTrans {n r} : Bars (.nft (.transferNft n r)) (·.transmission) "CannotTransferNFTsInTransmission"
  | lendListed {n r} : Bars (.nft (.delegateNft n r)) (·.listed) "CannotDelegateListedNFTs"
  | lendRented {n r} : Bars (.nft (.delegateNft n r)) (·.rented) "CannotDelegateRentedNFTs"
  | lendSecret {n r} : Bars (.nft (.delegateNft n r)) (·.syncSecret) "CannotDelegateSyncingNFTs"
  | lendCapsule {n r} : Bars (.nft (.delegateNft n r)) (·.syncCapsule) "CannotDelegateSyncingCapsules"
  | lendTrans {n r} : Bars (.nft (.delegateNft n r)) (·.transmission) "CannotDelegateNFTsInTransmission"
  | royListed {n r} : Bars (.nft (.setRoyalty n r)) (·.listed) "CannotSetRoyaltyForListedNFTs"
  | royDelegated {n r} : Bars (.nft (.setRoyalty n r)) (·.delegated) "CannotSetRoyaltyForDelegatedNFTs"
  | royRented {n r} : Bars (.nft (.setRoyalty n r)) (·.rented) "CannotSetRoyaltyForRentedNFTs"
  | roySecret {n r} : Bars (.nft (.setRoyalty n r)) (·.syncSecret) "CannotSetRoyaltyForSyncingNFTs"
  | royCapsule {n r} : Bars (.nft (.setRoyalty n r)) (·.syncCapsule) "CannotSetRoyaltyForSyncingCapsules"
  | royTrans {n r} : Bars (.nft (.setRoyalty n r)) (·.transmission) "CannotSetRoyaltyForNFTsInTransmission"
  | secListed {n r} : Bars (.nft (.addSecret n r)) (·.listed) "CannotAddSecretToListedNFTs"
  | secSecret {n r} : Bars (.nft (.addSecret n r)) (·.secret) "CannotAddSecretToSecretNFTs"
  | secRented {n r} : Bars (.nft (.addSecret n r)) (·.rented) "CannotAddSecretToRentedNFTs"
  | secDelegated {n r} : Bars (.nft (.addSecret n r)) (·.delegated) "CannotAddSecretToDelegatedNFTs"
  | secCapsule {n r} : Bars (.nft (.addSecret n r)) (·.syncCapsule) "CannotAddSecretToSyncingCapsules"
  | secTrans {n r} : Bars (.nft (.addSecret n r)) (·.transmission) "CannotAddSecretToNFTsInTransmission"
  | capListed {n r} : Bars (.nft (.toCapsule n r)) (·.listed) "CannotConvertListedNFTs"
  | capCapsule {n r} : Bars (.nft (.toCapsule n r)) (·.capsule) "CannotConvertCapsules"
  | capRented {n r} : Bars (.nft (.toCapsule n r)) (·.rented) "CannotConvertRentedNFTs"
  | capDelegated {n r} : Bars (.nft (.toCapsule n r)) (·.delegated) "CannotConvertDelegatedNFTs"
  | capSecret {n r} : Bars (.nft (.toCapsule n r)) (·.syncSecret) "CannotConvertSyncingNFTs"
  | capTrans {n r} : Bars (.nft (.toCapsule n r)) (·.transmission) "CannotConvertNFTsInTransmission"
  | offListed {n r} : Bars (.nft (.setCapsuleData n r)) (·.listed) "CannotSetOffchainDataForListedNFTs"
  | offRented {n r} : Bars (.nft (.setCapsuleData n r)) (·.rented) "CannotSetOffchainDataForRentedNFTs"
  | offDelegated {n r} : Bars (.nft (.setCapsuleData n r)) (·.delegated) "CannotSetOffchainDataForDelegatedNFTs"
  | offSecret {n r} : Bars (.nft (.setCapsuleData n r)) (·.syncSecret) "CannotSetOffchainDataForSyncingNFTs"
  | offCapsule {n r} : Bars (.nft (.setCapsuleData n r)) (·.syncCapsule) "CannotSetOffchainDataForSyncingCapsules"
  | keyListed {n} : Bars (.nft (.notifyKey n)) (·.listed) "CannotChangeKeyForListedNFTs"
  | keyRented {n} : Bars (.nft (.notifyKey n)) (·.rented) "CannotChangeKeyForRentedNFTs"
  | keyDelegated {n} : Bars (.nft (.notifyKey n)) (·.delegated) "CannotChangeKeyForDelegatedNFTs"
  | keySecret {n} : Bars (.nft (.notifyKey n)) (·.syncSecret) "CannotChangeKeyForSyncingNFTs"
  | keyCapsule {n} : Bars (.nft (.notifyKey n)) (·.syncCapsule) "CannotChangeKeyForSyncingCapsules"
  | keyTrans {n} : Bars (.nft (.notifyKey n)) (·.transmission) "CannotChangeKeyForNFTsInTransmission"
  | sellListed {n m p} : Bars (.mkt (.list n m p)) (·.listed) "CannotListAlreadytListedNFTs"
  | sellDelegated {n m p} : Bars (.mkt (.list n m p)) (·.delegated) "CannotListDelegatedNFTs"
  | sellSecret {n m p} : Bars (.mkt (.list n m p)) (·.syncSecret) "CannotListNotSyncedSecretNFTs"
  | sellRented {n m p} : Bars (.mkt (.list n m p)) (·.rented) "CannotListRentedNFTs"
  | sellCapsule {n m p} : Bars (.mkt (.list n m p)) (·.syncCapsule) "CannotListNotSyncedCapsules"
  | sellTrans {n m p} : Bars (.mkt (.list n m p)) (·.transmission) "CannotListNFTsInTransmission"
  | aucListed {n m s e p b} : Bars (.auc (.create n m s e p b)) (·.listed) "CannotListListedNFTs"
  | aucDelegated {n m s e p b} : Bars (.auc (.create n m s e p b)) (·.delegated) "CannotListDelegatedNFTs"
  | aucSecret {n m s e p b} : Bars (.auc (.create n m s e p b)) (·.syncSecret) "CannotListNotSyncedSecretNFTs"
  | aucRented {n m s e p b} : Bars (.auc (.create n m s e p b)) (·.rented) "CannotListRentedNFTs"
  | aucCapsule {n m s e p b} : Bars (.auc (.create n m s e p b)) (·.syncCapsule) "CannotListNotSyncedCapsules"
  | aucTrans {n m s e p b} : Bars (.auc (.create n m s e p b)) (·.transmission) "CannotListNFTsInTransmission"
  | trListed {n r p k} : Bars (.tr (.set n r p k)) (·.listed) "CannotSetTransmissionForListedNFTs"
  | trDelegated {n r p k} : Bars (.tr (.set n r p k)) (·.delegated) "CannotSetTransmissionForDelegatedNFTs"
  | trRented {n r p k} : Bars (.tr (.set n r p k)) (·.rented) "CannotSetTransmissionForRentedNFTs"
  | trSecret {n r p k} : Bars (.tr (.set n r p k)) (·.syncSecret) "CannotSetTransmissionForSyncingSecretNFTs"
  | trCapsule {n r p k} : Bars (.tr (.set n r p k)) (·.syncCapsule) "CannotSetTransmissionForSyncingCapsules"
  | trTrans {n r p k} : Bars (.tr (.set n r p k)) (·.transmission) "CannotSetTransmissionForNFTsInTransmission"

/-- Errors that name a flag which the NFT does not have and the call needs. -/
inductive Needs : Call → (NFTState → Bool) → String → Prop where
  | secret {n} : Needs (.nft (.addSecretShard n)) (·.secret) "NFTIsNotSecret"
  | secretOpen {n} : Needs (.nft (.addSecretShard n)) (·.syncSecret) "NFTAlreadySynced"
  | capsule {n} : Needs (.nft (.addCapsuleShard n)) (·.capsule) "NFTIsNotCapsule"
  | capsuleOpen {n} : Needs (.nft (.addCapsuleShard n)) (·.syncCapsule) "NFTAlreadySynced"
  | capsuleData {n r} : Needs (.nft (.setCapsuleData n r)) (·.capsule) "NFTIsNotCapsule"
  | capsuleKey {n} : Needs (.nft (.notifyKey n)) (·.capsule) "NFTIsNotCapsule"
  | remove {n} : Needs (.tr (.remove n)) (·.transmission) "NFTIsNotInTransmission"
  | reset {n b} : Needs (.tr (.resetTimer n b)) (·.transmission) "NFTIsNotInTransmission"
  | consent {n} : Needs (.tr (.addConsent n)) (·.transmission) "NFTIsNotInTransmission"

/-- The NFT of a call that only the owner of the NFT may make. -/
def ownerOnly : Call → Option NFTId
  | .nft (.burnNft n) => some n
  | .nft (.transferNft n _) => some n
  | .nft (.delegateNft n _) => some n
  | .nft (.setRoyalty n _) => some n
  | .nft (.addToColl n _) => some n
  | .nft (.addSecret n _) => some n
  | .nft (.toCapsule n _) => some n
  | .nft (.setCapsuleData n _) => some n
  | .nft (.notifyKey n) => some n
  | .mkt (.list n _ _) => some n
  | .mkt (.unlist n) => some n
  | .auc (.create n ..) => some n
  | .rent (.create n ..) => some n
  | .tr (.set n _ _ _) => some n
  | .tr (.remove n) => some n
  | .tr (.resetTimer n _) => some n
  | _ => none

/-- The name of the error of a call that only the NFT's owner may make. -/
def ownerError : Call → String
  | .auc (.create ..) => "CannotListNotOwnedNFTs"
  | _ => "NotTheNFTOwner"

/-- The error of a call that may not be made for a soulbound NFT created by another. -/
inductive Bound : Call → String → Prop where
  | move {n r} : Bound (.nft (.transferNft n r)) "CannotTransferNotCreatedSoulboundNFTs"
  | sell {n m p} : Bound (.mkt (.list n m p)) "CannotListNotCreatedSoulboundNFTs"
  | auc {n m s e p b} : Bound (.auc (.create n m s e p b)) "CannotListNotCreatedSoulboundNFTs"
  | tr {n r p k} : Bound (.tr (.set n r p k)) "CannotSetTransmissionForNotCreatedSoulboundNFTs"

/-- The collection a call is about. -/
def collOf : NftM.Call → Option CollId
  | .createNft _ _ k _ => k
  | .createSecret _ _ _ k _ => k
  | .createCapsule _ _ _ k _ => k
  | .addToColl _ k => some k
  | .burnColl k => some k
  | .closeColl k => some k
  | .limitColl k _ => some k
  | .setCollData k _ => some k
  | _ => none

/-- The collection a call adds an NFT to. -/
def joins : NftM.Call → Option CollId
  | .createNft _ _ k _ => k
  | .createSecret _ _ _ k _ => k
  | .createCapsule _ _ _ k _ => k
  | .addToColl _ k => some k
  | _ => none

/-- The collection a call needs open. -/
def opens : NftM.Call → Option CollId
  | .limitColl k _ => some k
  | x => joins x

/-- the shares sent so far for the secret, or the capsule, a call adds one to -/
def sharesFor (w : World) : NftM.Call → Option (List (ClusterId × AccountId))
  | .addSecretShard n => w.nft.secretShards.get n
  | .addCapsuleShard n => w.nft.capsuleShards.get n
  | _ => none

/-- Reasons particular to the NFT pallet. -/
inductive Nft (c : Cfg) (w : World) (a : AccountId) : NftM.Call → String → Prop where
  | noColl {x k} : collOf x = some k → w.nft.colls.get k = none → Nft c w a x "CollectionNotFound"
  | collOwner {x k} : collOf x = some k → Coll w k (·.owner ≠ a) → Nft c w a x "NotTheCollectionOwner"
  | closed {x k} : opens x = some k → Coll w k (·.closed = true) → Nft c w a x "CollectionIsClosed"
  | full {x k} : joins x = some k → Coll w k (fun y => y.limit.getD c.collLimit ≤ y.nfts.length) →
      Nft c w a x "CollectionHasReachedLimit"
  | toSelf {n} : Nft c w a (.transferNft n a) "CannotTransferNFTsToYourself"
  | creator {n r} : Is w n (·.creator ≠ a) → Nft c w a (.setRoyalty n r) "NotTheNFTCreator"
  | newLimit {d l} : c.collLimit < l → Nft c w a (.createColl d (some l)) "CollectionLimitExceededMaximumAllowed"
  | overLimit {k l} : c.collLimit < l → Nft c w a (.limitColl k l) "CollectionLimitExceededMaximumAllowed"
  | notEmpty {k} : Coll w k (·.nfts ≠ []) → Nft c w a (.burnColl k) "CollectionIsNotEmpty"
  | limited {k l} : Coll w k (·.limit ≠ none) → Nft c w a (.limitColl k l) "CollectionLimitAlreadySet"
  | tooMany {k l} : Coll w k (fun y => l < y.nfts.length) → Nft c w a (.limitColl k l) "CollectionHasTooManyNFTs"
  | inColl {n k} : Is w n (·.coll ≠ none) → Nft c w a (.addToColl n k) "NFTBelongToACollection"
  | secretFees {d s r k b} : ¬ Holds w a ((w.nft.fee + w.nft.secretFee) % 2 ^ 128) →
      Nft c w a (.createSecret d s r k b) "InsufficientBalance"
  | capsuleFees {d s r k b} : ¬ Holds w a ((w.nft.fee + w.nft.capsuleFee) % 2 ^ 128) →
      Nft c w a (.createCapsule d s r k b) "InsufficientBalance"
  | enclave {x n} : x = .addSecretShard n ∨ x = .addCapsuleShard n → (∀ op e, w.tee.data.get op = some e → e.addr ≠ a) →
      (∀ op, w.tee.accOp.get a = some op → w.tee.opCluster.get op = none) → Nft c w a x "NotARegisteredEnclave"
  /-- all shares so far come from one cluster, which is not that of the enclave -/
  | cluster {x l op k} : sharesFor w x = some l → w.tee.accOp.get a = some op → w.tee.opCluster.get op = some k →
      l ≠ [] → (∀ y ∈ l, y.1 ≠ k) → Nft c w a x "ShareNotFromValidCluster"
  | again {x l op k} : sharesFor w x = some l → w.tee.accOp.get a = some op → w.tee.opCluster.get op = some k →
      (k, op) ∈ l → Nft c w a x "EnclaveAlreadyAddedShard"
  /-- the runtime wants no shares at all -/
  | noShares1 {n} : c.shards = 0 → Nft c w a (.addSecretShard n) "NFTHasReceivedAllShards"
  | noShares2 {n} : c.shards = 0 → Nft c w a (.addCapsuleShard n) "CapsuleHasReceivedAllShards"

/-- Reasons particular to the marketplace pallet. -/
inductive Mkt (c : Cfg) (w : World) (a : AccountId) : MktM.Call → String → Prop where
  | toSelf {m} : Mkt c w a (.setOwner m a) "CannotTransferMarketplaceToYourself"
  | none1 {m r} : w.mkt.mkts.get m = none → Mkt c w a (.setOwner m r) "MarketplaceNotFound"
  | none2 {m k} : w.mkt.mkts.get m = none → Mkt c w a (.setKind m k) "MarketplaceNotFound"
  | none3 {m f l x o k} : w.mkt.mkts.get m = none → Mkt c w a (.setConfig m f l x o k) "MarketplaceNotFound"
  | none4 {n m p} : w.mkt.mkts.get m = none → Mkt c w a (.list n m p) "MarketplaceNotFound"
  | owner1 {m r} : Market w m (·.owner ≠ a) → Mkt c w a (.setOwner m r) "NotTheMarketplaceOwner"
  | owner2 {m k} : Market w m (·.owner ≠ a) → Mkt c w a (.setKind m k) "NotTheMarketplaceOwner"
  | owner3 {m f l x o k} : Market w m (·.owner ≠ a) → Mkt c w a (.setConfig m f l x o k) "NotTheMarketplaceOwner"
  | admit {n m p d} : w.nfts.get n = some d → Market w m (¬ Refuse.Admits · a d.coll) →
      Mkt c w a (.list n m p) "NotAllowedToList"
  | cover {n m p} : Market w m (∃ x, ·.commission = some (.flat x) ∧ p < x) →
      Mkt c w a (.list n m p) "PriceCannotCoverMarketplaceFee"
  | noSale1 {n} : w.mkt.sales.get n = none → Mkt c w a (.unlist n) "NFTNotForSale"
  | noSale2 {n p} : w.mkt.sales.get n = none → Mkt c w a (.buy n p) "NFTNotForSale"
  | own {n p} : OnSale w n (·.seller = a) → Is w n (·.owner = a) → Mkt c w a (.buy n p) "CannotBuyOwnedNFT"
  | price {n p} : OnSale w n (·.price ≠ p) → Mkt c w a (.buy n p) "PriceDoesNotMatch"
  | funds {n p} : w.bal.freeOf a < p → Mkt c w a (.buy n p) "NotEnoughBalanceToBuy"

/-- Reasons particular to the auction pallet. -/
inductive Auc (c : Cfg) (w : World) (a : AccountId) : AucM.Call → String → Prop where
  | past {n m s e p b} : s < w.now → Auc c w a (.create n m s e p b) "AuctionCannotStartInThePast"
  | order {n m s e p b} : e ≤ s → Auc c w a (.create n m s e p b) "AuctionCannotEndBeforeItHasStarted"
  | long {n m s e p b} : s + c.maxDur < e → Auc c w a (.create n m s e p b) "AuctionDurationIsTooLong"
  | short {n m s e p b} : e < s + c.minDur → Auc c w a (.create n m s e p b) "AuctionDurationIsTooShort"
  | far {n m s e p b} : w.now + c.maxDelay < s → Auc c w a (.create n m s e p b) "AuctionStartIsTooFarAway"
  | buyIt {n m s e p b} : b ≤ p → Auc c w a (.create n m s e p (some b)) "BuyItPriceCannotBeLessOrEqualThanStartPrice"
  | noMarket {n m s e p b} : w.mkt.mkts.get m = none → Auc c w a (.create n m s e p b) "MarketplaceNotFound"
  | admit {n m s e p b d} : w.nfts.get n = some d → Market w m (¬ Refuse.Admits · a d.coll) →
      Auc c w a (.create n m s e p b) "NotAllowedToList"
  | cover {n m s e p b} : Market w m (∃ x, ·.commission = some (.flat x) ∧ p < x) →
      Auc c w a (.create n m s e p b) "PriceCannotCoverMarketplaceFee"
  | limit {n m s e p b} : c.aucLimit ≤ w.auc.deadlines.length → Auc c w a (.create n m s e p b) "MaximumAuctionsLimitReached"
  | none1 {n} : w.auc.auctions.get n = none → Auc c w a (.cancel n) "AuctionDoesNotExist"
  | none2 {n} : w.auc.auctions.get n = none → Auc c w a (.end_ n) "AuctionDoesNotExist"
  | none3 {n v} : w.auc.auctions.get n = none → Auc c w a (.addBid n v) "AuctionDoesNotExist"
  | none4 {n} : w.auc.auctions.get n = none → Auc c w a (.removeBid n) "AuctionDoesNotExist"
  | none5 {n p} : w.auc.auctions.get n = none → Auc c w a (.buyItNow n p) "AuctionDoesNotExist"
  | creator1 {n} : Auctioned w n (·.creator ≠ a) → Auc c w a (.cancel n) "NotTheAuctionCreator"
  | creator2 {n} : Auctioned w n (·.creator ≠ a) → Auc c w a (.end_ n) "NotTheAuctionCreator"
  | begun {n} : Auctioned w n (·.start ≤ w.now) → Auc c w a (.cancel n) "CannotCancelAuctionInProgress"
  | notExtended {n} : Auctioned w n (·.extended = false) → Auc c w a (.end_ n) "CannotEndAuctionThatWasNotExtended"
  | noBids {n} : Auctioned w n (·.bids = []) → Auc c w a (.end_ n) "CannotEndAuctionWithoutBids"
  | own1 {n v} : Auctioned w n (·.creator = a) → Auc c w a (.addBid n v) "CannotAddBidToYourOwnAuctions"
  | early1 {n v} : Auctioned w n (w.now < ·.start) → Auc c w a (.addBid n v) "AuctionNotStarted"
  | small {n v} : v ≤ c.ed → Auc c w a (.addBid n v) "AmountTooLow"
  | low {n v} : Auctioned w n (fun x => x.bids = [] ∧ v ≤ x.startPrice) →
      Auc c w a (.addBid n v) "CannotBidLessThanTheStartingPrice"
  | outbid {n v} : Auctioned w n (∃ y ∈ ·.bids, v ≤ y.2) → Auc c w a (.addBid n v) "CannotBidLessThanTheHighestBid"
  | noBid {n} : Auctioned w n (∀ y ∈ ·.bids, y.1 ≠ a) → Auc c w a (.removeBid n) "BidDoesNotExist"
  | ending {n} : Auctioned w n (·.fin ≤ w.now + c.ending) → Auc c w a (.removeBid n) "CannotRemoveBidAtTheEndOfAuction"
  | noPrice {n p} : Auctioned w n (·.buyIt = none) → Auc c w a (.buyItNow n p) "AuctionDoesNotSupportBuyItNow"
  | price {n p} : Auctioned w n (∃ q, ·.buyIt = some q ∧ q ≠ p) → Auc c w a (.buyItNow n p) "PriceDoesNotMatch"
  | own2 {n p} : Auctioned w n (·.creator = a) → Auc c w a (.buyItNow n p) "CannotBuyItNowToYourOwnAuctions"
  | early2 {n p} : Auctioned w n (w.now < ·.start) → Auc c w a (.buyItNow n p) "AuctionNotStarted"
  | higher {n p} : Auctioned w n (∃ y ∈ ·.bids, p ≤ y.2) →
      Auc c w a (.buyItNow n p) "CannotBuyItWhenABidIsHigherThanBuyItPrice"
  | noClaim : w.auc.claims.get a = none → Auc c w a .claim "ClaimDoesNotExist"

/-- Reasons why `r` cannot give what a contract asks of them, with the errors for an NFT that is not theirs. -/
inductive Give (w : World) (r : AccountId) (k : Contract) (notRent notDeposit : String) : String → Prop where
  | noRent {i} : k.rentFee = .nft i → w.nfts.get i = none → Give w r k notRent notDeposit "RentNFTNotFound"
  | rentOwner {i} : k.rentFee = .nft i → Is w i (·.owner ≠ r) → Give w r k notRent notDeposit notRent
  | rentState {i} : k.rentFee = .nft i → Is w i (¬ Refuse.Pledgeable ·) → Give w r k notRent notDeposit "RentNFTNotInValidState"
  | noDeposit {i} : k.renteeFee = .nft i → w.nfts.get i = none → Give w r k notRent notDeposit "CancellationNFTNotFound"
  | depositOwner {i} : k.renteeFee = .nft i → Is w i (·.owner ≠ r) → Give w r k notRent notDeposit notDeposit
  | depositState {i} : k.renteeFee = .nft i → Is w i (¬ Refuse.Pledgeable ·) →
      Give w r k notRent notDeposit "CancellationNFTNotInValidState"

/-- Reasons why a contract cannot be started with rentee `r`. -/
inductive Start (c : Cfg) (w : World) (r : AccountId) (k : Contract) : String → Prop where
  | give {s} : Give w r k "RenteeDoesNotOwnTheRentNFT" "RenteeDoesNotOwnTheCancellationNFT" s → Start c w r k s
  /-- the rent cannot be paid to the owner -/
  | rent : ¬ (pays r k.renter (rentInTokens k.rentFee)).Can c.ed (purse w.bal) → Start c w r k "NotEnoughFundsForRentFee"
  /-- after the rent is paid, the deposit cannot be made -/
  | deposit : ¬ (pays r c.rentPot (inTokens k.renteeFee)).Can c.ed
      ((pays r k.renter (rentInTokens k.rentFee)).after c.ed (purse w.bal)) → Start c w r k "NotEnoughFundsForCancellationFee"
  | room : ¬ RentRoom c w k.duration → Start c w r k "MaxSimultaneousContractReached"

/-- the contract a call of the rent pallet is about -/
def contractOf : RentM.Call → Option NFTId
  | .create .. => none
  | .retractOffer _ => none
  | .cancel n => some n
  | .revoke n => some n
  | .rent n _ => some n
  | .makeOffer n _ => some n
  | .acceptOffer n _ => some n
  | .changeTerms n .. => some n
  | .acceptTerms n .. => some n

/-- the contract of a call that only its renter may make -/
def renterOnly : RentM.Call → Option NFTId
  | .cancel n => some n
  | .acceptOffer n _ => some n
  | .changeTerms n .. => some n
  | _ => none

/-- Reasons particular to the rent pallet. -/
inductive Rent (c : Cfg) (w : World) (a : AccountId) : RentM.Call → String → Prop where
  | full {n d q v f x y} : c.rentLimit ≤ w.rent.fixedQ.length + w.rent.subQ.length + w.rent.availQ.length →
      Rent c w a (.create n d q v f x y) "MaxSimultaneousContractReached"
  | state {n d q v f x y} : Is w n (¬ Refuse.Pledgeable ·) → Rent c w a (.create n d q v f x y) "ContractNFTNotInAValidState"
  | long {n d q v f x y} : c.rentMaxDur < (Refuse.periodOf c.rentMaxDur d).1 ∨ c.rentMaxDur < (Refuse.periodOf c.rentMaxDur d).2 →
      Rent c w a (.create n d q v f x y) "DurationExceedsMaximumLimit"
  | zero {n d q v f x y} : (Refuse.periodOf c.rentMaxDur d).1 = 0 ∨ (Refuse.periodOf c.rentMaxDur d).2 = 0 →
      Rent c w a (.create n d q v f x y) "DurationInvalid"
  | rentKind {n p m ch q v i x y} : Rent c w a (.create n (.sub p m ch) q v (.nft i) x y) "DurationAndRentFeeMismatch"
  | feeKind {n p m ch q v f x y z} : x = .flexible z ∨ y = .flexible z →
      Rent c w a (.create n (.sub p m ch) q v f x y) "DurationAndCancellationFeeMismatch"
  | noRent {n d q v i x y} : w.nfts.get i = none → Rent c w a (.create n d q v (.nft i) x y) "RentNFTNotFound"
  | noDeposit {n d q v f x y i} : x = .nft i ∨ y = .nft i → w.nfts.get i = none →
      Rent c w a (.create n d q v f x y) "CancellationNFTNotFound"
  | low {n d q v f x y z} : z = x ∨ z = y → 0 < Refuse.depositPrice z → Refuse.depositPrice z ≤ c.ed →
      Rent c w a (.create n d q v f x y) "AmountTooLow"
  | funds {n d q v f x y} : ¬ (pays a c.rentPot (inTokens x)).Can c.ed (purse w.bal) →
      Rent c w a (.create n d q v f x y) "NotEnoughFundsForCancellationFee"
  | notOwned {n d q v f i y} : Is w i (·.owner ≠ a) → Rent c w a (.create n d q v f (.nft i) y) "CallerDoesNotOwnCancellationNFT"
  | notPledgeable {n d q v f i y} : Is w i (¬ Refuse.Pledgeable ·) →
      Rent c w a (.create n d q v f (.nft i) y) "CancellationNFTNotInValidState"
  | none {x n} : contractOf x = some n → w.rent.contracts.get n = none → Rent c w a x "ContractNotFound"
  | owner {x n} : renterOnly x = some n → Rental w n (·.renter ≠ a) → Rent c w a x "NotTheContractOwner"
  | running1 {n} : Rental w n (·.rentee ≠ none) → Rent c w a (.cancel n) "CannotCancelRunningContract"
  | idle {n} : Rental w n (·.rentee = none) → Rent c w a (.revoke n) "CannotRevokeNonRunningContract"
  | stranger {n} : Rental w n (fun k => k.renter ≠ a ∧ k.rentee ≠ some a) → Rent c w a (.revoke n) "NotAContractParticipant"
  | bound {n} : Rental w n (fun k => k.renter = a ∧ k.renterCanRevoke = false) →
      Rent c w a (.revoke n) "ContractCannotBeCanceledByRenter"
  | other {x n b} : x = .rent n b ∨ x = .makeOffer n b → Rental w n (·.creation ≠ b) → Rent c w a x "ContractDoesNotMatch"
  | running2 {n b} : Rental w n (·.rentee ≠ none) → Rent c w a (.rent n b) "CannotRentStartedContract"
  | own {x n b} : x = .rent n b ∨ x = .makeOffer n b → Rental w n (·.renter = a) → Rent c w a x "CannotRentOwnContract"
  | manual {n b} : Rental w n (∃ l, ·.acceptance = .manual l) → Rent c w a (.rent n b) "ContractDoesNotSupportAutomaticRent"
  | auto {n b} : Rental w n (∃ l, ·.acceptance = .auto l) → Rent c w a (.makeOffer n b) "ContractDoesNotSupportOffers"
  | list {x n b} : x = .rent n b ∨ x = .makeOffer n b →
      Rental w n (fun k => ∃ l, (k.acceptance = .auto (some l) ∨ k.acceptance = .manual (some l)) ∧ a ∉ l) → Rent c w a x "NotWhitelisted"
  | start {n b s} : Rental w n (Start c w a · s) → Rent c w a (.rent n b) s
  | accept {n r s} : Rental w n (Start c w r · s) → Rent c w a (.acceptOffer n r) s
  | offered {n b} : (∃ l, w.rent.offers.get n = some l ∧ a ∈ l) → Rent c w a (.makeOffer n b) "OfferAlreadyExists"
  | running3 {n b} : Rental w n (·.rentee ≠ none) → Rent c w a (.makeOffer n b) "CannotMakeOfferOnRunningContract"
  | rentFunds {n b} : Rental w n (fun k => ¬ Holds w a (rentInTokens k.rentFee)) → Rent c w a (.makeOffer n b) "NotEnoughFundsForRentFee"
  | depositFunds {n b} : Rental w n (fun k => ¬ Holds w a (inTokens k.renteeFee)) →
      Rent c w a (.makeOffer n b) "NotEnoughFundsForCancellationFee"
  | bothFunds {n b} : Rental w n (fun k => ¬ Holds w a ((rentInTokens k.rentFee + inTokens k.renteeFee) % 2 ^ 128)) →
      Rent c w a (.makeOffer n b) "NotEnoughFundsForFees"
  | give {n b s} : Rental w n (Give w a · "CallerDoesNotOwnRentNFT" "CallerDoesNotOwnCancellationNFT" s) →
      Rent c w a (.makeOffer n b) s
  | offers {n b} : (∃ l, (w.rent.offers.get n).getD [] = l ∧ c.rentAccounts ≤ l.length) →
      Rent c w a (.makeOffer n b) "MaximumOffersReached"
  | noOffers {x n} : x = .retractOffer n ∨ (∃ r, x = .acceptOffer n r) → w.rent.offers.get n = none →
      Rent c w a x "NoOffersForThisContract"
  | noOffer1 {n r} : (∃ l, w.rent.offers.get n = some l ∧ r ∉ l) → Rent c w a (.acceptOffer n r) "NoOfferFromThisAddress"
  | noOffer2 {n} : (∃ l, w.rent.offers.get n = some l ∧ a ∉ l) → Rent c w a (.retractOffer n) "NoOfferFromThisAddress"
  | fixed1 {n f p m ch} : Rental w n (∀ s, ·.duration = .sub s → s.changeable = false) →
      Rent c w a (.changeTerms n f p m ch) "CannotAdjustSubscriptionTerms"
  | long2 {n f p m ch} : c.rentMaxDur < p ∨ (∃ x, m = some x ∧ c.rentMaxDur < x) →
      Rent c w a (.changeTerms n f p m ch) "DurationExceedsMaximumLimit"
  | zero2 {n f p m ch} : p = 0 ∨ m = some 0 ∨ c.rentMaxDur = 0 → Rent c w a (.changeTerms n f p m ch) "DurationInvalid"
  | fixed2 {n f p m ch} : Rental w n (∃ d, ·.duration = .fixed d) →
      Rent c w a (.acceptTerms n f p m ch) "SubscriptionDataNotFound"
  | rentee {n f p m ch} : Rental w n (·.rentee ≠ some a) → Rent c w a (.acceptTerms n f p m ch) "NotTheContractRentee"
  | accepted {n f p m ch} : Rental w n (∃ s, ·.duration = .sub s ∧ s.newTerms = false) →
      Rent c w a (.acceptTerms n f p m ch) "ContractTermsAlreadyAccepted"
  | terms {n f p m ch} : Rental w n (fun k => ∃ s, k.duration = .sub s ∧ (k.rentFee ≠ .tokens f ∨ s.period ≠ p ∨
      (∃ x, m = some x ∧ s.maxDur ≠ x) ∨ s.changeable ≠ ch)) → Rent c w a (.acceptTerms n f p m ch) "ContractTermsDoNotMatch"

/-- the consent list and threshold of a protocol -/
def consents : Protocol → Option (List AccountId × Nat)
  | .onConsent l t => some (l, t)
  | .onConsentAtBlock l t _ => some (l, t)
  | _ => none

/-- Reasons particular to the transmission pallet. -/
inductive Tr (c : Cfg) (w : World) (a : AccountId) : TrM.Call → String → Prop where
  | past1 {n r p b} : b ≤ w.now → Tr c w a (.set n r p (.untilBlock b)) "CannotCancelTransmissionInThePast"
  | toSelf {n p k} : Tr c w a (.set n a p k) "InvalidRecipient"
  | past2 {n r p k b} : Refuse.dateOf p = some b → b ≤ w.now → Tr c w a (.set n r p k) "CannotSetTransmissionInThePast"
  | far1 {n r p k b} : Refuse.dateOf p = some b → w.now + c.trMaxDur < b → Tr c w a (.set n r p k) "TransmissionIsInTooMuchTime"
  | long {n r p k l t} : consents p = some (l, t) → c.trConsents < l.length → Tr c w a (.set n r p k) "ConsentListFull"
  | twice {n r p k l t} : consents p = some (l, t) → ¬ l.Nodup → Tr c w a (.set n r p k) "DuplicatesInConsentList"
  | zero {n r p k l t} : consents p = some (l, t) → t = 0 → Tr c w a (.set n r p k) "ThresholdTooLow"
  | high {n r p k l t} : consents p = some (l, t) → c.trConsents < t → Tr c w a (.set n r p k) "ThresholdTooHigh"
  | short {n r p k l t} : consents p = some (l, t) → l.length < t → Tr c w a (.set n r p k) "InvalidConsentList"
  | full1 {n r p k b} : p = .atBlock b ∨ p = .atBlockWithReset b → c.trLimit ≤ w.tr.queue.length → Tr c w a (.set n r p k) "SimultaneousTransmissionLimitReached"
  | fixed {n} : Trans w n (fun t => t.cancellation = .none ∨ ∃ b, t.cancellation = .untilBlock b ∧ b < w.now) →
      Tr c w a (.remove n) "ProtocolIsNotCancellable"
  | noReset {n b} : Trans w n (∀ e, ·.protocol ≠ .atBlockWithReset e) → Tr c w a (.resetTimer n b) "ProtocolTimerCannotBeReset"
  | past3 {n b} : b ≤ w.now → Tr c w a (.resetTimer n b) "CannotSetTransmissionInThePast"
  | far2 {n b} : w.now + c.trMaxDur < b → Tr c w a (.resetTimer n b) "TransmissionIsInTooMuchTime"
  | noConsent {n} : Trans w n (fun t => consents t.protocol = none) → Tr c w a (.addConsent n) "ProtocolDoesNotAcceptConsent"
  | agreed {n} : Trans w n (fun t => (∃ l k e, t.protocol = .onConsentAtBlock l k e) ∧ ∃ b, (n, b) ∈ w.tr.queue) →
      Tr c w a (.addConsent n) "ConsentAlreadyReachedThreshold"
  | stranger {n} : Trans w n (fun t => ∃ l k, consents t.protocol = some (l, k) ∧ a ∉ l) →
      Tr c w a (.addConsent n) "ConsentNotAllowed"
  | again {n} : (∃ l, w.tr.consents.get n = some l ∧ a ∈ l) → Tr c w a (.addConsent n) "AlreadyAddedConsent"
  /-- this consent would be the last one needed -/
  | full2 {n} : Trans w n (fun t => ∃ l k e, t.protocol = .onConsentAtBlock l k e ∧
      k ≤ ((w.tr.consents.get n).getD []).length + 1 ∧ w.now < e) → c.trLimit ≤ w.tr.queue.length →
      Tr c w a (.addConsent n) "SimultaneousTransmissionLimitReached"

/-- Reasons particular to the tee pallet. -/
inductive Tee (c : Cfg) (w : World) (a : AccountId) : TeeM.Call → String → Prop where
  | noUri {x b} : x = .register b [] ∨ x = .update b [] → Tee c w a x "ApiUriIsEmpty"
  | same {x u} : x = .register a u ∨ x = .update a u → Tee c w a x "OperatorAndEnclaveAreSame"
  | pending {b u} : w.tee.registrations.get a ≠ none → Tee c w a (.register b u) "RegistrationAlreadyExists"
  | operator {b u} : w.tee.data.get a ≠ none → Tee c w a (.register b u) "OperatorAlreadyExists"
  /-- the address is known -/
  | address1 {b u} : w.tee.accOp.get b ≠ none → Tee c w a (.register b u) "EnclaveAddressAlreadyExists"
  /-- the address is known, and not that of the operator's enclave -/
  | address2 {b u} : (∃ e, w.tee.data.get a = some e ∧ e.addr ≠ b) → w.tee.accOp.get b ≠ none →
      Tee c w a (.update b u) "EnclaveAddressAlreadyExists"
  /-- the stake of an earlier registration is being released -/
  | unbonding {b u} : Stake w a (·.unlocking = true) → Tee c w a (.register b u) "UnbondingPeriod"
  | funds1 {b u} : w.bal.freeOf a < w.tee.stakingAmount → Tee c w a (.register b u) "InsufficientBalanceToBond"
  | locked1 {b u} : ¬ Holds w a w.tee.stakingAmount → Tee c w a (.register b u) "LiquidityRestrictions"
  | leaving : a ∈ w.tee.unregs → Tee c w a .unregister "UnregistrationAlreadyExists"
  | queue : w.tee.data.get a ≠ none → c.teeList ≤ w.tee.unregs.length → Tee c w a .unregister "UnregistrationLimitReached"
  | unknown : w.tee.data.get a = none → w.tee.registrations.get a = none → Tee c w a .unregister "RegistrationNotFound"
  | unassigned {b u} : w.tee.data.get a = none → Tee c w a (.update b u) "UpdateProhibitedForUnassignedEnclave"
  | updating {b u} : w.tee.updates.get a ≠ none → Tee c w a (.update b u) "UpdateRequestAlreadyExists"
  | noUpdate : w.tee.updates.get a = none → Tee c w a .cancelUpdate "UpdateRequestNotFound"
  | noStake {x} : x = .withdraw ∨ x = .bondExtra ∨ x = .refundExcess → w.tee.ledger.get a = none → Tee c w a x "StakingNotFound"
  | bonded : Stake w a (·.unlocking = false) → Tee c w a .withdraw "UnbondingNotStarted"
  | early : Stake w a (w.now - ·.unbondedAt < c.bonding) → Tee c w a .withdraw "WithdrawProhibited"
  | noServer {op r} : (∀ x ∈ w.tee.servers, x.addr ≠ a) → Tee c w a (.submitReport op r) "MetricsServerAddressNotFound"
  | server {op r} : (∃ x ∈ w.tee.servers, x.addr = a ∧ x.kind ≠ .pub) →
      Tee c w a (.submitReport op r) "MetricsServerUnsupportedClusterType"
  | noOperator {op r} : w.tee.data.get op = none → Tee c w a (.submitReport op r) "EnclaveNotFoundForTheOperator"
  | noEra {x} : (∃ op r, x = .submitReport op r) ∨ (∃ e, x = .claim e) → w.active = none → Tee c w a x "FailedToGetActiveEra"
  | reports {op r} : (∃ e l, w.active = some e ∧ (w.tee.reports.get (e - 1, op)).getD [] = l ∧ (∀ y ∈ l, y.by_ ≠ r.by_) ∧
      c.teeList ≤ l.length) →
      Tee c w a (.submitReport op r) "MetricsReportsLimitReached"
  | claimed {e} : w.tee.claimed.get (e, a) ≠ none → Tee c w a (.claim e) "RewardsAlreadyClaimedForEra"
  /-- not an operator, neither in that era nor now -/
  | notAssigned {e} : w.tee.data.get a = none → Tee c w a (.claim e) "OperatorAssignedEraNotFound"
  /-- not complete for two eras, too old, or before the operator was assigned -/
  | era {e} : (∃ now since, w.active = some now ∧ w.tee.assignedEra.get a = some since ∧
      (now ≤ e + 2 ∨ e + c.history ≤ now ∨ e = 0 ∨ e < since)) → Tee c w a (.claim e) "InvalidEraToClaimRewards"
  | enough : Stake w a (w.tee.stakingAmount ≤ ·.staked) → Tee c w a .bondExtra "BondExtraNotAllowed"
  | funds2 : Stake w a (fun s => w.bal.freeOf a < w.tee.stakingAmount - s.staked) →
      Tee c w a .bondExtra "InsufficientBalanceToBond"
  | locked2 : Stake w a (fun s => ¬ Holds w a (w.tee.stakingAmount - s.staked)) → Tee c w a .bondExtra "LiquidityRestrictions"
  | notMore : Stake w a (·.staked ≤ w.tee.stakingAmount) → Tee c w a .refundExcess "RefundExcessNotAllowed"

/-- Reasons particular to the bridge pallet. -/
inductive Br (c : Cfg) (w : World) (a : AccountId) : BrM.Call → String → Prop where
  | relayer {k t} : a ∉ w.br.relayers → Br c w a (.vote k t) "MustBeRelayer"
  | chain1 {k t} : w.br.nonces.get k = none → Br c w a (.vote k t) "ChainNotAllowed"
  | done {k t} : (∃ p, w.br.votes.get (k, t) = some p ∧ p.approved = true) → Br c w a (.vote k t) "ProposalAlreadyCompleted"
  | expired {k t} : (∃ p, w.br.votes.get (k, t) = some p ∧ p.expiry ≤ w.now) → Br c w a (.vote k t) "ProposalExpired"
  | again {k t} : (∃ p, w.br.votes.get (k, t) = some p ∧ a ∈ p.votes) → Br c w a (.vote k t) "RelayerAlreadyVoted"
  | many {k t} : (∃ l, ((w.br.votes.get (k, t)).elim [] (·.votes)) = l ∧ c.relayerLimit ≤ l.length) →
      Br c w a (.vote k t) "MaximumVoteLimitExceeded"
  | chain2 {v r d} : w.br.nonces.get d = none → Br c w a (.deposit v r d) "ChainNotAllowed"
  | funds {v r d} : w.bal.freeOf a < w.br.fee + v → Br c w a (.deposit v r d) "InsufficientBalance"

/-- What an error of a signed call states. -/
inductive Reason (c : Cfg) (w : World) (a : AccountId) : Call → String → Prop where
  /-- the NFT does not exist -/
  | noNft {x n} : about x = some n → w.nfts.get n = none → Reason c w a x "NFTNotFound"
  /-- the NFT is another's -/
  | owner {x n} : ownerOnly x = some n → Is w n (·.owner ≠ a) → Reason c w a x (ownerError x)
  /-- the NFT has a flag that forbids the call -/
  | bars {x n f s} : about x = some n → Bars x f s → Is w n (f ·.st = true) → Reason c w a x s
  /-- the NFT has not the flag the call needs -/
  | needs {x n f s} : about x = some n → Needs x f s → Is w n (f ·.st = false) → Reason c w a x s
  /-- the NFT is soulbound and was created by another -/
  | bound {x n s} : about x = some n → Bound x s → Is w n (fun d => d.st.soulbound = true ∧ d.creator ≠ a) → Reason c w a x s
  /-- a payment of the call cannot be made -/
  | pay {x s} : Unpaid c.ed (purse w.bal) (dues c w a x) s → Reason c w a x s
  | nft {x s} : Nft c w a x s → Reason c w a (.nft x) s
  | mkt {x s} : Mkt c w a x s → Reason c w a (.mkt x) s
  | auc {x s} : Auc c w a x s → Reason c w a (.auc x) s
  | rent {x s} : Rent c w a x s → Reason c w a (.rent x) s
  | tr {x s} : Tr c w a x s → Reason c w a (.tr x) s
  | tee {x s} : Tee c w a x s → Reason c w a (.tee x) s
  | br {x s} : Br c w a x s → Reason c w a (.br x) s

/-- Reasons why a call of root fails. -/
inductive Root (c : Cfg) (w : World) : TeeM.RootCall → String → Prop where
  | noReg {x op} : x = .removeRegistration op ∨ (∃ k s, x = .assign op k s) → w.tee.registrations.get op = none →
      Root c w x "RegistrationNotFound"
  | noCluster {x k} : (∃ op s, x = .assign op k s) ∨ (∃ t, x = .updateCluster k t) ∨ x = .removeCluster k →
      w.tee.clusters.get k = none → Root c w x "ClusterNotFound"
  | full {op k s} : (∃ x, w.tee.clusters.get k = some x ∧ c.clusterSize ≤ x.enclaves.length) →
      Root c w (.assign op k s) "ClusterIsFull"
  | noEra {op k s} : w.active = none → Root c w (.assign op k s) "FailedToGetActiveEra"
  /-- the address is known -/
  | address1 {op k s} : (∃ e, w.tee.registrations.get op = some e ∧ w.tee.accOp.get e.addr ≠ none) →
      Root c w (.assign op k s) "EnclaveAddressAlreadyExists"
  /-- the new address is known, and not that of the operator's enclave -/
  | address2 {x op b} : (x = .approveUpdate op ∧ ∃ e, w.tee.updates.get op = some e ∧ e.addr = b) ∨
      (∃ u, x = .forceUpdate op (some b) u) → (∃ e, w.tee.data.get op = some e ∧ e.addr ≠ b) → w.tee.accOp.get b ≠ none →
      Root c w x "EnclaveAddressAlreadyExists"
  | noUpdate {x op} : x = .rejectUpdate op ∨ x = .approveUpdate op → w.tee.updates.get op = none →
      Root c w x "UpdateRequestNotFound"
  | notLeaving {op} : op ∉ w.tee.unregs → Root c w (.approveUnregister op) "UnregistrationNotFound"
  | noEnclave {x op} : x = .forceRemove op ∨ (∃ b u, x = .forceUpdate op b u) → w.tee.data.get op = none →
      Root c w x "EnclaveNotFound"
  | noStake {op} : w.tee.ledger.get op = none → Root c w (.forceRemove op) "StakingNotFound"
  | nothing {op} : Root c w (.forceUpdate op none none) "NoUpdatesProvided"
  | same {op u} : Root c w (.forceUpdate op (some op) u) "OperatorAndEnclaveAreSame"
  | noUri {op b} : Root c w (.forceUpdate op b (some [])) "ApiUriIsEmpty"
  | used {k} : (∃ x, w.tee.clusters.get k = some x ∧ x.enclaves ≠ []) → Root c w (.removeCluster k) "ClusterIsNotEmpty"
  | server {s} : (∃ x ∈ w.tee.servers, x.addr = s.addr) → Root c w (.registerServer s) "MetricsServerAlreadyExists"
  | servers {s} : c.teeList ≤ w.tee.servers.length → Root c w (.registerServer s) "MetricsServerLimitReached"
  | noServer {x b} : x = .unregisterServer b ∨ (∃ t, x = .setServerType b t) → (∀ y ∈ w.tee.servers, y.addr ≠ b) →
      Root c w x "MetricsServerNotFound"
  | notAssigned {op e} : w.tee.data.get op = none → Root c w (.setAssignedEra op e) "OperatorAssignedEraNotFound"

/-- Reasons why a call of the committee fails. -/
inductive Committee (c : Cfg) (w : World) : BrM.ExtCall → String → Prop where
  | zero : Committee c w (.setThreshold 0) "ThresholdCannotBeZero"
  | self : Committee c w (.addChain c.chain) "CannotAddSelfToAllowedChainList"
  | chain {k} : w.br.nonces.get k ≠ none → Committee c w (.addChain k) "ChainAlreadyWhitelisted"
  | noChain {k x} : w.br.nonces.get k = none → Committee c w (.setNonce k x) "ChainNotFound"
  | low {k x} : (∃ y, w.br.nonces.get k = some y ∧ x ≤ y) → Committee c w (.setNonce k x) "NewNonceTooLow"
  /-- not an error of the pallet: such an argument cannot be encoded -/
  | range {k x} : 2 ^ 64 ≤ x → Committee c w (.setNonce k x) "type u64"

/-- who may make a call at all -/
def MayCall : Origin → Call → Prop
  | .signed _, .root _ => False
  | .signed _, .ext _ => False
  | .signed _, .mandate _ => False
  | .signed _, _ => True
  | .root, .root _ => True
  | .root, .ext _ => True
  | .root, .mandate _ => True
  | .ext, .ext _ => True
  | .ext, .mandate _ => True
  | _, _ => False

/-- What the error `s` of a call states. -/
inductive States (c : Cfg) (w : World) : Origin → Call → String → Prop where
  | origin {o x} : ¬ MayCall o x → States c w o x "BadOrigin"
  | signed {a x s} : Reason c w a x s → States c w (.signed a) x s
  | root {x s} : Root c w x s → States c w .root (.root (.tee x)) s
  | byRoot {x s} : Committee c w x s → States c w .root (.ext x) s
  | byCommittee {x s} : Committee c w x s → States c w .ext (.ext x) s

end Spec.Why
