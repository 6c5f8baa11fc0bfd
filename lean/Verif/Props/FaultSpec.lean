import Verif.Props.Reason
/-
The errors a pallet declares, and those among them no caller ever meets (C121).  Refers to calls and outcomes only.
-/
namespace Spec.Fault

/-- the pallets that declare errors -/
inductive Pallet where
  | nft | marketplace | auction | rent | transmission | tee | bridge
deriving DecidableEq

/-- the pallet a call belongs to; that of the call inside for a mandate is not asked, as a mandate reports no error -/
def palletOf : Call → Option Pallet
  | .nft _ => some .nft
  | .mkt _ => some .marketplace
  | .auc _ => some .auction
  | .rent _ => some .rent
  | .tr _ => some .transmission
  | .tee _ => some .tee
  | .br _ => some .bridge
  | .root (.nftFee _) => some .nft
  | .root (.secretFee _) => some .nft
  | .root (.capsuleFee _) => some .nft
  | .root (.mktFee _) => some .marketplace
  | .root (.trFee ..) => some .transmission
  | .root (.tee _) => some .tee
  | .ext (.setExtra _) => none
  | .ext _ => some .bridge
  | .bal .. => none
  | .mandate _ => none

/-- the declared errors, in the order of the code: `#[pallet::error]` of each lib.rs -/
def declared : Pallet → List String
  | .nft =>
   ["CannotTransferListedNFTs", "CannotBurnListedNFTs", "CannotDelegateListedNFTs", "CannotSetRoyaltyForListedNFTs",
    "CannotTransferDelegatedNFTs", "CannotTransferNotSyncedSecretNFTs", "CannotBurnDelegatedNFTs",
    "CannotSetRoyaltyForDelegatedNFTs", "CannotTransferNotCreatedSoulboundNFTs", "CannotTransferNFTsToYourself",
    "CannotTransferRentedNFTs", "CannotBurnRentedNFTs", "CannotSetRoyaltyForRentedNFTs",
    "CannotSetRoyaltyForSyncingNFTs", "CannotDelegateRentedNFTs", "CannotDelegateSyncingNFTs",
    "CollectionLimitExceededMaximumAllowed", "NFTNotFound", "NFTNotFoundInCollection", "NFTBelongToACollection",
    "NotTheNFTOwner", "NotTheNFTCreator", "NotTheCollectionOwner", "CollectionNotFound", "CollectionIsClosed",
    "CollectionHasReachedLimit", "CollectionIsNotEmpty", "CollectionLimitAlreadySet", "CollectionHasTooManyNFTs",
    "CannotAddMoreNFTsToCollection", "NotARegisteredEnclave", "NFTIsNotSecret", "NFTAlreadySynced",
    "NFTHasReceivedAllShards", "EnclaveAlreadyAddedShard", "InsufficientBalance", "CannotAddSecretToListedNFTs",
    "CannotAddSecretToSecretNFTs", "CannotAddSecretToRentedNFTs", "CannotAddSecretToDelegatedNFTs",
    "ShareNotFromValidCluster", "CannotBurnNFTsInTransmission", "CannotTransferNotSyncedCapsules",
    "CannotTransferNFTsInTransmission", "CannotDelegateSyncingCapsules", "CannotDelegateNFTsInTransmission",
    "CannotSetRoyaltyForSyncingCapsules", "CannotSetRoyaltyForNFTsInTransmission", "CannotAddSecretToSyncingCapsules",
    "CannotAddSecretToNFTsInTransmission", "CannotConvertListedNFTs", "CannotConvertCapsules",
    "CannotConvertRentedNFTs", "CannotConvertDelegatedNFTs", "CannotConvertSyncingNFTs",
    "CannotConvertNFTsInTransmission", "NFTIsNotCapsule", "CannotRevertListedNFTs", "CannotRevertRentedNFTs",
    "CannotRevertDelegatedNFTs", "CannotRevertSyncingNFTs", "CannotRevertNFTsInTransmission",
    "CannotSetOffchainDataForListedNFTs", "CannotSetOffchainDataForRentedNFTs",
    "CannotSetOffchainDataForDelegatedNFTs", "CannotSetOffchainDataForSyncingNFTs",
    "CannotSetOffchainDataForSyncingCapsules", "CapsuleHasReceivedAllShards", "CannotChangeKeyForListedNFTs",
    "CannotChangeKeyForRentedNFTs", "CannotChangeKeyForDelegatedNFTs", "CannotChangeKeyForSyncingNFTs",
    "CannotChangeKeyForSyncingCapsules", "CannotChangeKeyForNFTsInTransmission"]
  | .marketplace =>
   ["NotAllowedToList", "CannotListDelegatedNFTs", "CannotListNotCreatedSoulboundNFTs", "CannotBuyOwnedNFT",
    "CannotTransferMarketplaceToYourself", "CannotListAlreadytListedNFTs", "PriceCannotCoverMarketplaceFee",
    "MarketplaceNotFound", "NFTNotFound", "NotTheNFTOwner", "NotTheMarketplaceOwner", "NFTNotForSale",
    "MarketpalceIdOverflow", "InternalMathError", "NotEnoughBalanceToBuy", "CannotListNotSyncedSecretNFTs",
    "CannotListRentedNFTs", "CannotListNotSyncedCapsules", "CannotListNFTsInTransmission", "PriceDoesNotMatch"]
  | .auction =>
   ["AuctionNotStarted", "AuctionDoesNotExist", "AuctionCommissionDoesNotExist", "AuctionDoesNotSupportBuyItNow",
    "AuctionCannotStartInThePast", "AuctionCannotEndBeforeItHasStarted", "AuctionDurationIsTooLong",
    "AuctionDurationIsTooShort", "AuctionStartIsTooFarAway", "BuyItPriceCannotBeLessOrEqualThanStartPrice",
    "BidDoesNotExist", "CannotAddBidToYourOwnAuctions", "CannotBuyItNowToYourOwnAuctions",
    "CannotCancelAuctionInProgress", "CannotBidLessThanTheHighestBid", "CannotBidLessThanTheStartingPrice",
    "CannotBuyItWhenABidIsHigherThanBuyItPrice", "CannotRemoveBidAtTheEndOfAuction",
    "CannotEndAuctionThatWasNotExtended", "CannotListListedNFTs", "CannotListNotOwnedNFTs", "CannotListDelegatedNFTs",
    "CannotListNotCreatedSoulboundNFTs", "CannotListRentedNFTs", "ClaimDoesNotExist", "NFTNotFound",
    "NotTheAuctionCreator", "MarketplaceNotFound", "MaximumAuctionsLimitReached", "MaximumBidLimitReached",
    "PriceCannotCoverMarketplaceFee", "NotAllowedToList", "CannotEndAuctionWithoutBids",
    "CannotListNotSyncedSecretNFTs", "AmountTooLow", "CannotListNotSyncedCapsules", "CannotListNFTsInTransmission",
    "PriceDoesNotMatch"]
  | .rent =>
   ["NFTNotFound", "RentNFTNotFound", "CancellationNFTNotFound", "NotAContractParticipant",
    "CannotRevokeNonRunningContract", "CannotCancelRunningContract", "ContractCannotBeCanceledByRenter",
    "ContractDoesNotSupportAutomaticRent", "ContractDoesNotSupportOffers", "NotWhitelisted",
    "CallerDoesNotOwnRentNFT", "CallerDoesNotOwnCancellationNFT", "RenteeDoesNotOwnTheRentNFT",
    "RenteeDoesNotOwnTheCancellationNFT", "NotEnoughFundsForRentFee", "NotEnoughFundsForCancellationFee",
    "NotEnoughFundsForFees", "NotTheContractOwner", "NotTheContractRentee", "ContractNFTNotInAValidState",
    "RentNFTNotInValidState", "CancellationNFTNotInValidState", "NotTheNFTOwner", "MaxSimultaneousContractReached",
    "ContractNotFound", "CannotRentStartedContract", "CannotRentOwnContract", "MaximumOffersReached",
    "ContractTermsAlreadyAccepted", "NoOffersForThisContract", "NoOfferFromThisAddress", "DurationAndRentFeeMismatch",
    "DurationAndCancellationFeeMismatch", "CannotAdjustSubscriptionTerms", "ContractIsNotRunning",
    "DurationExceedsMaximumLimit", "DurationInvalid", "AmountTooLow", "ContractDoesNotMatch",
    "SubscriptionDataNotFound", "ContractTermsDoNotMatch", "CannotMakeOfferOnRunningContract", "OfferAlreadyExists"]
  | .transmission =>
   ["TransmissionNotFound", "NFTNotFound", "NotTheNFTOwner", "InvalidRecipient", "CannotCancelTransmissionInThePast",
    "CannotSetTransmissionForListedNFTs", "CannotSetTransmissionForDelegatedNFTs",
    "CannotSetTransmissionForRentedNFTs", "CannotSetTransmissionForNotCreatedSoulboundNFTs",
    "CannotSetTransmissionForSyncingSecretNFTs", "CannotSetTransmissionForSyncingCapsules",
    "CannotSetTransmissionForNFTsInTransmission", "CannotSetTransmissionInThePast", "TransmissionIsInTooMuchTime",
    "SimultaneousTransmissionLimitReached", "NFTIsNotInTransmission", "ProtocolIsNotCancellable",
    "ProtocolTimerCannotBeReset", "ProtocolDoesNotAcceptConsent", "ConsentAlreadyReachedThreshold",
    "AlreadyAddedConsent", "ConsentListFull", "ThresholdTooHigh", "ThresholdTooLow", "InvalidConsentList",
    "DuplicatesInConsentList", "ConsentNotAllowed"]
  | .tee =>
   ["EnclaveNotFound", "RegistrationAlreadyExists", "OperatorAlreadyExists", "EnclaveAddressAlreadyExists",
    "UnregistrationAlreadyExists", "UnregistrationLimitReached", "RegistrationNotFound", "EnclaveAddressNotFound",
    "SlotIdNotFound", "ClusterNotFound", "ClusterIdNotFound", "ClusterIsNotEmpty", "ClusterIsFull", "ApiUriIsEmpty",
    "OperatorAndEnclaveAreSame", "UpdateRequestAlreadyExists", "UpdateRequestNotFound",
    "UpdateProhibitedForUnassignedEnclave", "StakingNotFound", "UnbondingNotStarted", "WithdrawProhibited",
    "MetricsServerAlreadyExists", "MetricsServerNotFound", "MetricsServerLimitReached",
    "MetricsServerAddressNotFound", "MetricsServerUnsupportedClusterType", "EnclaveNotFoundForTheOperator",
    "UnregistrationNotFound", "FailedToGetActiveEra", "MetricsReportsLimitReached", "InvalidEraToClaimRewards",
    "RewardsAlreadyClaimedForEra", "InsufficientBalanceToBond", "OperatorAssignedEraNotFound", "BondExtraNotAllowed",
    "RefundExcessNotAllowed", "NoUpdatesProvided", "UnbondingPeriod"]
  | .bridge =>
   ["CannotAddSelfToAllowedChainList", "ChainAlreadyWhitelisted", "ChainNotFound", "ChainNotAllowed",
    "InsufficientBalance", "MaximumVoteLimitExceeded", "MustBeRelayer", "NewNonceTooLow", "ProposalAlreadyCompleted",
    "ProposalExpired", "RelayerAlreadyVoted", "ThresholdCannotBeZero"]

/-- the declared errors that are for nothing: what they report cannot happen, or nothing reports them -/
def idle : Pallet → List String
  | .nft => ["NFTNotFoundInCollection", "CannotAddMoreNFTsToCollection", "CannotRevertListedNFTs", "CannotRevertRentedNFTs",
      "CannotRevertDelegatedNFTs", "CannotRevertSyncingNFTs", "CannotRevertNFTsInTransmission"]
  | .marketplace => ["MarketpalceIdOverflow", "InternalMathError"]
  | .auction => ["AuctionCommissionDoesNotExist", "MaximumBidLimitReached"]
  | .rent => ["ContractIsNotRunning"]
  | .transmission => ["TransmissionNotFound", "ConsentListFull"]
  | .tee => ["EnclaveAddressNotFound", "SlotIdNotFound", "ClusterIdNotFound"]
  | .bridge => []

/-- the errors of the balances pallet and of the dispatcher -/
def common : List String :=
  ["BadOrigin", "InsufficientBalance", "LiquidityRestrictions", "LiquidityRestrictions/KeepAlive", "ExistentialDeposit"]

/-- the arguments fit their types: consent lists are bounded vectors, nonces are `u64` -/
def Encodable (c : Cfg) : Call → Prop
  | .tr (.set _ _ (.onConsent l _) _) => l.length ≤ c.trConsents
  | .tr (.set _ _ (.onConsentAtBlock l _ _) _) => l.length ≤ c.trConsents
  | .ext (.setNonce _ x) => x < 2 ^ 64
  | _ => True

/-- Somewhere a call of this pallet, made by somebody who can make calls, is answered with this error. -/
def Met (p : Pallet) (s : String) : Prop :=
  ∃ c w o x, c.Ok ∧ Reach c w ∧ (∀ a, o = .signed a → ¬ c.pot a) ∧ Encodable c x ∧ palletOf x = some p ∧
    dispatch c x o w = .error (.e s)

end Spec.Fault
