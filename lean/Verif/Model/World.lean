import Verif.Model.Balances
/-
The storage of all pallets, and their configuration constants.
-/

/-- Constants of the pallets' `Config` traits.  The `ExistentialDeposit` constants of auction and
rent are assumed equal to the one of the balances pallet. -/
structure Cfg where
  /-- existential deposit -/
  ed : Balance
  /-- nft/src/lib.rs 68-116: `ShardsNumber`, `CollectionSizeLimit` -/
  shards : Nat
  collLimit : Nat
  /-- auction/src/lib.rs 80-115 -/
  minDur : Block
  maxDur : Block
  maxDelay : Block
  grace : Block
  ending : Block
  bidLimit : Nat
  aucLimit : Nat
  aucActions : Nat
  aucPot : AccountId
  /-- rent/src/lib.rs 88-118: `SimultaneousContractLimit`, `ActionsInBlockLimit`,
  `MaximumContractAvailabilityLimit`, `MaximumContractDurationLimit`, `AccountSizeLimit`, account -/
  rentLimit : Nat
  rentActions : Nat
  rentAvail : Block
  rentMaxDur : Block
  rentAccounts : Nat
  rentPot : AccountId
  /-- transmission-protocols/src/lib.rs 92-108 -/
  trMaxDur : Block
  trConsents : Nat
  trLimit : Nat
  trActions : Nat
  /-- tee/src/lib.rs 82-112 -/
  clusterSize : Nat
  teeList : Nat
  bonding : Block
  teePot : AccountId
  history : Nat
  /-- bridge/src/lib.rs 86-108 -/
  chain : ChainId
  proposalLife : Block
  relayerLimit : Nat
  /-- staking-rewards/src/lib.rs: account of `PalletId` -/
  rewPot : AccountId

/-- What the runtime's configuration guarantees: a positive existential deposit, pairwise distinct
pallet accounts, and room for at least one bid. -/
structure Cfg.Ok (c : Cfg) : Prop where
  ed : 0 < c.ed
  bid : 0 < c.bidLimit
  ar : c.aucPot ≠ c.rentPot
  at_ : c.aucPot ≠ c.teePot
  aw : c.aucPot ≠ c.rewPot
  rt : c.rentPot ≠ c.teePot
  rw : c.rentPot ≠ c.rewPot
  tw : c.teePot ≠ c.rewPot

/-- accounts derived from a `PalletId`; nobody holds their keys -/
def Cfg.pot (c : Cfg) (a : AccountId) : Prop :=
  a = c.aucPot ∨ a = c.rentPot ∨ a = c.teePot ∨ a = c.rewPot

instance (c : Cfg) (a : AccountId) : Decidable (c.pot a) := by unfold Cfg.pot; infer_instance

/-- nft/src/lib.rs 117-207: storage of the NFT pallet except `Nfts` itself -/
structure NftSt where
  fee : Balance
  secretFee : Balance
  capsuleFee : Balance
  nextNft : NFTId
  nextColl : CollId
  colls : FMap CollId Coll
  deleg : FMap NFTId AccountId
  secretData : FMap NFTId Data
  secretShards : FMap NFTId (List (ClusterId × AccountId))
  capsuleData : FMap NFTId Data
  capsuleShards : FMap NFTId (List (ClusterId × AccountId))

/-- marketplace/src/lib.rs: `MarketplaceMintFee`, `NextMarketplaceId`, `Marketplaces`, `ListedNfts` -/
structure MktSt where
  fee : Balance
  next : MktId
  mkts : FMap MktId Mkt
  sales : FMap NFTId Sale

/-- auction/src/lib.rs: `Auctions`, `Deadlines`, `Claims`, `AuctionCommissionFee` -/
structure AucSt where
  auctions : FMap NFTId Auction
  deadlines : Queue
  claims : FMap AccountId Balance
  comm : FMap NFTId (Option CompoundFee)

/-- rent/src/lib.rs 120-149: `Contracts`, `Queues`, `Offers` -/
structure RentSt where
  contracts : FMap NFTId Contract
  fixedQ : Queue
  subQ : Queue
  availQ : Queue
  offers : FMap NFTId (List AccountId)

/-- transmission-protocols/src/lib.rs 110-163: fees, `Transmissions`, `OnConsentData`,
`AtBlockQueue` -/
structure TrSt where
  feeAt : Balance
  feeReset : Balance
  feeConsent : Balance
  feeConsentAt : Balance
  trans : FMap NFTId Transmission
  consents : FMap NFTId (List AccountId)
  queue : Queue

/-- tee/src/lib.rs 115-246 -/
structure TeeSt where
  registrations : FMap AccountId Enclave
  unregs : List AccountId
  updates : FMap AccountId Enclave
  data : FMap AccountId Enclave
  accOp : FMap AccountId AccountId
  clusters : FMap ClusterId Cluster
  nextCluster : ClusterId
  opCluster : FMap AccountId ClusterId
  servers : List MetricsServer
  stakingAmount : Balance
  ledger : FMap AccountId Ledger
  reports : FMap (Era × AccountId) (List Report)
  weights : Params
  pool : Balance
  claimed : FMap (Era × AccountId) Balance
  assignedEra : FMap AccountId Era

/-- bridge/src/lib.rs 110-149 -/
structure BrSt where
  nonces : FMap ChainId Nat
  threshold : Nat
  relayers : List AccountId
  votes : FMap (ChainId × Transfer) Proposal
  fee : Balance

/-- staking-rewards/src/lib.rs: `SessionExtraRewardPayout`, `SessionEraPayout` -/
structure RewSt where
  extra : Balance
  acc : Balance

/-- Whole chain state.  `active` is `pallet_staking`'s active era, if there is one.
`evs` are the events, newest first. -/
structure World where
  now : Block
  active : Option Era
  bal : Bal
  nfts : FMap NFTId NFTData
  nft : NftSt
  mkt : MktSt
  auc : AucSt
  rent : RentSt
  tr : TrSt
  tee : TeeSt
  br : BrSt
  rew : RewSt
  evs : List Ev

namespace World

/-- write an NFT (`NFTExt::set_nft`, or `mutate_nft`/`try_mutate` that succeeded) -/
def putNft (w : World) (n : NFTId) (d : NFTData) : World :=
  { w with nfts := w.nfts.insert n d }

/-- replace the balances -/
def putBal (w : World) (b : Bal) : World := { w with bal := b }

/-- `deposit_event` -/
def ev (w : World) (e : Ev) : World := { w with evs := e :: w.evs }

end World
