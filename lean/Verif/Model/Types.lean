import Verif.Prelude.FMap
import Verif.Prelude.Exec
import Verif.Prelude.Arith
/-
Data types of the pallets.  Account ids, NFT ids, balances and block numbers are `Nat`;
bounds on them (`u32` counters, `u128` issuance) are explicit where the code depends on them.
`BoundedVec` *arguments* are plain lists (their bound is enforced by decoding, so the model
admits more inputs than the code); bounded *storage* is checked where the code pushes to it.
The type names below are macros rather than definitions so that `omega` sees `Nat`.
-/

macro "AccountId" : term => `(Nat)
macro "NFTId" : term => `(Nat)
macro "CollId" : term => `(Nat)
macro "MktId" : term => `(Nat)
macro "Block" : term => `(Nat)
macro "Balance" : term => `(Nat)
macro "ClusterId" : term => `(Nat)
macro "SlotId" : term => `(Nat)
macro "ChainId" : term => `(Nat)
macro "Era" : term => `(Nat)
/-- byte strings (`U8BoundedVec`) -/
abbrev Data := List Nat

/-! ## NFTs: /repo/primitives/src/nfts.rs -/

/-- primitives/src/nfts.rs 51-70, `NFTState` -/
structure NFTState where
  capsule : Bool := false
  listed : Bool := false
  secret : Bool := false
  delegated : Bool := false
  soulbound : Bool := false
  syncSecret : Bool := false
  rented : Bool := false
  syncCapsule : Bool := false
  transmission : Bool := false
deriving DecidableEq

/-- primitives/src/nfts.rs 116-133, `NFTData` -/
structure NFTData where
  owner : AccountId
  creator : AccountId
  offchain : Data
  coll : Option CollId
  royalty : Permill
  st : NFTState
deriving DecidableEq

/-- primitives/src/nfts.rs, `Collection` -/
structure Coll where
  owner : AccountId
  offchain : Data
  nfts : List NFTId
  limit : Option Nat
  closed : Bool
deriving DecidableEq

/-! ## Fees and marketplaces: /repo/primitives/src/{common,marketplace}.rs -/

/-- primitives/src/common.rs, `CompoundFee` -/
inductive CompoundFee where
  | flat (x : Balance)
  | percentage (p : Permill)
deriving DecidableEq

/-- primitives/src/common.rs, `ConfigOp` -/
inductive ConfigOp (α : Type) where
  | noop
  | set (x : α)
  | remove

/-- primitives/src/marketplace.rs 29-34, `MarketplaceType` -/
inductive MktKind where
  | pub
  | priv
deriving DecidableEq

/-- primitives/src/marketplace.rs 41-62, `MarketplaceData` -/
structure Mkt where
  owner : AccountId
  kind : MktKind
  commission : Option CompoundFee
  listing : Option CompoundFee
  accounts : Option (List AccountId)
  offchain : Option Data
  colls : Option (List CollId)
deriving DecidableEq

/-- marketplace/src/types.rs 27-36, `Sale` -/
structure Sale where
  seller : AccountId
  mkt : MktId
  price : Balance
  commission : Option CompoundFee
deriving DecidableEq

/-! ## Auctions: /repo/auction/src/types.rs -/

/-- auction/src/types.rs 29-55 and 152-160, `AuctionData` with its `BidderList` -/
structure Auction where
  creator : AccountId
  start : Block
  fin : Block
  startPrice : Balance
  buyIt : Option Balance
  bids : List (AccountId × Balance)
  mkt : MktId
  extended : Bool
deriving DecidableEq

/-! ## Rent: /repo/rent/src/types.rs -/

/-- rent/src/types.rs 57-62, `Subscription` -/
structure Subscription where
  period : Block
  maxDur : Block
  changeable : Bool
  newTerms : Bool
deriving DecidableEq

/-- rent/src/types.rs 66-69, `Duration` -/
inductive Duration where
  | fixed (d : Block)
  | sub (s : Subscription)
deriving DecidableEq

/-- rent/src/types.rs 28-40, `DurationInput` with `SubscriptionInput` -/
inductive DurationInput where
  | fixed (d : Block)
  | sub (period : Block) (maxDur : Option Block) (changeable : Bool)

/-- rent/src/types.rs 134-139, `AcceptanceType` -/
inductive Acceptance where
  | auto (l : Option (List AccountId))
  | manual (l : Option (List AccountId))
deriving DecidableEq

/-- rent/src/types.rs 150-158, `RentFee` -/
inductive RentFee where
  | tokens (x : Balance)
  | nft (n : NFTId)
deriving DecidableEq

/-- rent/src/types.rs 179-189, `CancellationFee` -/
inductive CancelFee where
  | none
  | fixed (x : Balance)
  | flexible (x : Balance)
  | nft (n : NFTId)
deriving DecidableEq

/-- rent/src/types.rs 217-249, `RentContractData` -/
structure Contract where
  start : Option Block
  renter : AccountId
  rentee : Option AccountId
  duration : Duration
  acceptance : Acceptance
  renterCanRevoke : Bool
  rentFee : RentFee
  renterFee : CancelFee
  renteeFee : CancelFee
  creation : Block
deriving DecidableEq

/-! ## Transmission protocols: /repo/transmission-protocols/src/types.rs -/

/-- transmission-protocols/src/types.rs 38-45, `TransmissionProtocol` -/
inductive Protocol where
  | atBlock (b : Block)
  | atBlockWithReset (b : Block)
  | onConsent (list : List AccountId) (threshold : Nat)
  | onConsentAtBlock (list : List AccountId) (threshold : Nat) (b : Block)
deriving DecidableEq

/-- transmission-protocols/src/types.rs 30-35, `TransmissionProtocolKind` -/
inductive ProtocolKind where
  | atBlock
  | atBlockWithReset
  | onConsent
  | onConsentAtBlock
deriving DecidableEq

/-- transmission-protocols/src/types.rs 132-136, `CancellationPeriod` -/
inductive Cancellation where
  | none
  | untilBlock (b : Block)
  | anytime
deriving DecidableEq

/-- transmission-protocols/src/types.rs 157-166, `TransmissionData` -/
structure Transmission where
  recipient : AccountId
  protocol : Protocol
  cancellation : Cancellation
deriving DecidableEq

/-! ## TEE: /repo/tee/src/types.rs -/

/-- tee/src/types.rs, `Enclave` -/
structure Enclave where
  addr : AccountId
  uri : Data
deriving DecidableEq

/-- tee/src/types.rs, `ClusterType` -/
inductive ClusterType where
  | disabled
  | admin
  | pub
  | priv
deriving DecidableEq

/-- tee/src/types.rs, `Cluster` -/
structure Cluster where
  enclaves : List (AccountId × SlotId)
  kind : ClusterType
deriving DecidableEq

/-- tee/src/types.rs, `TeeStakingLedger` -/
structure Ledger where
  operator : AccountId
  staked : Balance
  unlocking : Bool
  unbondedAt : Block
deriving DecidableEq

/-- five `u8` report parameters (tee/src/types.rs, `MetricsServerReport`,
`ReportParamsWeightage`, `HighestParamsResponse`) -/
structure Params where
  p1 : Nat
  p2 : Nat
  p3 : Nat
  p4 : Nat
  p5 : Nat
deriving DecidableEq

/-- tee/src/types.rs, `MetricsServerReport` -/
structure Report where
  params : Params
  by_ : AccountId
deriving DecidableEq

/-- tee/src/types.rs, `MetricsServer` -/
structure MetricsServer where
  addr : AccountId
  kind : ClusterType
deriving DecidableEq

/-! ## Bridge: /repo/bridge/src/types.rs -/

/-- bridge/src/types.rs 38-60, `Proposal` (`votes`, `expiry`, `status`; status is
`Initiated` or `Approved`) -/
structure Proposal where
  votes : List AccountId
  expiry : Block
  approved : Bool
deriving DecidableEq

/-- key of `Votes`: (deposit nonce, recipient, amount), bridge/src/lib.rs -/
structure Transfer where
  nonce : Nat
  recipient : AccountId
  amount : Balance
deriving DecidableEq

/-! ## Events: the ones properties refer to -/

/-- Deposited events (only those whose history matters for a property). -/
inductive Ev where
  /-- `ternoa_bridge::Event::RelayerVoted` -/
  | voted (chain : ChainId) (t : Transfer) (who : AccountId)
  /-- `ternoa_bridge::Event::ProposalApproved` -/
  | approved (chain : ChainId) (t : Transfer)
  /-- `ternoa_bridge::Event::DepositMade` -/
  | deposited (chain : ChainId) (nonce : Nat) (recipient : Data) (amount : Balance)
  /-- `ternoa_transmission_protocols::Event::ProtocolSet` -/
  | protocolSet (n : NFTId)
  /-- `ternoa_transmission_protocols::Event::ConsentAdded` -/
  | consentAdded (n : NFTId) (who : AccountId)
  /-- `ternoa_transmission_protocols::Event::Transmitted` -/
  | transmitted (n : NFTId)
  /-- `ternoa_transmission_protocols::Event::TransmissionError` -/
  | transmissionError (n : NFTId)
  /-- `ternoa_tee::Event::RewardsClaimed` -/
  | rewardClaimed (era : Era) (operator : AccountId) (amount : Balance)
  /-- `ternoa_mandate::Event::RootOpExecuted` -/
  | mandated (ok : Bool)
  /-- `ternoa_auction::Event::AuctionCompleted` -/
  | auctionCompleted (n : NFTId) (newOwner : Option AccountId) (amount : Option Balance)
  /-- `ternoa_rent::Event::RentOfferCreated` -/
  | offerMade (n : NFTId) (who : AccountId)
  /-- `ternoa_rent::Event::ContractCreated` -/
  | contractCreated (n : NFTId) (creation : Block)
  /-- `ternoa_tee::Event::MetricsServerReportSubmitted`, with its signer -/
  | reported (era : Era) (operator : AccountId) (r : Report) (who : AccountId)
  /-- no event in the code: transaction fees handed to the staking-rewards pallet -/
  | feesTaken (fee : Balance)
  /-- no event in the code: `era_payout` returned `fees + extra`, `extra` taken from the pot -/
  | eraPaid (fees extra : Balance)
deriving DecidableEq

/-! ## Sorted queues

`DeadlineList` (auction/src/types.rs 250-319), `Queue` (rent/src/types.rs 335-405 and
transmission-protocols/src/types.rs 189-290) are the same data structure. -/

abbrev Queue := List (NFTId × Block)

namespace Queue

/-- position of the first entry for `n`: its block (`get`) -/
def find (n : NFTId) : Queue → Option Block
  | [] => none
  | (m, b) :: t => if m = n then some b else find n t

/-- `remove`: drops the first entry for `n`, if any -/
def remove (n : NFTId) : Queue → Queue
  | [] => []
  | (m, b) :: t => if m = n then t else (m, b) :: remove n t

/-- `iter().any(|x| x.0 == n)` -/
def has (q : Queue) (n : NFTId) : Bool := (find n q).isSome

/-- insertion before the first entry with a later block -/
def ins (n : NFTId) (b : Block) : Queue → Queue
  | [] => [(n, b)]
  | (m, x) :: t => if x > b then (n, b) :: (m, x) :: t else (m, x) :: ins n b t

/-- `insert`: fails when the bounded vector is full -/
def insert (limit : Nat) (q : Queue) (n : NFTId) (b : Block) : Option Queue :=
  if q.length < limit then some (ins n b q) else none

/-- `update`: no-op if absent; panics (`expect("Cannot happen.")`) if reinsertion fails -/
def update (limit : Nat) (q : Queue) (n : NFTId) (b : Block) : Except Err Queue :=
  if has q n then expectSome (insert limit (remove n q) n b) "Cannot happen."
  else .ok q

/-- `pop_next`: if the front entry is due, its id and the queue without the first entry for
this id -/
def popNext (q : Queue) (now : Block) : Option (NFTId × Queue) :=
  match q with
  | [] => none
  | (n, b) :: _ => if b ≤ now then some (n, remove n q) else none

/-- `pop_next` removes exactly the front entry, so hooks may recurse on the list. -/
theorem popNext_cons (n : NFTId) (b now : Block) (t : Queue) :
    popNext ((n, b) :: t) now = if b ≤ now then some (n, t) else none := by
  simp [popNext, remove]

end Queue
