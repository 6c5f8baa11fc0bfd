import Verif.Model.Events
/-
What an observer who sees only events writes down.  Refers to the model's records and events, not to its calls or hooks.
-/
namespace Spec

/-- What an observer keeps books of. -/
@[ext] structure View where
  nft : NFTId → Option NFTData
  delegate : NFTId → Option AccountId
  secret : NFTId → Option Data
  capsule : NFTId → Option Data
  /-- without the list of members, which the NFTs tell -/
  coll : CollId → Option Coll
  mkt : MktId → Option Mkt
  sale : NFTId → Option Sale
  auction : NFTId → Option Auction
  /-- refunds waiting to be claimed -/
  claim : AccountId → Balance
  contract : NFTId → Option Contract
  offers : NFTId → List AccountId
  transmission : NFTId → Option Transmission
  consents : NFTId → List AccountId

/-- what the chain stores -/
def truth (w : World) : View where
  nft := w.nfts.get
  delegate := w.nft.deleg.get
  secret := w.nft.secretData.get
  capsule := w.nft.capsuleData.get
  coll k := (w.nft.colls.get k).map fun x => { x with nfts := [] }
  mkt := w.mkt.mkts.get
  sale := w.mkt.sales.get
  auction := w.auc.auctions.get
  claim a := (w.auc.claims.get a).getD 0
  contract := w.rent.contracts.get
  offers n := (w.rent.offers.get n).getD []
  transmission := w.tr.trans.get
  consents n := (w.tr.consents.get n).getD []

namespace View

/-- nothing known yet -/
def nothing : View where
  nft _ := none
  delegate _ := none
  secret _ := none
  capsule _ := none
  coll _ := none
  mkt _ := none
  sale _ := none
  auction _ := none
  claim _ := 0
  contract _ := none
  offers _ := []
  transmission _ := none
  consents _ := []

/-- change the books at one place -/
def at_ {α : Type} (f : Nat → α) (n : Nat) (g : α → α) : Nat → α := fun m => if m = n then g (f m) else f m

/-- change what is known about an NFT, marketplace, ... if there is one -/
def on {α : Type} (f : Nat → Option α) (n : Nat) (g : α → α) : Nat → Option α := at_ f n (Option.map g)

/-- enter or delete -/
def put {α : Type} (f : Nat → α) (n : Nat) (x : α) : Nat → α := at_ f n fun _ => x

/-- change the flags of an NFT -/
def flag (v : View) (n : NFTId) (g : NFTState → NFTState) : View :=
  { v with nft := on v.nft n fun d => { d with st := g d.st } }

/-- an NFT, if one is named, gets another owner -/
def give (v : View) (n : Option NFTId) (a : AccountId) : View :=
  match n with
  | none => v
  | some n => { v with nft := on v.nft n fun d => { d with owner := a } }

/-- bids become refunds -/
def refund (v : View) (l : List (AccountId × Balance)) : View :=
  { v with claim := fun a => v.claim a + ((l.filter fun x => x.1 = a).map (·.2)).sum }

end View

/-- the NFT a cancellation deposit consists of -/
def depositNft : CancelFee → Option NFTId
  | .nft n => some n
  | _ => none

/-- the NFT a rent consists of -/
def rentNft : RentFee → Option NFTId
  | .nft n => some n
  | _ => none

/-- a new value, no value, or as it was -/
def configured {α : Type} (old : Option α) : ConfigOp α → Option α
  | .noop => old
  | .set x => some x
  | .remove => none

/-- an auction after a bid: the bidder's earlier bid is replaced, and at least `grace` blocks are left -/
def withBid (grace now : Block) (bidder : AccountId) (amount : Balance) (x : Auction) : Auction :=
  { x with
    bids := (x.bids.filter fun y => y.1 ≠ bidder) ++ [(bidder, amount)]
    fin := x.fin + (grace - (x.fin - now))
    extended := x.extended || decide (x.fin - now < grace) }

/-- a rent contract is over without dispute: each party has their NFT deposit back.  The rented NFT itself stays where it
is, even if it was named as deposit. -/
def settled (v : View) (n : NFTId) (k : Contract) : View :=
  let v := v.give ((depositNft k.renterFee).filter (· ≠ n)) k.renter
  match k.rentee with
  | some r => v.give ((depositNft k.renteeFee).filter (· ≠ n)) r
  | none => v

/-- a rent contract is gone -/
def noContract (v : View) (n : NFTId) : View :=
  { v.flag n (fun s => { s with rented := false }) with contract := View.put v.contract n none }

/-- How the observer keeps their books.  `pot` is the account of the rent pallet, `grace` the auctions' grace period, `now`
the block of the event. -/
def see (pot : AccountId) (grace now : Block) (v : View) : Event → View
  | .nftCreated n a data r k sb _ => { v with nft := View.put v.nft n (some
      { owner := a, creator := a, offchain := data, coll := k, royalty := r, st := { soulbound := sb } }) }
  | .nftBurned n => { v with
      nft := View.put v.nft n none, secret := View.put v.secret n none, capsule := View.put v.capsule n none }
  | .nftTransferred n _ r => v.give (some n) r
  | .nftDelegated n r =>
    { v.flag n (fun s => { s with delegated := r.isSome }) with delegate := View.put v.delegate n r }
  | .nftRoyaltySet n r => { v with nft := View.on v.nft n fun d => { d with royalty := r } }
  | .collCreated k a data l => { v with coll := View.put v.coll k (some
      { owner := a, offchain := data, nfts := [], limit := l, closed := false }) }
  | .collBurned k => { v with coll := View.put v.coll k none }
  | .collClosed k => { v with coll := View.on v.coll k fun x => { x with closed := true } }
  | .collLimited k l => { v with coll := View.on v.coll k fun x => { x with limit := some l } }
  | .collDataSet k data => { v with coll := View.on v.coll k fun x => { x with offchain := data } }
  | .nftAddedToColl n k => { v with nft := View.on v.nft n fun d => { d with coll := some k } }
  | .secretAdded n data => { v.flag n (fun s => { s with secret := true, syncSecret := true }) with
      secret := View.put v.secret n (some data) }
  | .secretSynced n => v.flag n fun s => { s with syncSecret := false }
  | .toCapsule n data => { v.flag n (fun s => { s with capsule := true, syncCapsule := true }) with
      capsule := View.put v.capsule n (some data) }
  | .capsuleDataSet n data => { v with capsule := View.put v.capsule n (some data) }
  | .capsuleSynced n => v.flag n fun s => { s with syncCapsule := false }
  | .keyUpdateNotified n => v.flag n fun s => { s with syncCapsule := true }
  | .mktCreated m a k => { v with mkt := View.put v.mkt m (some
      { owner := a, kind := k, commission := none, listing := none, accounts := none, offchain := none,
        colls := none }) }
  | .mktOwnerSet m a => { v with mkt := View.on v.mkt m fun x => { x with owner := a } }
  | .mktKindSet m k => { v with mkt := View.on v.mkt m fun x => { x with kind := k } }
  | .mktConfigSet m f l a o k => { v with mkt := View.on v.mkt m fun x => { x with
      commission := configured x.commission f, listing := configured x.listing l
      accounts := configured x.accounts a, offchain := configured x.offchain o, colls := configured x.colls k } }
  | .listed n m p k => { v.flag n (fun s => { s with listed := true }) with
      sale := View.put v.sale n ((v.nft n).map fun d => { seller := d.owner, mkt := m, price := p, commission := k }) }
  | .unlisted n => { v.flag n (fun s => { s with listed := false }) with sale := View.put v.sale n none }
  | .sold n _ a _ _ _ =>
    { (v.flag n (fun s => { s with listed := false })).give (some n) a with sale := View.put v.sale n none }
  | .auctionCreated n m a p b s e => { v.flag n (fun s => { s with listed := true }) with
      auction := View.put v.auction n (some
        { creator := a, start := s, fin := e, startPrice := p, buyIt := b, bids := [], mkt := m, extended := false }) }
  | .auctionCancelled n =>
    { (v.flag n (fun s => { s with listed := false })).refund ((v.auction n).elim [] (·.bids)) with
      auction := View.put v.auction n none }
  | .auctionCompleted n a p _ =>
    let w := match a with
      | some a => (v.flag n (fun s => { s with listed := false })).give (some n) a
      | none => v.flag n (fun s => { s with listed := false })
    { w.refund (((v.auction n).elim [] (·.bids)).filter fun x => ¬ (some x.1 = a ∧ some x.2 = p)) with
      auction := View.put v.auction n none }
  | .bidAdded n a x => { v with auction := View.on v.auction n (withBid grace now a x) }
  | .bidRemoved n a _ => { v with auction := View.on v.auction n fun x => { x with
      bids := x.bids.filter fun y => y.1 ≠ a } }
  | .bidDropped n a x => { v.refund [(a, x)] with auction := View.on v.auction n fun x => { x with
      bids := x.bids.filter fun y => y.1 ≠ a } }
  | .balanceClaimed a _ => { v with claim := View.put v.claim a 0 }
  | .contractCreated n a d acc r f x y =>
    { (v.flag n (fun s => { s with rented := true })).give ((depositNft x).filter (· ≠ n)) pot with
      contract := View.put v.contract n (some
        { start := none, renter := a, rentee := none, duration := d, acceptance := acc, renterCanRevoke := r,
          rentFee := f, renterFee := x, renteeFee := y, creation := now }) }
  | .contractStarted n a =>
    match v.contract n with
    | none => v
    | some k => { (v.give (rentNft k.rentFee) k.renter).give (depositNft k.renteeFee) pot with
        contract := View.put v.contract n (some { k with rentee := some a, start := some now })
        offers := View.put v.offers n [] }
  | .contractRevoked n a =>
    match v.contract n with
    | none => v
    | some k =>
      let damaged := if k.renter = a then k.rentee.getD a else k.renter
      noContract ((v.give (depositNft k.renterFee) damaged).give (depositNft k.renteeFee) damaged) n
  | .contractCanceled n =>
    match v.contract n with
    | none => v
    | some k => { noContract (settled v n k) n with offers := View.put v.offers n [] }
  | .contractEnded n | .contractExpired n =>
    match v.contract n with
    | none => v
    | some k => noContract (settled v n k) n
  | .offerCreated n a => { v with offers := View.at_ v.offers n (· ++ [a]) }
  | .offerRetracted n a => { v with offers := View.at_ v.offers n (·.erase a) }
  | .termsChanged n p m ch f => { v with
      contract := View.on v.contract n fun k => { k with
        duration := .sub { period := p, maxDur := m, changeable := ch, newTerms := true }, rentFee := .tokens f }
      offers := View.at_ v.offers n fun l => if (v.contract n).any (·.rentee.isSome) then l else [] }
  | .termsAccepted n => { v with contract := View.on v.contract n fun k => { k with
      duration := match k.duration with | .sub s => .sub { s with newTerms := false } | d => d } }
  | .protocolSet n a p k => { v.flag n (fun s => { s with transmission := true }) with
      transmission := View.put v.transmission n (some { recipient := a, protocol := p, cancellation := k }) }
  | .protocolRemoved n => { v.flag n (fun s => { s with transmission := false }) with
      transmission := View.put v.transmission n none, consents := View.put v.consents n [] }
  | .timerReset n b => { v with
      transmission := View.on v.transmission n fun t => { t with protocol := .atBlockWithReset b } }
  | .consentAdded n a => { v with consents := View.at_ v.consents n (· ++ [a]) }
  | .thresholdReached n => { v with consents := View.put v.consents n [] }
  | .transmitted n =>
    match v.transmission n with
    | none => v
    | some t => { (v.flag n (fun s => { s with transmission := false })).give (some n) t.recipient with
        transmission := View.put v.transmission n none }
  | .nftMintFeeSet _ | .secretFeeSet _ | .capsuleFeeSet _ | .mktFeeSet _ | .protocolFeeSet _ _ | .shardAdded _ _
  | .capsuleShardAdded _ _ | .periodStarted _ | .transmissionError _ => v

/-- the books after a series of events -/
def books (pot : AccountId) (grace : Block) (v : View) : List (Block × Event) → View
  | [] => v
  | e :: t => books pot grace (see pot grace e.1 v e.2) t

end Spec
