import Verif.Model.Step
/-
The events the NFT, marketplace, auction, rent and transmission pallets deposit.

They are modelled apart from the calls: `emit c w o` is what operation `o` deposits when it happens in world `w`, oldest
first.  Events of an extrinsic that fails are rolled back with it, so `emit` is empty then.
Not here: the events of the TEE and bridge pallets and of `pallet_balances`.
-/

/-- `Event` of nft/src/lib.rs 211-280, marketplace/src/lib.rs 141-181, auction/src/lib.rs 223-255,
rent/src/lib.rs 150-188 and transmission-protocols/src/lib.rs 207-244.  `BidUpdated`, `CapsuleReverted` and rent's
`revoked_by` of `ContractEnded` are never used. -/
inductive Event where
  | nftCreated (n : NFTId) (owner : AccountId) (data : Data) (royalty : Permill) (coll : Option CollId)
      (soulbound : Bool) (fee : Balance)
  | nftBurned (n : NFTId)
  | nftTransferred (n : NFTId) (sender recipient : AccountId)
  | nftDelegated (n : NFTId) (recipient : Option AccountId)
  | nftRoyaltySet (n : NFTId) (royalty : Permill)
  | nftMintFeeSet (fee : Balance)
  | collCreated (k : CollId) (owner : AccountId) (data : Data) (limit : Option Nat)
  | collBurned (k : CollId)
  | collClosed (k : CollId)
  | collLimited (k : CollId) (limit : Nat)
  | nftAddedToColl (n : NFTId) (k : CollId)
  | secretAdded (n : NFTId) (data : Data)
  | shardAdded (n : NFTId) (enclave : AccountId)
  | secretSynced (n : NFTId)
  | secretFeeSet (fee : Balance)
  | toCapsule (n : NFTId) (data : Data)
  | capsuleDataSet (n : NFTId) (data : Data)
  | capsuleShardAdded (n : NFTId) (enclave : AccountId)
  | capsuleSynced (n : NFTId)
  | capsuleFeeSet (fee : Balance)
  | keyUpdateNotified (n : NFTId)
  | collDataSet (k : CollId) (data : Data)
  | mktCreated (m : MktId) (owner : AccountId) (kind : MktKind)
  | mktOwnerSet (m : MktId) (owner : AccountId)
  | mktKindSet (m : MktId) (kind : MktKind)
  | mktConfigSet (m : MktId) (commission listing : ConfigOp CompoundFee) (accounts : ConfigOp (List AccountId))
      (offchain : ConfigOp Data) (colls : ConfigOp (List CollId))
  | mktFeeSet (fee : Balance)
  | listed (n : NFTId) (m : MktId) (price : Balance) (commission : Option CompoundFee)
  | unlisted (n : NFTId)
  | sold (n : NFTId) (m : MktId) (buyer : AccountId) (price mktCut royaltyCut : Balance)
  | auctionCreated (n : NFTId) (m : MktId) (creator : AccountId) (startPrice : Balance) (buyIt : Option Balance)
      (start fin : Block)
  | auctionCancelled (n : NFTId)
  | auctionCompleted (n : NFTId) (newOwner : Option AccountId) (paid : Option Balance)
      (cuts : Option (Balance × Balance × Balance))
  | bidAdded (n : NFTId) (bidder : AccountId) (amount : Balance)
  | bidRemoved (n : NFTId) (bidder : AccountId) (amount : Balance)
  | bidDropped (n : NFTId) (bidder : AccountId) (amount : Balance)
  | balanceClaimed (a : AccountId) (amount : Balance)
  | contractCreated (n : NFTId) (renter : AccountId) (duration : Duration) (acceptance : Acceptance)
      (renterCanRevoke : Bool) (rentFee : RentFee) (renterFee renteeFee : CancelFee)
  | contractStarted (n : NFTId) (rentee : AccountId)
  | contractRevoked (n : NFTId) (by_ : AccountId)
  | offerCreated (n : NFTId) (rentee : AccountId)
  | offerRetracted (n : NFTId) (rentee : AccountId)
  | termsChanged (n : NFTId) (period maxDur : Block) (changeable : Bool) (rentFee : Balance)
  | termsAccepted (n : NFTId)
  | contractEnded (n : NFTId)
  | periodStarted (n : NFTId)
  | contractExpired (n : NFTId)
  | contractCanceled (n : NFTId)
  | protocolSet (n : NFTId) (recipient : AccountId) (p : Protocol) (k : Cancellation)
  | protocolRemoved (n : NFTId)
  | timerReset (n : NFTId) (b : Block)
  | consentAdded (n : NFTId) (who : AccountId)
  | protocolFeeSet (k : ProtocolKind) (fee : Balance)
  | thresholdReached (n : NFTId)
  | transmitted (n : NFTId)
  | transmissionError (n : NFTId)

variable (c : Cfg)

namespace NftM

/-- `has_finished_sync`, nft/src/lib.rs 968-1001 and 1214-1247: the share being added is the last one -/
def lastShare (cur : Option (List (ClusterId × AccountId))) : Prop := (cur.getD []).length + 1 = c.shards

instance (cur : Option (List (ClusterId × AccountId))) : Decidable (lastShare c cur) := by
  unfold lastShare; infer_instance

/-- Events of a successful call, nft/src/lib.rs: 545, 588, 635, 677, 725, 752, 776, 815, 875, 1008-1013, 1171,
1254-1259, 1299, 1326, 1499, 1552, 1597. -/
def emit (w : World) (who : AccountId) : Call → List Event
  | .createNft data r k sb => [.nftCreated w.nft.nextNft who data r k sb w.nft.fee]
  | .burnNft n => [.nftBurned n]
  | .transferNft n r => [.nftTransferred n who r]
  | .delegateNft n r => [.nftDelegated n (if r.getD who ≠ who then some (r.getD who) else none)]
  | .setRoyalty n r => [.nftRoyaltySet n r]
  | .createColl data l => [.collCreated w.nft.nextColl who data l]
  | .burnColl k => [.collBurned k]
  | .closeColl k => [.collClosed k]
  | .limitColl k l => [.collLimited k l]
  | .addToColl n k => [.nftAddedToColl n k]
  | .addSecret n data => [.secretAdded n data]
  | .createSecret data s r k sb =>
    [.nftCreated w.nft.nextNft who data r k sb w.nft.fee, .secretAdded w.nft.nextNft s]
  | .addSecretShard n =>
    .shardAdded n who :: if lastShare c (w.nft.secretShards.get n) then [.secretSynced n] else []
  | .toCapsule n data => [.toCapsule n data]
  | .createCapsule data s r k sb =>
    [.nftCreated w.nft.nextNft who data r k sb w.nft.fee, .toCapsule w.nft.nextNft s]
  | .setCapsuleData n data => [.capsuleDataSet n data]
  | .addCapsuleShard n =>
    .capsuleShardAdded n who :: if lastShare c (w.nft.capsuleShards.get n) then [.capsuleSynced n] else []
  | .notifyKey n => [.keyUpdateNotified n]
  | .setCollData k data => [.collDataSet k data]

end NftM

namespace MktM

/-- Events of a successful call, marketplace/src/lib.rs: 249, 279, 306, 342, 417, 443, 485. -/
def emit (w : World) (who : AccountId) : Call → List Event
  | .create k => [.mktCreated w.mkt.next who k]
  | .setOwner m r => [.mktOwnerSet m r]
  | .setKind m k => [.mktKindSet m k]
  | .setConfig m f l a o k => [.mktConfigSet m f l a o k]
  | .list n m p => [.listed n m p ((w.mkt.mkts.get m).bind (·.commission))]
  | .unlist n => [.unlisted n]
  | .buy n _ =>
    match w.nfts.get n, w.mkt.sales.get n with
    | some d, some s => [.sold n s.mkt who s.price (feeOnOpt s.price s.commission)
        (d.royalty.mul (s.price - feeOnOpt s.price s.commission))]
    | _, _ => []

end MktM

namespace AucM

/-- `emit_auction_completed_event` for a sale, auction/src/lib.rs 714-729: the cuts are those of `pay_for_nft` -/
def soldEvent (w : World) (n : NFTId) (a : AccountId) (v : Balance) : Event :=
  .auctionCompleted n (some a) (some v)
    (match w.nfts.get n, w.auc.comm.get n with
      | some d, some k => some (cuts v k d.royalty)
      | _, _ => none)

/-- the bid that a new one pushes out of the list, auction/src/lib.rs 549-552 -/
def droppedEvent (w : World) (who : AccountId) (n : NFTId) (v : Balance) : List Event :=
  match w.auc.auctions.get n with
  | none => []
  | some a =>
    match insertBid c (removeBid who a.bids) who v with
    | .ok (some x, _) => [.bidDropped n x.1 x.2]
    | _ => []

/-- Events of a successful call, auction/src/lib.rs: 435, 469, 497, 552, 563, 596, 637, 652. -/
def emit (w : World) (who : AccountId) : Call → List Event
  | .create n m s e p b => [.auctionCreated n m who p b s e]
  | .cancel n => [.auctionCancelled n]
  | .end_ n =>
    match (w.auc.auctions.get n).bind (·.bids.getLast?) with
    | some top => [soldEvent w n top.1 top.2]
    | none => []
  | .addBid n v => droppedEvent c w who n v ++ [.bidAdded n who v]
  | .removeBid n => [.bidRemoved n who (((w.auc.auctions.get n).bind (findBid who ·.bids)).getD 0)]
  | .buyItNow n p => [soldEvent w n who p]
  | .claim => [.balanceClaimed who ((w.auc.claims.get who).getD 0)]

/-- the event of settling one due auction, auction/src/lib.rs 135-170: none if it was skipped -/
def settleEmit (w : World) (n : NFTId) : List Event :=
  match w.auc.auctions.get n with
  | none => []
  | some a =>
    match w.nfts.get n with
    | none => []
    | some d =>
      match a.bids.getLast? with
      | some top =>
        match payForNft c w n c.aucPot top.2 d a with
        | (_, .error _) => []
        | (_, .ok ()) => [soldEvent w n top.1 top.2]
      | none => [.auctionCompleted n none none none]

/-- Events of the loop of `on_initialize`, auction/src/lib.rs 134-180; goes along with `hookLoop`. -/
def hookEmit (w : World) : Queue → Nat → List Event
  | [], _ => []
  | (n, b) :: t, k =>
    if b ≤ w.now then
      settleEmit c w n ++
        let r := settleOne c w n
        if r.2 then
          if c.aucActions ≤ k + 1 then [] else hookEmit r.1 t (k + 1)
        else hookEmit r.1 t k
    else []

end AucM

namespace RentM

/-- Events of a successful call, rent/src/lib.rs: 466, 505, 565, 628, 715, 768, 796, 851, 905. -/
def emit (who : AccountId) : Call → List Event
  | .create n d a r f x y => [.contractCreated n who (toDuration c.rentMaxDur d) a r f x y]
  | .cancel n => [.contractCanceled n]
  | .revoke n => [.contractRevoked n who]
  | .rent n _ => [.contractStarted n who]
  | .makeOffer n _ => [.offerCreated n who]
  | .acceptOffer n r => [.contractStarted n r]
  | .retractOffer n => [.offerRetracted n who]
  | .changeTerms n f p m ch => [.termsChanged n p (m.getD c.rentMaxDur) ch f]
  | .acceptTerms n _ _ _ _ => [.termsAccepted n]

/-- Events of the fixed and the available loop, rent/src/lib.rs 293-306 and 329-341; `e` is the event.  Deposited even if
settling fails. -/
def finishEmit (e : NFTId → Event) (w : World) : Queue → Nat → List Event
  | [], _ => []
  | (n, b) :: t, k =>
    if b ≤ w.now then
      e n :: if c.rentActions ≤ k + 1 then [] else finishEmit e (handleFinished c n w).1 t (k + 1)
    else []

/-- the event of one step of the subscription loop, rent/src/lib.rs 309-318 -/
def subEvent (w : World) (n : NFTId) : Event :=
  if (handleSub c w n).2.isSome then .periodStarted n else .contractEnded n

/-- Events of the subscription loop, rent/src/lib.rs 308-326; goes along with `subLoop`. -/
def subEmit (w : World) (q : Queue) (k : Nat) : Nat → List Event
  | 0 => []
  | fuel + 1 =>
    match q with
    | [] => []
    | (n, b) :: t =>
      if b ≤ w.now then
        subEvent c w n ::
          let r := subOne c w n t
          if c.rentActions ≤ k + 1 then [] else subEmit r.1 r.2 (k + 1) fuel
      else []

/-- Events of `on_initialize`, rent/src/lib.rs 284-347; goes along with `hook`. -/
def hookEmit (w : World) : List Event :=
  let f := finishLoop c w w.rent.fixedQ 0
  let s := subLoop c f.1 w.rent.subQ f.2.2 (max 1 (c.rentActions - f.2.2))
  finishEmit c .contractEnded w w.rent.fixedQ 0 ++
    subEmit c f.1 w.rent.subQ f.2.2 (max 1 (c.rentActions - f.2.2)) ++
    finishEmit c .contractExpired s.1 w.rent.availQ s.2.2

end RentM

namespace TrM

/-- has the consent being added reached the threshold? transmission-protocols/src/lib.rs 559-563 -/
def reached (w : World) (n : NFTId) : Bool :=
  match (w.tr.trans.get n).bind (consentData ·.protocol) with
  | some x => decide (x.2 ≤ ((w.tr.consents.get n).getD []).length + 1)
  | none => false

/-- and is the NFT transmitted at once? transmission-protocols/src/lib.rs 564-580 -/
def atOnce (w : World) (n : NFTId) : Bool :=
  match (w.tr.trans.get n).bind (endBlock ·.protocol) with
  | some e => decide (e ≤ w.now)
  | none => true

/-- Events of a successful call, transmission-protocols/src/lib.rs: 417, 469, 514, 594-607. -/
def emit (w : World) (who : AccountId) : Call → List Event
  | .set n r p k => [.protocolSet n r p k]
  | .remove n => [.protocolRemoved n]
  | .resetTimer n b => [.timerReset n b]
  | .addConsent n =>
    .consentAdded n who ::
      if reached w n then .thresholdReached n :: if atOnce w n then [.transmitted n] else [] else []

/-- the event of one transmission in the hook, transmission-protocols/src/lib.rs 177-192 -/
def oneEvent (w : World) (n : NFTId) : Event :=
  match transmit w n with
  | .ok _ => .transmitted n
  | .error _ => .transmissionError n

/-- Events of the loop of `on_initialize`, transmission-protocols/src/lib.rs 176-196; goes along with `hookLoop`. -/
def hookEmit (w : World) : Queue → Nat → List Event
  | [], _ => []
  | (n, b) :: t, k =>
    if b ≤ w.now then
      oneEvent w n ::
        let r := hookOne w n
        let k' := if r.2 then k + 1 else k
        if c.trActions ≤ k' then [] else hookEmit r.1 t k'
    else []

end TrM

/-- events of signed calls -/
def signedEmit (w : World) (a : AccountId) : Call → List Event
  | .nft x => NftM.emit c w a x
  | .mkt x => MktM.emit w a x
  | .auc x => AucM.emit c w a x
  | .rent x => RentM.emit c a x
  | .tr x => TrM.emit w a x
  | _ => []

/-- events of root calls: nft/src/lib.rs 692, 1028, 1185, marketplace/src/lib.rs 364,
transmission-protocols/src/lib.rs 629 -/
def rootEmit : RootCall → List Event
  | .nftFee x => [.nftMintFeeSet x]
  | .secretFee x => [.secretFeeSet x]
  | .capsuleFee x => [.capsuleFeeSet x]
  | .mktFee x => [.mktFeeSet x]
  | .trFee k x => [.protocolFeeSet k x]
  | .tee _ => []

/-- events of a call that succeeds; `mandate` keeps those of an inner call that succeeds -/
def callEmit (w : World) : Call → Origin → List Event
  | .mandate x, .root => match dispatch c x .root w with | .ok _ => callEmit w x .root | .error _ => []
  | .mandate x, .ext => match dispatch c x .root w with | .ok _ => callEmit w x .root | .error _ => []
  | .root x, .root => rootEmit x
  | x, .signed a => signedEmit c w a x
  | _, _ => []

/-- Events deposited by one operation, oldest first. -/
def emit (w : World) : Op → List Event
  | .call o x => match dispatch c x o w with | .ok _ => callEmit c w x o | .error _ => []
  | .hookAuc => AucM.hookEmit c w w.auc.deadlines 0
  | .hookRent => RentM.hookEmit c w
  | .hookTr => TrM.hookEmit c w w.tr.queue 0
  | _ => []

/-- All events of a run with the number of the block they are in, oldest first. -/
def history (w : World) : List Op → List (Block × Event)
  | [] => []
  | o :: t => (emit c w o).map (fun e => (w.now, e)) ++ history (step c w o) t
