import Verif.Model.Step
/-
Specification for C102 and C103: what a signed call is about.
-/
namespace Spec

/-- The pieces the chain's state falls into, as far as calls share them. -/
inductive Item where
  /-- free tokens and locks of an account -/
  | account (a : AccountId)
  /-- refund an account can claim from auctions -/
  | refund (a : AccountId)
  /-- everything stored under the id of an NFT -/
  | nft (n : NFTId)
  /-- a collection -/
  | coll (k : CollId)
  /-- a marketplace -/
  | market (m : MktId)
  /-- the schedules of auctions, rentals and transmissions -/
  | auctions
  | rents
  | transmissions
  /-- the counters that number NFTs, collections and marketplaces -/
  | newNft
  | newColl
  | newMarket
  /-- the TEE pallet -/
  | tee
  /-- the bridge pallet -/
  | bridge
  /-- total issuance and collected fees -/
  | supply
deriving DecidableEq

/-- do two states agree on a piece? -/
def same (w1 w2 : World) : Item → Prop
  | .account a => w1.bal.free.get a = w2.bal.free.get a ∧ w1.bal.tee.get a = w2.bal.tee.get a ∧
      w1.bal.other.get a = w2.bal.other.get a
  | .refund a => w1.auc.claims.get a = w2.auc.claims.get a
  | .nft n => w1.nfts.get n = w2.nfts.get n ∧ w1.nft.deleg.get n = w2.nft.deleg.get n ∧
      w1.nft.secretData.get n = w2.nft.secretData.get n ∧ w1.nft.secretShards.get n = w2.nft.secretShards.get n ∧
      w1.nft.capsuleData.get n = w2.nft.capsuleData.get n ∧ w1.nft.capsuleShards.get n = w2.nft.capsuleShards.get n ∧
      w1.mkt.sales.get n = w2.mkt.sales.get n ∧ w1.auc.auctions.get n = w2.auc.auctions.get n ∧
      w1.auc.comm.get n = w2.auc.comm.get n ∧ w1.rent.contracts.get n = w2.rent.contracts.get n ∧
      w1.rent.offers.get n = w2.rent.offers.get n ∧ w1.tr.trans.get n = w2.tr.trans.get n ∧
      w1.tr.consents.get n = w2.tr.consents.get n
  | .coll k => w1.nft.colls.get k = w2.nft.colls.get k
  | .market m => w1.mkt.mkts.get m = w2.mkt.mkts.get m
  | .auctions => w1.auc.deadlines = w2.auc.deadlines
  | .rents => w1.rent.fixedQ = w2.rent.fixedQ ∧ w1.rent.subQ = w2.rent.subQ ∧ w1.rent.availQ = w2.rent.availQ
  | .transmissions => w1.tr.queue = w2.tr.queue
  | .newNft => w1.nft.nextNft = w2.nft.nextNft
  | .newColl => w1.nft.nextColl = w2.nft.nextColl
  | .newMarket => w1.mkt.next = w2.mkt.next
  | .tee => w1.tee = w2.tee
  | .bridge => w1.br = w2.br
  | .supply => w1.bal.issuance = w2.bal.issuance ∧ w1.bal.collected = w2.bal.collected

/-- the clock and what only governance sets -/
def Settings (w1 w2 : World) : Prop :=
  w1.now = w2.now ∧ w1.active = w2.active ∧ w1.nft.fee = w2.nft.fee ∧ w1.nft.secretFee = w2.nft.secretFee ∧
  w1.nft.capsuleFee = w2.nft.capsuleFee ∧ w1.mkt.fee = w2.mkt.fee ∧ w1.tr.feeAt = w2.tr.feeAt ∧
  w1.tr.feeReset = w2.tr.feeReset ∧ w1.tr.feeConsent = w2.tr.feeConsent ∧
  w1.tr.feeConsentAt = w2.tr.feeConsentAt ∧ w1.rew = w2.rew

/-- the collection an NFT is in -/
def collOf (w : World) (n : NFTId) : List Item :=
  match w.nfts.get n with
  | some d => (d.coll.map Item.coll).toList
  | none => []

/-- the account of an NFT's creator, who gets royalties -/
def creatorOf (w : World) (n : NFTId) : List Item :=
  match w.nfts.get n with
  | some d => [.account d.creator]
  | none => []

/-- a marketplace and its owner's account -/
def marketAndOwner (w : World) (m : MktId) : List Item :=
  match w.mkt.mkts.get m with
  | some k => [.market m, .account k.owner]
  | none => [.market m]

/-- the refunds of an auction's bidders -/
def refunds (w : World) (n : NFTId) : List Item :=
  match w.auc.auctions.get n with
  | some x => x.bids.map fun b => .refund b.1
  | none => []

/-- who is paid when an auctioned NFT is sold, and the marketplace it is sold on -/
def auctionPayees (w : World) (n : NFTId) : List Item :=
  match w.auc.auctions.get n with
  | some x => .account x.creator :: marketAndOwner w x.mkt ++ creatorOf w n
  | none => []

/-- who is paid when a listed NFT is bought, and the marketplace it is listed on -/
def salePayees (w : World) (n : NFTId) : List Item :=
  match w.mkt.sales.get n with
  | some s => .account s.seller :: marketAndOwner w s.mkt ++ creatorOf w n
  | none => []

/-- NFTs given as rent or deposits -/
def feeNfts (rent : RentFee) (renter rentee : CancelFee) : List Item :=
  (match rent with | .nft m => [.nft m] | _ => []) ++ (match renter with | .nft m => [.nft m] | _ => []) ++
  (match rentee with | .nft m => [.nft m] | _ => [])

/-- the NFTs given as rent or deposits in a contract -/
def contractNfts (w : World) (n : NFTId) : List Item :=
  match w.rent.contracts.get n with
  | some k => feeNfts k.rentFee k.renterFee k.renteeFee
  | none => []

/-- the accounts of the parties of a contract -/
def parties (w : World) (n : NFTId) : List Item :=
  match w.rent.contracts.get n with
  | some k => .account k.renter :: (k.rentee.map Item.account).toList
  | none => []

/-- What a call signed by `a` is about: its outcome depends on nothing else. -/
def uses (c : Cfg) (w : World) (a : AccountId) : Call → List Item
  | .nft (.createNft _ _ k _) | .nft (.createSecret _ _ _ k _) | .nft (.createCapsule _ _ _ k _) =>
      [.account a, .newNft, .nft w.nft.nextNft] ++ (k.map Item.coll).toList
  | .nft (.burnNft n) => .nft n :: collOf w n
  | .nft (.transferNft n _) | .nft (.delegateNft n _) | .nft (.setRoyalty n _) | .nft (.setCapsuleData n _)
  | .nft (.notifyKey n) => [.nft n]
  | .nft (.createColl _ _) => [.newColl, .coll w.nft.nextColl]
  | .nft (.burnColl k) | .nft (.closeColl k) | .nft (.limitColl k _) | .nft (.setCollData k _) => [.coll k]
  | .nft (.addToColl n k) => [.nft n, .coll k]
  | .nft (.addSecret n _) | .nft (.toCapsule n _) => [.account a, .nft n]
  | .nft (.addSecretShard n) | .nft (.addCapsuleShard n) => [.tee, .nft n]
  | .mkt (.create _) => [.account a, .newMarket, .market w.mkt.next]
  | .mkt (.setOwner m _) | .mkt (.setKind m _) | .mkt (.setConfig m ..) => [.market m]
  | .mkt (.list n m _) => [.nft n, .account a] ++ marketAndOwner w m
  | .mkt (.unlist n) => [.nft n]
  | .mkt (.buy n _) => [.nft n, .account a] ++ salePayees w n
  | .auc (.create n m ..) => [.nft n, .market m, .auctions]
  | .auc (.cancel n) => [.nft n, .auctions] ++ refunds w n
  | .auc (.end_ n) => [.nft n, .auctions, .account c.aucPot] ++ auctionPayees w n ++ refunds w n
  | .auc (.addBid n _) => [.nft n, .auctions, .account a, .account c.aucPot] ++ refunds w n
  | .auc (.removeBid n) => [.nft n, .account a, .account c.aucPot]
  | .auc (.buyItNow n _) => [.nft n, .auctions, .account a] ++ auctionPayees w n ++ refunds w n
  | .auc .claim => [.account a, .refund a, .account c.aucPot]
  | .rent (.create n _ _ _ f x y) => [.nft n, .rents, .account a, .account c.rentPot] ++ feeNfts f x y
  | .rent (.cancel n) | .rent (.revoke n) | .rent (.rent n _) =>
      [.nft n, .rents, .account a, .account c.rentPot] ++ parties w n ++ contractNfts w n
  | .rent (.acceptOffer n r) =>
      [.nft n, .rents, .account r, .account c.rentPot] ++ parties w n ++ contractNfts w n
  | .rent (.makeOffer n _) => [.nft n, .account a] ++ contractNfts w n
  | .rent (.retractOffer n) | .rent (.changeTerms n ..) | .rent (.acceptTerms n ..) => [.nft n]
  | .tr (.set n ..) => [.nft n, .account a, .transmissions]
  | .tr (.remove n) | .tr (.resetTimer n _) | .tr (.addConsent n) => [.nft n, .transmissions]
  | .tee (.claim _) => [.tee, .account a, .account c.teePot]
  | .tee _ => [.tee, .account a]
  | .br (.vote _ t) => [.bridge, .supply, .account t.recipient]
  | .br (.deposit ..) => [.bridge, .account a]
  | .bal dst _ _ => [.account a, .account dst]
  | .root _ | .ext _ | .mandate _ => []

/-- Pieces a call only looks at: NFT calls the TEE registry, sales and auctions the marketplace, offers to rent
everything but the NFT to be rented. -/
def looksAt : Call → Item → Bool
  | .nft _, .tee => true
  | .mkt (.list ..), .market _ | .mkt (.buy ..), .market _ | .auc _, .market _ => true
  | .rent (.makeOffer n _), i => i ≠ .nft n
  | _, _ => false

/-- What a call may change: the pieces it is about and does not only look at, and the totals of the chain. -/
def touches (c : Cfg) (w : World) (a : AccountId) (x : Call) : List Item :=
  .supply :: (uses c w a x).filter fun i => !looksAt x i

/-- Same fate: both refused with the same error, or both accepted with results related by `R`. -/
def Alike (R : World → World → Prop) : Except Err World → Except Err World → Prop
  | .ok w1, .ok w2 => R w1 w2
  | .error e, .error f => e = f
  | _, _ => False

end Spec
