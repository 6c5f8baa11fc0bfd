import Verif.Model.World
/-
Model of /repo/marketplace/src/lib.rs and of `MarketplaceData::allowed_to_list`.
-/
namespace MktM
variable (c : Cfg)

/-- `allowed_to_list`, primitives/src/marketplace.rs 92-116 -/
def allowedToList (m : Mkt) (who : AccountId) (coll : Option CollId) : Bool :=
  let inAcc := match m.accounts with
    | some l => decide (who ∈ l)
    | none => false
  let inColl := match coll with
    | some k => (match m.colls with
      | some l => decide (k ∈ l)
      | none => false)
    | none => false
  match m.kind with
  | .pub => !inAcc && !inColl
  | .priv => inAcc || inColl

/-- value of a `CompoundFee` on an amount (`Flat(x) => x`, `Percentage(x) => x * price`) -/
def feeOn (price : Balance) : CompoundFee → Balance
  | .flat x => x
  | .percentage p => p.mul price

/-- value of an optional fee, absent = 0 -/
def feeOnOpt (price : Balance) : Option CompoundFee → Balance
  | none => 0
  | some f => feeOn price f

/-- "the price covers the flat commission", marketplace/src/lib.rs 400-404, auction 408-415 -/
def covers (price : Balance) : Option CompoundFee → Bool
  | some (.flat x) => decide (x ≤ price)
  | _ => true

/-- `create_marketplace`, marketplace/src/lib.rs 234-253, with `get_next_marketplace_id` 501-509 and
`pay_mint_fee` 511-517 -/
def create (w : World) (who : AccountId) (kind : MktKind) : Except Err World := do
  let b ← w.bal.payFee c.ed who w.mkt.fee
  let next ← expectSome (if w.mkt.next + 1 ≤ U32MAX then some (w.mkt.next + 1) else none)
    "If u32 is not enough we should crash for safety; qed."
  let w := w.putBal b
  pure { w with mkt := { w.mkt with
    next := next
    mkts := w.mkt.mkts.insert w.mkt.next
      { owner := who, kind := kind, commission := none, listing := none, accounts := none,
        offchain := none, colls := none } } }

/-- `set_marketplace_owner`, marketplace/src/lib.rs 259-283 -/
def setOwner (w : World) (who : AccountId) (m : MktId) (recipient : AccountId) :
    Except Err World := do
  require (recipient ≠ who) "CannotTransferMarketplaceToYourself"
  let d ← getOr (w.mkt.mkts.get m) "MarketplaceNotFound"
  require (d.owner = who) "NotTheMarketplaceOwner"
  pure { w with mkt := { w.mkt with mkts := w.mkt.mkts.insert m { d with owner := recipient } } }

/-- `set_marketplace_kind`, marketplace/src/lib.rs 289-310 -/
def setKind (w : World) (who : AccountId) (m : MktId) (kind : MktKind) : Except Err World := do
  let d ← getOr (w.mkt.mkts.get m) "MarketplaceNotFound"
  require (d.owner = who) "NotTheMarketplaceOwner"
  pure { w with mkt := { w.mkt with mkts := w.mkt.mkts.insert m { d with kind := kind } } }

/-- `config_op_field_exp!`, primitives/src/common.rs -/
def apply {α : Type} (old : Option α) : ConfigOp α → Option α
  | .noop => old
  | .set x => some x
  | .remove => none

/-- `set_marketplace_configuration`, marketplace/src/lib.rs 316-353 -/
def setConfig (w : World) (who : AccountId) (m : MktId) (commission listing : ConfigOp CompoundFee)
    (accounts : ConfigOp (List AccountId)) (offchain : ConfigOp Data)
    (colls : ConfigOp (List CollId)) : Except Err World := do
  let d ← getOr (w.mkt.mkts.get m) "MarketplaceNotFound"
  require (d.owner = who) "NotTheMarketplaceOwner"
  pure { w with mkt := { w.mkt with mkts := w.mkt.mkts.insert m { d with
    commission := apply d.commission commission
    listing := apply d.listing listing
    accounts := apply d.accounts accounts
    offchain := apply d.offchain offchain
    colls := apply d.colls colls } } }

/-- `set_marketplace_mint_fee` (root), marketplace/src/lib.rs 358-368 -/
def setMintFee (w : World) (fee : Balance) : World := { w with mkt := { w.mkt with fee := fee } }

/-- `list_nft`, marketplace/src/lib.rs 372-426, with `pay_listing_fee` 519-538 -/
def list (w : World) (who : AccountId) (n : NFTId) (m : MktId) (price : Balance) :
    Except Err World := do
  let d ← getOr (w.nfts.get n) "NFTNotFound"
  require (d.owner = who) "NotTheNFTOwner"
  require (d.st.listed = false) "CannotListAlreadytListedNFTs"
  require (d.st.delegated = false) "CannotListDelegatedNFTs"
  require (¬ (d.st.soulbound = true ∧ d.creator ≠ d.owner)) "CannotListNotCreatedSoulboundNFTs"
  require (d.st.syncSecret = false) "CannotListNotSyncedSecretNFTs"
  require (d.st.rented = false) "CannotListRentedNFTs"
  require (d.st.syncCapsule = false) "CannotListNotSyncedCapsules"
  require (d.st.transmission = false) "CannotListNFTsInTransmission"
  let k ← getOr (w.mkt.mkts.get m) "MarketplaceNotFound"
  require (allowedToList k who d.coll = true) "NotAllowedToList"
  require (covers price k.commission = true) "PriceCannotCoverMarketplaceFee"
  let b ← w.bal.transfer c.ed who k.owner (feeOnOpt price k.listing) .keepAlive
  let w := w.putBal b
  let w := w.putNft n { d with st := { d.st with listed := true } }
  pure { w with mkt := { w.mkt with
    sales := w.mkt.sales.insert n
      { seller := who, mkt := m, price := price, commission := k.commission } } }

/-- `unlist_nft`, marketplace/src/lib.rs 431-446 -/
def unlist (w : World) (who : AccountId) (n : NFTId) : Except Err World := do
  let d ← getOr (w.nfts.get n) "NFTNotFound"
  require (d.owner = who) "NotTheNFTOwner"
  let _ ← getOr (w.mkt.sales.get n) "NFTNotForSale"
  let w := w.putNft n { d with st := { d.st with listed := false } }
  pure { w with mkt := { w.mkt with sales := w.mkt.sales.erase n } }

/-- `buy_nft`, marketplace/src/lib.rs 451-496, with `pay_commission_fee` 540-561 -/
def buy (w : World) (who : AccountId) (n : NFTId) (signedPrice : Balance) : Except Err World := do
  let d ← getOr (w.nfts.get n) "NFTNotFound"
  let s ← getOr (w.mkt.sales.get n) "NFTNotForSale"
  let k ← getOr (w.mkt.mkts.get s.mkt) "MarketplaceNotFound"
  require (s.seller ≠ who) "CannotBuyOwnedNFT"
  require (s.price = signedPrice) "PriceDoesNotMatch"
  require (s.price ≤ w.bal.freeOf who) "NotEnoughBalanceToBuy"
  let b ← w.bal.transfer c.ed who k.owner (feeOnOpt s.price s.commission) .keepAlive
  require (feeOnOpt s.price s.commission ≤ s.price) "InternalMathError"
  let b ← b.transfer c.ed who d.creator (d.royalty.mul (s.price - feeOnOpt s.price s.commission))
    .keepAlive
  require (d.royalty.mul (s.price - feeOnOpt s.price s.commission)
    ≤ s.price - feeOnOpt s.price s.commission) "InternalMathError"
  let b ← b.transfer c.ed who s.seller
    (s.price - feeOnOpt s.price s.commission
      - d.royalty.mul (s.price - feeOnOpt s.price s.commission)) .keepAlive
  let w := w.putBal b
  let w := w.putNft n { d with owner := who, st := { d.st with listed := false } }
  pure { w with mkt := { w.mkt with sales := w.mkt.sales.erase n } }

/-- Signed dispatchables of the marketplace pallet. -/
inductive Call where
  | create (kind : MktKind)
  | setOwner (m : MktId) (recipient : AccountId)
  | setKind (m : MktId) (kind : MktKind)
  | setConfig (m : MktId) (commission listing : ConfigOp CompoundFee)
      (accounts : ConfigOp (List AccountId)) (offchain : ConfigOp Data)
      (colls : ConfigOp (List CollId))
  | list (n : NFTId) (m : MktId) (price : Balance)
  | unlist (n : NFTId)
  | buy (n : NFTId) (signedPrice : Balance)

/-- dispatch of the signed calls -/
def call (w : World) (who : AccountId) : Call → Except Err World
  | .create k => create c w who k
  | .setOwner m r => setOwner w who m r
  | .setKind m k => setKind w who m k
  | .setConfig m f l a o k => setConfig w who m f l a o k
  | .list n m p => list c w who n m p
  | .unlist n => unlist w who n
  | .buy n p => buy c w who n p

end MktM
