import Verif.Model.World
/-
Model of /repo/nft/src/lib.rs (all dispatchables and their helpers).
Events are modelled in Model/Events.lean.  `create_nft` of `NFTExt` is in Model/Ext.lean.  Not modelled: weights,
`create_filled_collection` of `NFTExt` (only used by benchmarks), storage migrations.
-/
namespace NftM
variable (c : Cfg)

/-- `get_next_nft_id`, nft/src/lib.rs 1436-1444: panics when the `u32` counter is exhausted -/
def nextNftId (w : World) : Except Err (NFTId × World) := do
  let next ← expectSome (if w.nft.nextNft + 1 ≤ U32MAX then some (w.nft.nextNft + 1) else none)
    "If u32 is not enough we should crash for safety; qed."
  pure (w.nft.nextNft, { w with nft := { w.nft with nextNft := next } })

/-- `collection.limit.unwrap_or_else(|| T::CollectionSizeLimit::get())` -/
def collCap (k : Coll) : Nat := k.limit.getD c.collLimit

/-- nft/src/lib.rs 1523-1542: checks and push to the collection, `None` collection is a no-op.
The id is the current counter (the counter itself is advanced by the caller). -/
def pushToColl (w : World) (who : AccountId) (id : NFTId) : Option CollId → Except Err World
  | none => pure w
  | some k => do
    let col ← getOr (w.nft.colls.get k) "CollectionNotFound"
    require (col.owner = who) "NotTheCollectionOwner"
    require (col.closed = false) "CollectionIsClosed"
    require (col.nfts.length < collCap c col) "CollectionHasReachedLimit"
    require (col.nfts.length < c.collLimit) "CannotAddMoreNFTsToCollection"
    pure { w with nft := { w.nft with
      colls := w.nft.colls.insert k { col with nfts := col.nfts ++ [id] } } }

/-- `create_nft_helper`, nft/src/lib.rs 1505-1563 -/
def createHelper (w : World) (who : AccountId) (data : Data) (royalty : Permill)
    (coll : Option CollId) (soulbound : Bool) : Except Err World := do
  let b ← w.bal.payFee c.ed who w.nft.fee
  let w := w.putBal b
  let w ← pushToColl c w who w.nft.nextNft coll
  let (id, w) ← nextNftId w
  pure (w.putNft id
    { owner := who, creator := who, offchain := data, coll := coll, royalty := royalty,
      st := { soulbound := soulbound } })

/-- `add_secret_helper`, nft/src/lib.rs 1467-1503 -/
def addSecretHelper (w : World) (who : AccountId) (n : NFTId) (data : Data) : Except Err World := do
  let d ← getOr (w.nfts.get n) "NFTNotFound"
  require (d.owner = who) "NotTheNFTOwner"
  require (d.st.listed = false) "CannotAddSecretToListedNFTs"
  require (d.st.secret = false) "CannotAddSecretToSecretNFTs"
  require (d.st.rented = false) "CannotAddSecretToRentedNFTs"
  require (d.st.delegated = false) "CannotAddSecretToDelegatedNFTs"
  require (d.st.syncCapsule = false) "CannotAddSecretToSyncingCapsules"
  require (d.st.transmission = false) "CannotAddSecretToNFTsInTransmission"
  let b ← w.bal.payFee c.ed who w.nft.secretFee
  let w := w.putBal b
  let w := w.putNft n { d with st := { d.st with secret := true, syncSecret := true } }
  pure { w with nft := { w.nft with secretData := w.nft.secretData.insert n data } }

/-- `convert_to_capsule_helper`, nft/src/lib.rs 1565-1600 -/
def toCapsuleHelper (w : World) (who : AccountId) (n : NFTId) (data : Data) : Except Err World := do
  let d ← getOr (w.nfts.get n) "NFTNotFound"
  require (d.owner = who) "NotTheNFTOwner"
  require (d.st.listed = false) "CannotConvertListedNFTs"
  require (d.st.capsule = false) "CannotConvertCapsules"
  require (d.st.rented = false) "CannotConvertRentedNFTs"
  require (d.st.delegated = false) "CannotConvertDelegatedNFTs"
  require (d.st.syncSecret = false) "CannotConvertSyncingNFTs"
  require (d.st.transmission = false) "CannotConvertNFTsInTransmission"
  let b ← w.bal.payFee c.ed who w.nft.capsuleFee
  let w := w.putBal b
  let w := w.putNft n { d with st := { d.st with capsule := true, syncCapsule := true } }
  pure { w with nft := { w.nft with capsuleData := w.nft.capsuleData.insert n data } }

/-- `create_nft`, nft/src/lib.rs 461-473 -/
def createNft (w : World) (who : AccountId) (data : Data) (royalty : Permill)
    (coll : Option CollId) (soulbound : Bool) : Except Err World :=
  createHelper c w who data royalty coll soulbound

/-- `position(|y| *y == n)` then `swap_remove(index)`: the last element takes the removed
element's place -/
def swapRemove (l : List NFTId) (n : NFTId) : List NFTId :=
  match l.getLast? with
  | none => l
  | some z => if z = n ∧ ¬ n ∈ l.dropLast then l.dropLast else l.dropLast.replace n z

/-- removal from the collection, nft/src/lib.rs 513-526 -/
def dropFromColl (w : World) (n : NFTId) : Option CollId → Except Err World
  | none => pure w
  | some k => do
    let col ← getOr (w.nft.colls.get k) "CollectionNotFound"
    require (n ∈ col.nfts) "NFTNotFoundInCollection"
    pure { w with nft := { w.nft with
      colls := w.nft.colls.insert k { col with nfts := swapRemove col.nfts n } } }

/-- `burn_nft`, nft/src/lib.rs 501-548 -/
def burnNft (w : World) (who : AccountId) (n : NFTId) : Except Err World := do
  let d ← getOr (w.nfts.get n) "NFTNotFound"
  require (d.owner = who) "NotTheNFTOwner"
  require (d.st.listed = false) "CannotBurnListedNFTs"
  require (d.st.delegated = false) "CannotBurnDelegatedNFTs"
  require (d.st.rented = false) "CannotBurnRentedNFTs"
  require (d.st.transmission = false) "CannotBurnNFTsInTransmission"
  let w ← dropFromColl w n d.coll
  pure { w with
    nfts := w.nfts.erase n
    nft := { w.nft with
      secretData := if d.st.secret then w.nft.secretData.erase n else w.nft.secretData
      secretShards := if d.st.secret ∧ d.st.syncSecret then w.nft.secretShards.erase n
        else w.nft.secretShards
      capsuleData := if d.st.capsule then w.nft.capsuleData.erase n else w.nft.capsuleData
      capsuleShards := if d.st.capsule ∧ d.st.syncCapsule then w.nft.capsuleShards.erase n
        else w.nft.capsuleShards } }

/-- `transfer_nft`, nft/src/lib.rs 554-592 -/
def transferNft (w : World) (who : AccountId) (n : NFTId) (recipient : AccountId) :
    Except Err World := do
  let d ← getOr (w.nfts.get n) "NFTNotFound"
  require (d.owner = who) "NotTheNFTOwner"
  require (d.owner ≠ recipient) "CannotTransferNFTsToYourself"
  require (d.st.listed = false) "CannotTransferListedNFTs"
  require (d.st.delegated = false) "CannotTransferDelegatedNFTs"
  require (¬ (d.st.soulbound = true ∧ d.creator ≠ d.owner)) "CannotTransferNotCreatedSoulboundNFTs"
  require (d.st.syncSecret = false) "CannotTransferNotSyncedSecretNFTs"
  require (d.st.rented = false) "CannotTransferRentedNFTs"
  require (d.st.syncCapsule = false) "CannotTransferNotSyncedCapsules"
  require (d.st.transmission = false) "CannotTransferNFTsInTransmission"
  pure (w.putNft n { d with owner := recipient })

/-- `delegate_nft`, nft/src/lib.rs 598-639 -/
def delegateNft (w : World) (who : AccountId) (n : NFTId) (recipient : Option AccountId) :
    Except Err World := do
  let r := recipient.getD who
  let d ← getOr (w.nfts.get n) "NFTNotFound"
  require (d.owner = who) "NotTheNFTOwner"
  require (d.st.listed = false) "CannotDelegateListedNFTs"
  require (d.st.rented = false) "CannotDelegateRentedNFTs"
  require (d.st.syncSecret = false) "CannotDelegateSyncingNFTs"
  require (d.st.syncCapsule = false) "CannotDelegateSyncingCapsules"
  require (d.st.transmission = false) "CannotDelegateNFTsInTransmission"
  let w := w.putNft n { d with st := { d.st with delegated := decide (r ≠ who) } }
  pure { w with nft := { w.nft with
    deleg := w.nft.deleg.set n (if r ≠ who then some r else none) } }

/-- `set_royalty`, nft/src/lib.rs 645-681 -/
def setRoyalty (w : World) (who : AccountId) (n : NFTId) (royalty : Permill) :
    Except Err World := do
  let d ← getOr (w.nfts.get n) "NFTNotFound"
  require (d.owner = who) "NotTheNFTOwner"
  require (d.creator = who) "NotTheNFTCreator"
  require (d.st.listed = false) "CannotSetRoyaltyForListedNFTs"
  require (d.st.delegated = false) "CannotSetRoyaltyForDelegatedNFTs"
  require (d.st.rented = false) "CannotSetRoyaltyForRentedNFTs"
  require (d.st.syncSecret = false) "CannotSetRoyaltyForSyncingNFTs"
  require (d.st.syncCapsule = false) "CannotSetRoyaltyForSyncingCapsules"
  require (d.st.transmission = false) "CannotSetRoyaltyForNFTsInTransmission"
  pure (w.putNft n { d with royalty := royalty })

/-- `set_nft_mint_fee` (root), nft/src/lib.rs 686-697 -/
def setMintFee (w : World) (fee : Balance) : World := { w with nft := { w.nft with fee := fee } }

/-- `set_secret_nft_mint_fee` (root), nft/src/lib.rs 1022-1033 -/
def setSecretFee (w : World) (fee : Balance) : World :=
  { w with nft := { w.nft with secretFee := fee } }

/-- `set_capsule_mint_fee` (root), nft/src/lib.rs 1179-1190 -/
def setCapsuleFee (w : World) (fee : Balance) : World :=
  { w with nft := { w.nft with capsuleFee := fee } }

/-- `create_collection`, nft/src/lib.rs 703-729, with `get_next_collection_id` 1446-1454 -/
def createColl (w : World) (who : AccountId) (data : Data) (limit : Option Nat) :
    Except Err World := do
  require (∀ l ∈ limit, l ≤ c.collLimit) "CollectionLimitExceededMaximumAllowed"
  let next ← expectSome (if w.nft.nextColl + 1 ≤ U32MAX then some (w.nft.nextColl + 1) else none)
    "If u32 is not enough we should crash for safety; qed."
  pure { w with nft := { w.nft with
    nextColl := next
    colls := w.nft.colls.insert w.nft.nextColl
      { owner := who, offchain := data, nfts := [], limit := limit, closed := false } } }

/-- `burn_collection`, nft/src/lib.rs 737-755 -/
def burnColl (w : World) (who : AccountId) (k : CollId) : Except Err World := do
  let col ← getOr (w.nft.colls.get k) "CollectionNotFound"
  require (col.owner = who) "NotTheCollectionOwner"
  require (col.nfts = []) "CollectionIsNotEmpty"
  pure { w with nft := { w.nft with colls := w.nft.colls.erase k } }

/-- `close_collection`, nft/src/lib.rs 762-779 -/
def closeColl (w : World) (who : AccountId) (k : CollId) : Except Err World := do
  let col ← getOr (w.nft.colls.get k) "CollectionNotFound"
  require (col.owner = who) "NotTheCollectionOwner"
  pure { w with nft := { w.nft with colls := w.nft.colls.insert k { col with closed := true } } }

/-- `limit_collection`, nft/src/lib.rs 786-818 -/
def limitColl (w : World) (who : AccountId) (k : CollId) (limit : Nat) : Except Err World := do
  let col ← getOr (w.nft.colls.get k) "CollectionNotFound"
  require (col.owner = who) "NotTheCollectionOwner"
  require (col.limit = none) "CollectionLimitAlreadySet"
  require (col.closed = false) "CollectionIsClosed"
  require (col.nfts.length ≤ limit) "CollectionHasTooManyNFTs"
  require (limit ≤ c.collLimit) "CollectionLimitExceededMaximumAllowed"
  pure { w with nft := { w.nft with
    colls := w.nft.colls.insert k { col with limit := some limit } } }

/-- `add_nft_to_collection`, nft/src/lib.rs 836-878 -/
def addToColl (w : World) (who : AccountId) (n : NFTId) (k : CollId) : Except Err World := do
  let col ← getOr (w.nft.colls.get k) "CollectionNotFound"
  require (col.owner = who) "NotTheCollectionOwner"
  require (col.closed = false) "CollectionIsClosed"
  require (col.nfts.length < collCap c col) "CollectionHasReachedLimit"
  let d ← getOr (w.nfts.get n) "NFTNotFound"
  require (d.owner = who) "NotTheNFTOwner"
  require (d.coll = none) "NFTBelongToACollection"
  require (col.nfts.length < c.collLimit) "CannotAddMoreNFTsToCollection"
  let w := w.putNft n { d with coll := some k }
  pure { w with nft := { w.nft with
    colls := w.nft.colls.insert k { col with nfts := col.nfts ++ [n] } } }

/-- `add_secret`, nft/src/lib.rs 884-896 -/
def addSecret (w : World) (who : AccountId) (n : NFTId) (data : Data) : Except Err World :=
  addSecretHelper c w who n data

/-- `create_secret_nft`, nft/src/lib.rs 916-946.  The sum of the fees is a plain `u128` addition
(wraps in release builds). -/
def createSecret (w : World) (who : AccountId) (data secret : Data) (royalty : Permill)
    (coll : Option CollId) (soulbound : Bool) : Except Err World := do
  require (w.bal.balanceCheck who ((w.nft.fee + w.nft.secretFee) % (U128MAX + 1)))
    "InsufficientBalance"
  let w ← createHelper c w who data royalty coll soulbound
  addSecretHelper c w who (w.nft.nextNft - 1) secret

/-- `convert_to_capsule`, nft/src/lib.rs 1037-1049 -/
def toCapsule (w : World) (who : AccountId) (n : NFTId) (data : Data) : Except Err World :=
  toCapsuleHelper c w who n data

/-- `create_capsule`, nft/src/lib.rs 1069-1099 -/
def createCapsule (w : World) (who : AccountId) (data capsule : Data) (royalty : Permill)
    (coll : Option CollId) (soulbound : Bool) : Except Err World := do
  require (w.bal.balanceCheck who ((w.nft.fee + w.nft.capsuleFee) % (U128MAX + 1)))
    "InsufficientBalance"
  let w ← createHelper c w who data royalty coll soulbound
  toCapsuleHelper c w who (w.nft.nextNft - 1) capsule

/-- `TEEExt::ensure_enclave`, tee/src/lib.rs 1588-1596 -/
def ensureEnclave (w : World) (who : AccountId) : Option (ClusterId × AccountId) := do
  let op ← w.tee.accOp.get who
  let cl ← w.tee.opCluster.get op
  pure (cl, op)

/-- The shared part of `add_secret_shard` and `add_capsule_shard`, nft/src/lib.rs 968-1001 and
1214-1247: the new shard list (`none` when the sync is finished).
`shards[0]` panics on an empty list.  The errors are those of `add_secret_shard`. -/
def pushShard (cur : Option (List (ClusterId × AccountId))) (s : ClusterId × AccountId) :
    Except Err (Option (List (ClusterId × AccountId))) :=
  match cur with
  | some l => do
    let h ← expectSome l.head? "index out of bounds"
    require (s.1 = h.1) "ShareNotFromValidCluster"
    require (l.length < c.shards) "NFTHasReceivedAllShards"
    require (s ∉ l) "EnclaveAlreadyAddedShard"
    pure (if (l ++ [s]).length = c.shards then none else some (l ++ [s]))
  | none => do
    require (0 < c.shards) "NFTHasReceivedAllShards"
    pure (if [s].length = c.shards then none else some [s])

/-- `add_secret_shard`, nft/src/lib.rs 952-1017 -/
def addSecretShard (w : World) (who : AccountId) (n : NFTId) : Except Err World := do
  let s ← getOr (ensureEnclave w who) "NotARegisteredEnclave"
  let d ← getOr (w.nfts.get n) "NFTNotFound"
  require (d.st.secret = true) "NFTIsNotSecret"
  require (d.st.syncSecret = true) "NFTAlreadySynced"
  let l ← pushShard c (w.nft.secretShards.get n) s
  let w := w.putNft n { d with st := { d.st with syncSecret := l.isSome } }
  pure { w with nft := { w.nft with secretShards := w.nft.secretShards.set n l } }

/-- `add_capsule_shard`, nft/src/lib.rs 1195-1263 -/
def addCapsuleShard (w : World) (who : AccountId) (n : NFTId) : Except Err World := do
  let s ← getOr (ensureEnclave w who) "NotARegisteredEnclave"
  let d ← getOr (w.nfts.get n) "NFTNotFound"
  require (d.st.capsule = true) "NFTIsNotCapsule"
  require (d.st.syncCapsule = true) "NFTAlreadySynced"
  let l ← mapErr (fun e => if e = "NFTHasReceivedAllShards" then "CapsuleHasReceivedAllShards" else e)
    (pushShard c (w.nft.capsuleShards.get n) s)
  let w := w.putNft n { d with st := { d.st with syncCapsule := l.isSome } }
  pure { w with nft := { w.nft with capsuleShards := w.nft.capsuleShards.set n l } }

/-- `set_capsule_offchaindata`, nft/src/lib.rs 1140-1174 -/
def setCapsuleData (w : World) (who : AccountId) (n : NFTId) (data : Data) : Except Err World := do
  let d ← getOr (w.nfts.get n) "NFTNotFound"
  require (d.owner = who) "NotTheNFTOwner"
  require (d.st.capsule = true) "NFTIsNotCapsule"
  require (d.st.listed = false) "CannotSetOffchainDataForListedNFTs"
  require (d.st.rented = false) "CannotSetOffchainDataForRentedNFTs"
  require (d.st.delegated = false) "CannotSetOffchainDataForDelegatedNFTs"
  require (d.st.syncSecret = false) "CannotSetOffchainDataForSyncingNFTs"
  require (d.st.syncCapsule = false) "CannotSetOffchainDataForSyncingCapsules"
  pure { w with nft := { w.nft with capsuleData := w.nft.capsuleData.insert n data } }

/-- `notify_enclave_key_update`, nft/src/lib.rs 1268-1302 -/
def notifyKey (w : World) (who : AccountId) (n : NFTId) : Except Err World := do
  let d ← getOr (w.nfts.get n) "NFTNotFound"
  require (d.owner = who) "NotTheNFTOwner"
  require (d.st.capsule = true) "NFTIsNotCapsule"
  require (d.st.listed = false) "CannotChangeKeyForListedNFTs"
  require (d.st.rented = false) "CannotChangeKeyForRentedNFTs"
  require (d.st.delegated = false) "CannotChangeKeyForDelegatedNFTs"
  require (d.st.syncSecret = false) "CannotChangeKeyForSyncingNFTs"
  require (d.st.syncCapsule = false) "CannotChangeKeyForSyncingCapsules"
  require (d.st.transmission = false) "CannotChangeKeyForNFTsInTransmission"
  pure (w.putNft n { d with st := { d.st with syncCapsule := true } })

/-- `set_collection_offchaindata`, nft/src/lib.rs 1307-1329 -/
def setCollData (w : World) (who : AccountId) (k : CollId) (data : Data) : Except Err World := do
  let col ← getOr (w.nft.colls.get k) "CollectionNotFound"
  require (col.owner = who) "NotTheCollectionOwner"
  pure { w with nft := { w.nft with colls := w.nft.colls.insert k { col with offchain := data } } }

/-- Signed dispatchables of the NFT pallet. -/
inductive Call where
  | createNft (data : Data) (royalty : Permill) (coll : Option CollId) (soulbound : Bool)
  | burnNft (n : NFTId)
  | transferNft (n : NFTId) (recipient : AccountId)
  | delegateNft (n : NFTId) (recipient : Option AccountId)
  | setRoyalty (n : NFTId) (royalty : Permill)
  | createColl (data : Data) (limit : Option Nat)
  | burnColl (k : CollId)
  | closeColl (k : CollId)
  | limitColl (k : CollId) (limit : Nat)
  | addToColl (n : NFTId) (k : CollId)
  | addSecret (n : NFTId) (data : Data)
  | createSecret (data secret : Data) (royalty : Permill) (coll : Option CollId) (soulbound : Bool)
  | addSecretShard (n : NFTId)
  | toCapsule (n : NFTId) (data : Data)
  | createCapsule (data capsule : Data) (royalty : Permill) (coll : Option CollId)
      (soulbound : Bool)
  | setCapsuleData (n : NFTId) (data : Data)
  | addCapsuleShard (n : NFTId)
  | notifyKey (n : NFTId)
  | setCollData (k : CollId) (data : Data)

/-- dispatch of the signed calls -/
def call (w : World) (who : AccountId) : Call → Except Err World
  | .createNft data r k s => createNft c w who data r k s
  | .burnNft n => burnNft w who n
  | .transferNft n r => transferNft w who n r
  | .delegateNft n r => delegateNft w who n r
  | .setRoyalty n r => setRoyalty w who n r
  | .createColl data l => createColl c w who data l
  | .burnColl k => burnColl w who k
  | .closeColl k => closeColl w who k
  | .limitColl k l => limitColl c w who k l
  | .addToColl n k => addToColl c w who n k
  | .addSecret n data => addSecret c w who n data
  | .createSecret data s r k sb => createSecret c w who data s r k sb
  | .addSecretShard n => addSecretShard c w who n
  | .toCapsule n data => toCapsule c w who n data
  | .createCapsule data s r k sb => createCapsule c w who data s r k sb
  | .setCapsuleData n data => setCapsuleData w who n data
  | .addCapsuleShard n => addCapsuleShard c w who n
  | .notifyKey n => notifyKey w who n
  | .setCollData k data => setCollData w who k data

end NftM
