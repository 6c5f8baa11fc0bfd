import Verif.Model.Step
/-
The functions pallets offer to other pallets, beyond those the rest of the model uses.  Not modelled: functions for benchmarks
only (`create_filled_collection`, `fill_unregistration_list`, `bulk_insert`, the `fill_…` helpers).
-/
namespace Ext

/-- `NFTExt::get_nft`, nft/src/lib.rs 1382-1384 -/
def getNft (w : World) (n : NFTId) : Option NFTData := w.nfts.get n

/-- `NFTExt::exists`, nft/src/lib.rs 1430-1432 -/
def exists_ (w : World) (n : NFTId) : Bool := (w.nfts.get n).isSome

/-- `NFTExt::set_nft`, nft/src/lib.rs 1386-1393 -/
def setNft (w : World) (n : NFTId) (d : NFTData) : World := { w with nfts := w.nfts.insert n d }

/-- `NFTExt::set_nft_state`, nft/src/lib.rs 1340-1349 -/
def setNftState (w : World) (n : NFTId) (s : NFTState) : Except Err World :=
  match w.nfts.get n with
  | none => .error (.e "NFTNotFound")
  | some d => .ok { w with nfts := w.nfts.insert n { d with st := s } }

/-- `NFTExt::create_nft`, nft/src/lib.rs 1395-1417 -/
def createNft (w : World) (owner : AccountId) (data : Data) (royalty : Permill) (coll : Option CollId) (soulbound : Bool) :
    Except Err (NFTId × World) := do
  let st : NFTState := { soulbound := soulbound }
  let nft : NFTData := { owner := owner, creator := owner, offchain := data, royalty := royalty, st := st, coll := coll }
  let (id, w) ← NftM.nextNftId w
  pure (id, { w with nfts := w.nfts.insert id nft })

/-- `NFTExt::mutate_nft`, nft/src/lib.rs 1419-1428: `StorageMap::try_mutate`.  The closure gets what is stored (or `None`) and
leaves what is to be stored; a value is written, `None` deletes, an error leaves the storage as it is. -/
def mutateNft {E R : Type} (w : World) (n : NFTId) (f : Option NFTData → Except E R × Option NFTData) : Except E R × World :=
  match f (w.nfts.get n) with
  | (.ok r, some d) => (.ok r, { w with nfts := w.nfts.insert n d })
  | (.ok r, none) => (.ok r, { w with nfts := w.nfts.erase n })
  | (.error e, _) => (.error e, w)

/-- `MarketplaceExt::get_marketplace`, marketplace/src/lib.rs 571-583 -/
def getMkt (w : World) (k : MktId) : Option Mkt := w.mkt.mkts.get k

/-- `MarketplaceExt::set_marketplace`, marketplace/src/lib.rs 585-598 -/
def setMkt (w : World) (k : MktId) (m : Mkt) : World := { w with mkt := { w.mkt with mkts := w.mkt.mkts.insert k m } }

/-- `TEEExt::register_and_assign_enclave`, tee/src/lib.rs 1599-1607 -/
def registerEnclave (w : World) (operator enclave : AccountId) (cluster : Option ClusterId) : World :=
  { w with tee := { w.tee with
    accOp := w.tee.accOp.insert enclave operator
    opCluster := w.tee.opCluster.insert operator (cluster.getD 0) } }

end Ext
