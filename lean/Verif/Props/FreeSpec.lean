import Verif.Model.Fees
import Verif.Props.Sync
/-
Calls that cost no transaction fee, and calls that make an NFT wait for its enclaves.
-/
namespace Spec
deriving instance DecidableEq for Part

variable (c : Cfg)

/-- number of operations of a run that satisfy `f` at the moment they are made -/
def count (f : World → Op → Bool) (w : World) : List Op → Nat
  | [] => 0
  | o :: l => (if f w o then 1 else 0) + count f (step c w o) l

/-- a signed call that is accepted -/
def Accepted (w : World) : Op → Bool
  | .call (.signed a) x => (dispatch c x (.signed a) w).isOk
  | _ => false

/-- an accepted signed call that costs no transaction fee -/
def Gratis (w : World) : Op → Bool
  | .call (.signed a) x => x.free && Accepted c w (.call (.signed a) x)
  | _ => false

/-- an accepted call by which an enclave reports a share of this part of this NFT -/
def Reported (k : Part × NFTId) (w : World) : Op → Bool
  | .call (.signed a) (.nft (.addSecretShard n)) =>
    decide (k = (.secret, n)) && Accepted c w (.call (.signed a) (.nft (.addSecretShard n)))
  | .call (.signed a) (.nft (.addCapsuleShard n)) =>
    decide (k = (.capsule, n)) && Accepted c w (.call (.signed a) (.nft (.addCapsuleShard n)))
  | _ => false

/-- what a call makes wait for its enclaves: giving an NFT a secret or capsule, or asking for new shares of a capsule -/
def begins (w : World) : NftM.Call → Option (Part × NFTId)
  | .createSecret .. => some (.secret, w.nft.nextNft)
  | .addSecret n _ => some (.secret, n)
  | .createCapsule .. => some (.capsule, w.nft.nextNft)
  | .toCapsule n _ => some (.capsule, n)
  | .notifyKey n => some (.capsule, n)
  | _ => none

/-- an accepted call that makes this part of this NFT wait -/
def Begun (k : Part × NFTId) (w : World) : Op → Bool
  | .call (.signed a) (.nft x) => decide (begins w x = some k) && Accepted c w (.call (.signed a) (.nft x))
  | _ => false

/-- an accepted call that makes some NFT wait -/
def Begins (w : World) : Op → Bool
  | .call (.signed a) (.nft x) => (begins w x).isSome && Accepted c w (.call (.signed a) (.nft x))
  | _ => false

/-- is this part of this NFT waiting for its enclaves? -/
def Waiting (k : Part × NFTId) (w : World) : Bool := (w.nfts.get k.2).any k.1.waits

/-- number of shares that are still to be reported -/
def missing (k : Part × NFTId) (w : World) : Nat :=
  if Waiting k w then c.shards - (k.1.shares w k.2).length else 0

end Spec
