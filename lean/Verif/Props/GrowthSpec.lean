import Verif.Model.Step
/-
C125: how much is stored, and how much a call may add to it.
-/
namespace Spec

/-- number of entries of a storage map, each with the size of its variable part -/
def slots {K V : Type} [DecidableEq K] (f : V → Nat) (m : FMap K V) : Nat := m.sumBy fun _ v => 1 + f v

/-! Sizes of the variable parts of stored values: bytes of byte strings, elements of lists. -/

def noLen {V : Type} (_ : V) : Nat := 0
def nftLen (d : NFTData) : Nat := d.offchain.length
def collLen (k : Coll) : Nat := k.offchain.length + k.nfts.length
def mktLen (m : Mkt) : Nat := (m.accounts.getD []).length + (m.offchain.getD []).length + (m.colls.getD []).length
def aucLen (a : Auction) : Nat := a.bids.length
def accLen : Acceptance → Nat
  | .auto l => (l.getD []).length
  | .manual l => (l.getD []).length
def rentLen (k : Contract) : Nat := accLen k.acceptance
def protoLen : Protocol → Nat
  | .onConsent l _ => l.length
  | .onConsentAtBlock l _ _ => l.length
  | _ => 0
def trLen (t : Transmission) : Nat := protoLen t.protocol
def encLen (e : Enclave) : Nat := e.uri.length
def clusterLen (k : Cluster) : Nat := k.enclaves.length
def propLen (p : Proposal) : Nat := p.votes.length

/-- What the pallets store: entries of maps, elements of lists, bytes of byte strings.  Values of a fixed size that are
always there, the record of events and the accounts of the balances pallet are left out. -/
def stored (w : World) : Nat :=
  slots nftLen w.nfts +
  (slots collLen w.nft.colls + slots noLen w.nft.deleg + slots List.length w.nft.secretData +
    slots List.length w.nft.secretShards + slots List.length w.nft.capsuleData +
    slots List.length w.nft.capsuleShards) +
  (slots mktLen w.mkt.mkts + slots noLen w.mkt.sales) +
  (slots aucLen w.auc.auctions + w.auc.deadlines.length + slots noLen w.auc.claims + slots noLen w.auc.comm) +
  (slots rentLen w.rent.contracts + w.rent.fixedQ.length + w.rent.subQ.length + w.rent.availQ.length +
    slots List.length w.rent.offers) +
  (slots trLen w.tr.trans + slots List.length w.tr.consents + w.tr.queue.length) +
  (slots encLen w.tee.registrations + w.tee.unregs.length + slots encLen w.tee.updates + slots encLen w.tee.data +
    slots noLen w.tee.accOp + slots clusterLen w.tee.clusters + slots noLen w.tee.opCluster + w.tee.servers.length +
    slots noLen w.tee.ledger + slots List.length w.tee.reports + slots noLen w.tee.claimed +
    slots noLen w.tee.assignedEra) +
  (slots noLen w.br.nonces + w.br.relayers.length + slots propLen w.br.votes)

/-- bytes or elements of a field to be set -/
def setLen {α : Type} : ConfigOp (List α) → Nat
  | .set l => l.length
  | _ => 0

/-- what a call of the NFT pallet may add -/
def nftAdds : NftM.Call → Nat
  | .createNft data _ coll _ => 1 + data.length + coll.toList.length
  | .createSecret data secret _ coll _ => 2 + data.length + secret.length + coll.toList.length
  | .createCapsule data capsule _ coll _ => 2 + data.length + capsule.length + coll.toList.length
  | .delegateNft .. => 1
  | .createColl data _ => 1 + data.length
  | .addToColl .. => 1
  | .addSecret _ data => 1 + data.length
  | .toCapsule _ data => 1 + data.length
  | .addSecretShard _ => 2
  | .addCapsuleShard _ => 2
  | .setCapsuleData _ data => 1 + data.length
  | .setCollData _ data => data.length
  | _ => 0

/-- a byte string or list of accounts for a marketplace, an entry for a new one or for a listed NFT -/
def mktAdds : MktM.Call → Nat
  | .create _ => 1
  | .setConfig _ _ _ accounts offchain colls => setLen accounts + setLen offchain + setLen colls
  | .list .. => 1
  | _ => 0

/-- an auction with its place in the schedule and its commission, or a bid -/
def aucAdds : AucM.Call → Nat
  | .create .. => 3
  | .addBid .. => 1
  | _ => 0

/-- a contract with its list of accounts and its place in the schedule, or an offer -/
def rentAdds : RentM.Call → Nat
  | .create _ _ acc .. => 2 + accLen acc
  | .makeOffer .. => 2
  | _ => 0

/-- a protocol with its list of accounts and its place in the schedule, or a consent -/
def trAdds : TrM.Call → Nat
  | .set _ _ p _ => 2 + protoLen p
  | .addConsent _ => 2
  | _ => 0

def teeAdds : TeeM.Call → Nat
  | .register _ uri => 2 + uri.length
  | .unregister => 1
  | .update _ uri => 1 + uri.length
  | .submitReport .. => 2
  | .claim _ => 1
  | _ => 0

def teeRootAdds : TeeM.RootCall → Nat
  | .assign .. => 4
  | .forceUpdate _ _ uri => (uri.getD []).length
  | .createCluster _ => 1
  | .registerServer _ => 1
  | _ => 0

/-- What a call may add to the stored state: its own byte strings and lists and up to four entries. -/
def adds : Call → Nat
  | .nft x => nftAdds x
  | .mkt x => mktAdds x
  | .auc x => aucAdds x
  | .rent x => rentAdds x
  | .tr x => trAdds x
  | .tee x => teeAdds x
  | .br (.vote ..) => 2
  | .root (.tee x) => teeRootAdds x
  | .ext (.addChain _) => 1
  | .ext (.setRelayers l) => l.length
  | .mandate x => adds x
  | _ => 0

/-- Only calls add to the stored state. -/
def opAdds : Op → Nat
  | .call _ x => adds x
  | _ => 0

end Spec
