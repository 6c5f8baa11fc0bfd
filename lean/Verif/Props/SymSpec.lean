import Verif.Model.Step
/-
Renaming accounts and replacing off-chain data, everywhere in a state, a call or an operation.
-/
namespace FMap
variable {K V K' V' : Type}

/-- change all values -/
def mapv (g : V → V') (m : FMap K V) : FMap K V' :=
  ⟨m.l.map fun x => (x.1, g x.2), by rw [List.map_map]; exact m.nd⟩

/-- change all keys, no two of which may become equal, and all values -/
def mapk (f : K → K') (hf : ∀ a b, f a = f b → a = b) (g : V → V') (m : FMap K V) : FMap K' V' :=
  ⟨m.l.map fun x => (f x.1, g x.2), by
    have h : m.l.map (Prod.fst ∘ fun x => (f x.1, g x.2)) = (m.l.map Prod.fst).map f := by simp
    rw [List.map_map, h]
    exact List.Pairwise.map _ (fun a b hab e => hab (hf a b e)) m.nd⟩

end FMap

namespace Spec

/-- A renaming: other names for accounts, no two of which get the same, and other contents of byte strings. -/
structure Ren where
  acc : AccountId → AccountId
  inj : ∀ a b, acc a = acc b → a = b
  data : Data → Data
  empty : ∀ d, data d = [] ↔ d = []

namespace Ren
variable (ρ : Ren)

/-! ## configuration -/

/-- the accounts of the pallets are renamed, all other constants are kept -/
def cfg (c : Cfg) : Cfg :=
  { c with aucPot := ρ.acc c.aucPot, rentPot := ρ.acc c.rentPot, teePot := ρ.acc c.teePot, rewPot := ρ.acc c.rewPot }

/-! ## state -/

/-- balances -/
def bal (b : Bal) : Bal :=
  { b with free := b.free.mapk ρ.acc ρ.inj id, tee := b.tee.mapk ρ.acc ρ.inj id, other := b.other.mapk ρ.acc ρ.inj id }

/-- an NFT -/
def nft (d : NFTData) : NFTData := { d with owner := ρ.acc d.owner, creator := ρ.acc d.creator, offchain := ρ.data d.offchain }

/-- a collection -/
def coll (k : Coll) : Coll := { k with owner := ρ.acc k.owner, offchain := ρ.data k.offchain }

/-- a shard's sender -/
def shard (x : ClusterId × AccountId) : ClusterId × AccountId := (x.1, ρ.acc x.2)

/-- the NFT pallet -/
def nftSt (s : NftSt) : NftSt :=
  { s with
    colls := s.colls.mapv ρ.coll, deleg := s.deleg.mapv ρ.acc
    secretData := s.secretData.mapv ρ.data, secretShards := s.secretShards.mapv (List.map ρ.shard)
    capsuleData := s.capsuleData.mapv ρ.data, capsuleShards := s.capsuleShards.mapv (List.map ρ.shard) }

/-- a marketplace -/
def mkt (m : Mkt) : Mkt :=
  { m with owner := ρ.acc m.owner, accounts := m.accounts.map (List.map ρ.acc), offchain := m.offchain.map ρ.data }

/-- a listing -/
def sale (s : Sale) : Sale := { s with seller := ρ.acc s.seller }

/-- the marketplace pallet -/
def mktSt (s : MktSt) : MktSt := { s with mkts := s.mkts.mapv ρ.mkt, sales := s.sales.mapv ρ.sale }

/-- a bid -/
def bid (x : AccountId × Balance) : AccountId × Balance := (ρ.acc x.1, x.2)

/-- an auction -/
def auction (a : Auction) : Auction := { a with creator := ρ.acc a.creator, bids := a.bids.map ρ.bid }

/-- the auction pallet -/
def aucSt (s : AucSt) : AucSt :=
  { s with auctions := s.auctions.mapv ρ.auction, claims := s.claims.mapk ρ.acc ρ.inj id }

/-- who may rent -/
def acceptance : Acceptance → Acceptance
  | .auto l => .auto (l.map (List.map ρ.acc))
  | .manual l => .manual (l.map (List.map ρ.acc))

/-- a rent contract -/
def contract (k : Contract) : Contract :=
  { k with renter := ρ.acc k.renter, rentee := k.rentee.map ρ.acc, acceptance := ρ.acceptance k.acceptance }

/-- the rent pallet -/
def rentSt (s : RentSt) : RentSt :=
  { s with contracts := s.contracts.mapv ρ.contract, offers := s.offers.mapv (List.map ρ.acc) }

/-- a transmission protocol -/
def protocol : Protocol → Protocol
  | .atBlock b => .atBlock b
  | .atBlockWithReset b => .atBlockWithReset b
  | .onConsent l t => .onConsent (l.map ρ.acc) t
  | .onConsentAtBlock l t b => .onConsentAtBlock (l.map ρ.acc) t b

/-- a transmission -/
def trans (t : Transmission) : Transmission :=
  { t with recipient := ρ.acc t.recipient, protocol := ρ.protocol t.protocol }

/-- the transmission pallet -/
def trSt (s : TrSt) : TrSt :=
  { s with trans := s.trans.mapv ρ.trans, consents := s.consents.mapv (List.map ρ.acc) }

/-- an enclave -/
def enclave (e : Enclave) : Enclave := ⟨ρ.acc e.addr, ρ.data e.uri⟩

/-- an operator in a cluster -/
def member (x : AccountId × SlotId) : AccountId × SlotId := (ρ.acc x.1, x.2)

/-- a cluster -/
def cluster (k : Cluster) : Cluster := { k with enclaves := k.enclaves.map ρ.member }

/-- a stake -/
def ledger (l : Ledger) : Ledger := { l with operator := ρ.acc l.operator }

/-- a report -/
def report (r : Report) : Report := { r with by_ := ρ.acc r.by_ }

/-- a metrics server -/
def server (s : MetricsServer) : MetricsServer := { s with addr := ρ.acc s.addr }

/-- an era and an account -/
def eraAcc (x : Era × AccountId) : Era × AccountId := (x.1, ρ.acc x.2)

theorem eraAcc_inj : ∀ x y, ρ.eraAcc x = ρ.eraAcc y → x = y := by
  intro x y h
  simp only [eraAcc, Prod.mk.injEq] at h
  exact Prod.ext h.1 (ρ.inj _ _ h.2)

/-- the TEE pallet -/
def teeSt (s : TeeSt) : TeeSt :=
  { s with
    registrations := s.registrations.mapk ρ.acc ρ.inj ρ.enclave
    unregs := s.unregs.map ρ.acc
    updates := s.updates.mapk ρ.acc ρ.inj ρ.enclave
    data := s.data.mapk ρ.acc ρ.inj ρ.enclave
    accOp := s.accOp.mapk ρ.acc ρ.inj ρ.acc
    clusters := s.clusters.mapv ρ.cluster
    opCluster := s.opCluster.mapk ρ.acc ρ.inj id
    servers := s.servers.map ρ.server
    ledger := s.ledger.mapk ρ.acc ρ.inj ρ.ledger
    reports := s.reports.mapk ρ.eraAcc ρ.eraAcc_inj (List.map ρ.report)
    claimed := s.claimed.mapk ρ.eraAcc ρ.eraAcc_inj id
    assignedEra := s.assignedEra.mapk ρ.acc ρ.inj id }

/-- a transfer over the bridge -/
def transfer (t : Transfer) : Transfer := { t with recipient := ρ.acc t.recipient }

/-- the key of a proposal -/
def chainTransfer (x : ChainId × Transfer) : ChainId × Transfer := (x.1, ρ.transfer x.2)

theorem chainTransfer_inj : ∀ x y, ρ.chainTransfer x = ρ.chainTransfer y → x = y := by
  rintro ⟨x, n, r, v⟩ ⟨y, m, s, u⟩ h
  simp only [chainTransfer, transfer, Prod.mk.injEq, Transfer.mk.injEq] at h
  obtain ⟨rfl, rfl, h, rfl⟩ := h
  rw [ρ.inj _ _ h]

/-- a proposal -/
def proposal (p : Proposal) : Proposal := { p with votes := p.votes.map ρ.acc }

/-- the bridge pallet -/
def brSt (s : BrSt) : BrSt :=
  { s with
    relayers := s.relayers.map ρ.acc
    votes := s.votes.mapk ρ.chainTransfer ρ.chainTransfer_inj ρ.proposal }

/-- an event -/
def ev : Ev → Ev
  | .voted k t a => .voted k (ρ.transfer t) (ρ.acc a)
  | .approved k t => .approved k (ρ.transfer t)
  | .deposited k n r v => .deposited k n (ρ.data r) v
  | .protocolSet n => .protocolSet n
  | .consentAdded n a => .consentAdded n (ρ.acc a)
  | .transmitted n => .transmitted n
  | .transmissionError n => .transmissionError n
  | .rewardClaimed e a v => .rewardClaimed e (ρ.acc a) v
  | .mandated b => .mandated b
  | .auctionCompleted n a v => .auctionCompleted n (a.map ρ.acc) v
  | .offerMade n a => .offerMade n (ρ.acc a)
  | .contractCreated n b => .contractCreated n b
  | .reported e a r s => .reported e (ρ.acc a) (ρ.report r) (ρ.acc s)
  | .feesTaken f => .feesTaken f
  | .eraPaid f x => .eraPaid f x

/-- the whole state -/
def world (w : World) : World :=
  { w with
    bal := ρ.bal w.bal
    nfts := w.nfts.mapv ρ.nft
    nft := ρ.nftSt w.nft
    mkt := ρ.mktSt w.mkt
    auc := ρ.aucSt w.auc
    rent := ρ.rentSt w.rent
    tr := ρ.trSt w.tr
    tee := ρ.teeSt w.tee
    br := ρ.brSt w.br
    evs := w.evs.map ρ.ev }

/-! ## calls -/

def nftCall : NftM.Call → NftM.Call
  | .createNft d r k s => .createNft (ρ.data d) r k s
  | .burnNft n => .burnNft n
  | .transferNft n a => .transferNft n (ρ.acc a)
  | .delegateNft n a => .delegateNft n (a.map ρ.acc)
  | .setRoyalty n r => .setRoyalty n r
  | .createColl d l => .createColl (ρ.data d) l
  | .burnColl k => .burnColl k
  | .closeColl k => .closeColl k
  | .limitColl k l => .limitColl k l
  | .addToColl n k => .addToColl n k
  | .addSecret n d => .addSecret n (ρ.data d)
  | .createSecret d s r k sb => .createSecret (ρ.data d) (ρ.data s) r k sb
  | .addSecretShard n => .addSecretShard n
  | .toCapsule n d => .toCapsule n (ρ.data d)
  | .createCapsule d s r k sb => .createCapsule (ρ.data d) (ρ.data s) r k sb
  | .setCapsuleData n d => .setCapsuleData n (ρ.data d)
  | .addCapsuleShard n => .addCapsuleShard n
  | .notifyKey n => .notifyKey n
  | .setCollData k d => .setCollData k (ρ.data d)

/-- the new value in a configuration change -/
def configOp {α : Type} (g : α → α) : ConfigOp α → ConfigOp α
  | .noop => .noop
  | .set x => .set (g x)
  | .remove => .remove

def mktCall : MktM.Call → MktM.Call
  | .create k => .create k
  | .setOwner m a => .setOwner m (ρ.acc a)
  | .setKind m k => .setKind m k
  | .setConfig m f l a o k => .setConfig m f l (configOp (List.map ρ.acc) a) (configOp ρ.data o) k
  | .list n m p => .list n m p
  | .unlist n => .unlist n
  | .buy n p => .buy n p

def rentCall : RentM.Call → RentM.Call
  | .create n d a r f x y => .create n d (ρ.acceptance a) r f x y
  | .cancel n => .cancel n
  | .revoke n => .revoke n
  | .rent n b => .rent n b
  | .makeOffer n b => .makeOffer n b
  | .acceptOffer n a => .acceptOffer n (ρ.acc a)
  | .retractOffer n => .retractOffer n
  | .changeTerms n f p m ch => .changeTerms n f p m ch
  | .acceptTerms n f p m ch => .acceptTerms n f p m ch

def trCall : TrM.Call → TrM.Call
  | .set n a p k => .set n (ρ.acc a) (ρ.protocol p) k
  | .remove n => .remove n
  | .resetTimer n b => .resetTimer n b
  | .addConsent n => .addConsent n

def teeCall : TeeM.Call → TeeM.Call
  | .register a u => .register (ρ.acc a) (ρ.data u)
  | .unregister => .unregister
  | .update a u => .update (ρ.acc a) (ρ.data u)
  | .cancelUpdate => .cancelUpdate
  | .withdraw => .withdraw
  | .submitReport a r => .submitReport (ρ.acc a) (ρ.report r)
  | .claim e => .claim e
  | .bondExtra => .bondExtra
  | .refundExcess => .refundExcess

def teeRoot : TeeM.RootCall → TeeM.RootCall
  | .assign a k s => .assign (ρ.acc a) k s
  | .removeRegistration a => .removeRegistration (ρ.acc a)
  | .rejectUpdate a => .rejectUpdate (ρ.acc a)
  | .approveUnregister a => .approveUnregister (ρ.acc a)
  | .forceRemove a => .forceRemove (ρ.acc a)
  | .approveUpdate a => .approveUpdate (ρ.acc a)
  | .forceUpdate a b u => .forceUpdate (ρ.acc a) (b.map ρ.acc) (u.map ρ.data)
  | .createCluster t => .createCluster t
  | .updateCluster k t => .updateCluster k t
  | .removeCluster k => .removeCluster k
  | .registerServer s => .registerServer (ρ.server s)
  | .unregisterServer a => .unregisterServer (ρ.acc a)
  | .setServerType a t => .setServerType (ρ.acc a) t
  | .setWeights p => .setWeights p
  | .setStakingAmount x => .setStakingAmount x
  | .setPool x => .setPool x
  | .setAssignedEra a e => .setAssignedEra (ρ.acc a) e

def brCall : BrM.Call → BrM.Call
  | .vote k t => .vote k (ρ.transfer t)
  | .deposit v r k => .deposit v (ρ.data r) k

def extCall : BrM.ExtCall → BrM.ExtCall
  | .setThreshold t => .setThreshold t
  | .addChain k => .addChain k
  | .setRelayers l => .setRelayers (l.map ρ.acc)
  | .setNonce k n => .setNonce k n
  | .setFee x => .setFee x
  | .setExtra x => .setExtra x

def rootCall : RootCall → RootCall
  | .nftFee x => .nftFee x
  | .secretFee x => .secretFee x
  | .capsuleFee x => .capsuleFee x
  | .mktFee x => .mktFee x
  | .trFee k x => .trFee k x
  | .tee r => .tee (ρ.teeRoot r)

def call : Call → Call
  | .nft x => .nft (ρ.nftCall x)
  | .mkt x => .mkt (ρ.mktCall x)
  | .auc x => .auc x
  | .rent x => .rent (ρ.rentCall x)
  | .tr x => .tr (ρ.trCall x)
  | .tee x => .tee (ρ.teeCall x)
  | .br x => .br (ρ.brCall x)
  | .bal a v l => .bal (ρ.acc a) v l
  | .root x => .root (ρ.rootCall x)
  | .ext x => .ext (ρ.extCall x)
  | .mandate x => .mandate (call x)

def origin : Origin → Origin
  | .signed a => .signed (ρ.acc a)
  | .root => .root
  | .ext => .ext

def op : Op → Op
  | .call o x => .call (ρ.origin o) (ρ.call x)
  | .hookAuc => .hookAuc
  | .hookRent => .hookRent
  | .hookTr => .hookTr
  | .hookTee => .hookTee
  | .tick => .tick
  | .era e => .era e
  | .txFee a f t b => .txFee (ρ.acc a) f t (b.map ρ.acc)
  | .eraPayout => .eraPayout
  | .mint a v => .mint (ρ.acc a) v
  | .lock a v => .lock (ρ.acc a) v

end Ren

/-- two accounts exchange their names, byte strings are kept -/
def swap (a b : AccountId) : Ren where
  acc x := if x = a then b else if x = b then a else x
  inj x y h := by
    split at h <;> split at h <;> (try split at h) <;> (try split at h) <;> simp_all
  data := id
  empty _ := Iff.rfl

/-- byte strings emptied of everything but whether they are empty, accounts kept -/
def blind : Ren where
  acc := id
  inj _ _ h := h
  data d := if d = [] then [] else [0]
  empty d := by split <;> simp_all

end Spec
