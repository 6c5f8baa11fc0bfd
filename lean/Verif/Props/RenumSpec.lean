import Verif.Props.SymSpec
/-
Other numbers for NFTs, collections, marketplaces, clusters, slots and chains, everywhere in a state, a call or an operation.
-/
namespace Spec

/-- A renumbering: other numbers, no two of the same kind becoming equal. -/
structure Num where
  n : NFTId → NFTId
  k : CollId → CollId
  m : MktId → MktId
  cl : ClusterId → ClusterId
  slot : SlotId → SlotId
  chain : ChainId → ChainId
  nInj : ∀ a b, n a = n b → a = b
  kInj : ∀ a b, k a = k b → a = b
  mInj : ∀ a b, m a = m b → a = b
  clInj : ∀ a b, cl a = cl b → a = b
  slotInj : ∀ a b, slot a = slot b → a = b
  chainInj : ∀ a b, chain a = chain b → a = b

namespace Num
variable (ρ : Num)

/-- numbers that are not yet given away are kept -/
structure Keeps (w : World) : Prop where
  n : ∀ x, w.nft.nextNft ≤ x → ρ.n x = x
  k : ∀ x, w.nft.nextColl ≤ x → ρ.k x = x
  m : ∀ x, w.mkt.next ≤ x → ρ.m x = x
  cl : ∀ x, w.tee.nextCluster ≤ x → ρ.cl x = x

/-! ## configuration -/

/-- the number of the own chain -/
def cfg (c : Cfg) : Cfg := { c with chain := ρ.chain c.chain }

/-! ## state -/

/-- an NFT -/
def nft (d : NFTData) : NFTData := { d with coll := d.coll.map ρ.k }

/-- a collection -/
def coll (x : Coll) : Coll := { x with nfts := x.nfts.map ρ.n }

/-- a shard's sender -/
def shard (x : ClusterId × AccountId) : ClusterId × AccountId := (ρ.cl x.1, x.2)

/-- the NFT pallet -/
def nftSt (s : NftSt) : NftSt :=
  { s with
    colls := s.colls.mapk ρ.k ρ.kInj ρ.coll, deleg := s.deleg.mapk ρ.n ρ.nInj id
    secretData := s.secretData.mapk ρ.n ρ.nInj id, secretShards := s.secretShards.mapk ρ.n ρ.nInj (List.map ρ.shard)
    capsuleData := s.capsuleData.mapk ρ.n ρ.nInj id, capsuleShards := s.capsuleShards.mapk ρ.n ρ.nInj (List.map ρ.shard) }

/-- a marketplace -/
def mkt (x : Mkt) : Mkt := { x with colls := x.colls.map (List.map ρ.k) }

/-- a listing -/
def sale (s : Sale) : Sale := { s with mkt := ρ.m s.mkt }

/-- the marketplace pallet -/
def mktSt (s : MktSt) : MktSt := { s with mkts := s.mkts.mapk ρ.m ρ.mInj ρ.mkt, sales := s.sales.mapk ρ.n ρ.nInj ρ.sale }

/-- an auction -/
def auction (a : Auction) : Auction := { a with mkt := ρ.m a.mkt }

/-- a schedule -/
def queue (q : Queue) : Queue := q.map fun x => (ρ.n x.1, x.2)

/-- the auction pallet -/
def aucSt (s : AucSt) : AucSt :=
  { s with auctions := s.auctions.mapk ρ.n ρ.nInj ρ.auction, deadlines := ρ.queue s.deadlines, comm := s.comm.mapk ρ.n ρ.nInj id }

/-- a rent -/
def rentFee : RentFee → RentFee
  | .tokens x => .tokens x
  | .nft n => .nft (ρ.n n)

/-- a deposit -/
def cancelFee : CancelFee → CancelFee
  | .none => .none
  | .fixed x => .fixed x
  | .flexible x => .flexible x
  | .nft n => .nft (ρ.n n)

/-- a rent contract -/
def contract (x : Contract) : Contract :=
  { x with rentFee := ρ.rentFee x.rentFee, renterFee := ρ.cancelFee x.renterFee, renteeFee := ρ.cancelFee x.renteeFee }

/-- the rent pallet -/
def rentSt (s : RentSt) : RentSt :=
  { s with
    contracts := s.contracts.mapk ρ.n ρ.nInj ρ.contract, offers := s.offers.mapk ρ.n ρ.nInj id
    fixedQ := ρ.queue s.fixedQ, subQ := ρ.queue s.subQ, availQ := ρ.queue s.availQ }

/-- the transmission pallet -/
def trSt (s : TrSt) : TrSt :=
  { s with trans := s.trans.mapk ρ.n ρ.nInj id, consents := s.consents.mapk ρ.n ρ.nInj id, queue := ρ.queue s.queue }

/-- an operator in a cluster -/
def member (x : AccountId × SlotId) : AccountId × SlotId := (x.1, ρ.slot x.2)

/-- a cluster -/
def cluster (x : Cluster) : Cluster := { x with enclaves := x.enclaves.map ρ.member }

/-- the TEE pallet -/
def teeSt (s : TeeSt) : TeeSt :=
  { s with clusters := s.clusters.mapk ρ.cl ρ.clInj ρ.cluster, opCluster := s.opCluster.mapv ρ.cl }

/-- the key of a proposal -/
def chainTransfer (x : ChainId × Transfer) : ChainId × Transfer := (ρ.chain x.1, x.2)

theorem chainTransfer_inj : ∀ x y, ρ.chainTransfer x = ρ.chainTransfer y → x = y := by
  rintro ⟨x, t⟩ ⟨y, t'⟩ h
  simp only [chainTransfer, Prod.mk.injEq] at h
  rw [ρ.chainInj _ _ h.1, h.2]

/-- the bridge pallet -/
def brSt (s : BrSt) : BrSt :=
  { s with
    nonces := s.nonces.mapk ρ.chain ρ.chainInj id
    votes := s.votes.mapk ρ.chainTransfer ρ.chainTransfer_inj id }

/-- an event -/
def ev : Ev → Ev
  | .voted k t a => .voted (ρ.chain k) t a
  | .approved k t => .approved (ρ.chain k) t
  | .deposited k n r v => .deposited (ρ.chain k) n r v
  | .protocolSet n => .protocolSet (ρ.n n)
  | .consentAdded n a => .consentAdded (ρ.n n) a
  | .transmitted n => .transmitted (ρ.n n)
  | .transmissionError n => .transmissionError (ρ.n n)
  | .rewardClaimed e a v => .rewardClaimed e a v
  | .mandated b => .mandated b
  | .auctionCompleted n a v => .auctionCompleted (ρ.n n) a v
  | .offerMade n a => .offerMade (ρ.n n) a
  | .contractCreated n b => .contractCreated (ρ.n n) b
  | .reported e a r s => .reported e a r s
  | .feesTaken f => .feesTaken f
  | .eraPaid f x => .eraPaid f x

/-- the whole state -/
def world (w : World) : World :=
  { w with
    nfts := w.nfts.mapk ρ.n ρ.nInj ρ.nft
    nft := ρ.nftSt w.nft
    mkt := ρ.mktSt w.mkt
    auc := ρ.aucSt w.auc
    rent := ρ.rentSt w.rent
    tr := ρ.trSt w.tr
    tee := ρ.teeSt w.tee
    br := ρ.brSt w.br
    evs := w.evs.map ρ.ev }

/-! ## calls -/

def nftCall : NftM.Call → NftM.Call
  | .createNft d r k s => .createNft d r (k.map ρ.k) s
  | .burnNft n => .burnNft (ρ.n n)
  | .transferNft n a => .transferNft (ρ.n n) a
  | .delegateNft n a => .delegateNft (ρ.n n) a
  | .setRoyalty n r => .setRoyalty (ρ.n n) r
  | .createColl d l => .createColl d l
  | .burnColl k => .burnColl (ρ.k k)
  | .closeColl k => .closeColl (ρ.k k)
  | .limitColl k l => .limitColl (ρ.k k) l
  | .addToColl n k => .addToColl (ρ.n n) (ρ.k k)
  | .addSecret n d => .addSecret (ρ.n n) d
  | .createSecret d s r k sb => .createSecret d s r (k.map ρ.k) sb
  | .addSecretShard n => .addSecretShard (ρ.n n)
  | .toCapsule n d => .toCapsule (ρ.n n) d
  | .createCapsule d s r k sb => .createCapsule d s r (k.map ρ.k) sb
  | .setCapsuleData n d => .setCapsuleData (ρ.n n) d
  | .addCapsuleShard n => .addCapsuleShard (ρ.n n)
  | .notifyKey n => .notifyKey (ρ.n n)
  | .setCollData k d => .setCollData (ρ.k k) d

def mktCall : MktM.Call → MktM.Call
  | .create k => .create k
  | .setOwner m a => .setOwner (ρ.m m) a
  | .setKind m k => .setKind (ρ.m m) k
  | .setConfig m f l a o k => .setConfig (ρ.m m) f l a o (Ren.configOp (List.map ρ.k) k)
  | .list n m p => .list (ρ.n n) (ρ.m m) p
  | .unlist n => .unlist (ρ.n n)
  | .buy n p => .buy (ρ.n n) p

def aucCall : AucM.Call → AucM.Call
  | .create n m s e p b => .create (ρ.n n) (ρ.m m) s e p b
  | .cancel n => .cancel (ρ.n n)
  | .end_ n => .end_ (ρ.n n)
  | .addBid n v => .addBid (ρ.n n) v
  | .removeBid n => .removeBid (ρ.n n)
  | .buyItNow n p => .buyItNow (ρ.n n) p
  | .claim => .claim

def rentCall : RentM.Call → RentM.Call
  | .create n d a r f x y => .create (ρ.n n) d a r (ρ.rentFee f) (ρ.cancelFee x) (ρ.cancelFee y)
  | .cancel n => .cancel (ρ.n n)
  | .revoke n => .revoke (ρ.n n)
  | .rent n b => .rent (ρ.n n) b
  | .makeOffer n b => .makeOffer (ρ.n n) b
  | .acceptOffer n a => .acceptOffer (ρ.n n) a
  | .retractOffer n => .retractOffer (ρ.n n)
  | .changeTerms n f p m ch => .changeTerms (ρ.n n) f p m ch
  | .acceptTerms n f p m ch => .acceptTerms (ρ.n n) f p m ch

def trCall : TrM.Call → TrM.Call
  | .set n a p k => .set (ρ.n n) a p k
  | .remove n => .remove (ρ.n n)
  | .resetTimer n b => .resetTimer (ρ.n n) b
  | .addConsent n => .addConsent (ρ.n n)

def teeRoot : TeeM.RootCall → TeeM.RootCall
  | .assign a k s => .assign a (ρ.cl k) (ρ.slot s)
  | .updateCluster k t => .updateCluster (ρ.cl k) t
  | .removeCluster k => .removeCluster (ρ.cl k)
  | x => x

def brCall : BrM.Call → BrM.Call
  | .vote k t => .vote (ρ.chain k) t
  | .deposit v r k => .deposit v r (ρ.chain k)

def extCall : BrM.ExtCall → BrM.ExtCall
  | .addChain k => .addChain (ρ.chain k)
  | .setNonce k n => .setNonce (ρ.chain k) n
  | x => x

def rootCall : RootCall → RootCall
  | .tee r => .tee (ρ.teeRoot r)
  | x => x

def call : Call → Call
  | .nft x => .nft (ρ.nftCall x)
  | .mkt x => .mkt (ρ.mktCall x)
  | .auc x => .auc (ρ.aucCall x)
  | .rent x => .rent (ρ.rentCall x)
  | .tr x => .tr (ρ.trCall x)
  | .tee x => .tee x
  | .br x => .br (ρ.brCall x)
  | .bal a v l => .bal a v l
  | .root x => .root (ρ.rootCall x)
  | .ext x => .ext (ρ.extCall x)
  | .mandate x => .mandate (call x)

def op : Op → Op
  | .call o x => .call o (ρ.call x)
  | o => o

end Num

/-- exchange of two numbers -/
def swapNat (a b x : Nat) : Nat := if x = a then b else if x = b then a else x

theorem swapNat_inj (a b : Nat) : ∀ x y, swapNat a b x = swapNat a b y → x = y := by
  intro x y h
  unfold swapNat at h
  split at h <;> split at h <;> (try split at h) <;> (try split at h) <;> simp_all

/-- two NFTs exchange their numbers, two collections, two marketplaces, two clusters -/
def swapNums (n n' : NFTId) (k k' : CollId) (m m' : MktId) (cl cl' : ClusterId) : Num where
  n := swapNat n n'
  k := swapNat k k'
  m := swapNat m m'
  cl := swapNat cl cl'
  slot := id
  chain := id
  nInj := swapNat_inj _ _
  kInj := swapNat_inj _ _
  mInj := swapNat_inj _ _
  clInj := swapNat_inj _ _
  slotInj _ _ h := h
  chainInj _ _ h := h

end Spec
