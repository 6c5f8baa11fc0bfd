import Verif.Model.Step
import Mathlib.Logic.Relation
/-
The slice of the world that concerns one NFT, and the transitions it can make.
All cross-pallet invariants about NFTs are proved on slices.
-/

/-- Everything stored under one NFT id. -/
@[ext] structure Slice where
  nft : Option NFTData
  deleg : Option AccountId
  secretData : Option Data
  secretShards : Option (List (ClusterId × AccountId))
  capsuleData : Option Data
  capsuleShards : Option (List (ClusterId × AccountId))
  sale : Option Sale
  auc : Option Auction
  con : Option Contract
  tr : Option Transmission
  cons : Option (List AccountId)
  /-- an NFT with this id has been minted before -/
  born : Bool

/-- `n < next` as a truth value -/
def below (n next : Nat) : Bool := decide (n < next)

/-- the slice of NFT `n` -/
def slice (w : World) (n : NFTId) : Slice where
  nft := w.nfts.get n
  deleg := w.nft.deleg.get n
  secretData := w.nft.secretData.get n
  secretShards := w.nft.secretShards.get n
  capsuleData := w.nft.capsuleData.get n
  capsuleShards := w.nft.capsuleShards.get n
  sale := w.mkt.sales.get n
  auc := w.auc.auctions.get n
  con := w.rent.contracts.get n
  tr := w.tr.trans.get n
  cons := w.tr.consents.get n
  born := below n w.nft.nextNft

/-- pallets other than rent -/
inductive Pal where
  | nft
  | mkt
  | auc
  | tr
deriving DecidableEq

/-- What kind of operation makes a transition. -/
inductive Kind where
  /-- a signed call of a pallet -/
  | signed (p : Pal) (a : AccountId)
  /-- a signed call of the rent pallet -/
  | rent (a : AccountId)
  | hookAuc
  | hookRent
  | hookTr
deriving DecidableEq

/-- `off m o b`: account `o` has an outstanding offer on a contract of `b` whose terms take NFT `m`
as rent or deposit. -/
def offered (w : World) (m : NFTId) (o b : AccountId) : Prop :=
  ∃ n k l, w.rent.contracts.get n = some k ∧ k.renter = b ∧ w.rent.offers.get n = some l ∧ o ∈ l ∧
    (RentM.rentNft k.rentFee = some m ∨ RentM.feeNft k.renteeFee = some m)

/-- Transitions of one NFT's slice. -/
inductive SliceStep (c : Cfg) (now : Block) (off : AccountId → AccountId → Prop) :
    Kind → Slice → Slice → Prop where
  | mint {s a data roy coll sb} : s.nft = none → s.born = false →
      SliceStep c now off (.signed .nft a) s { s with
        born := true
        nft := some {
          owner := a, creator := a, offchain := data, coll := coll, royalty := roy,
          st := { soulbound := sb } } }
  | burn {s a d} : s.nft = some d → d.owner = a → d.st.listed = false → d.st.delegated = false →
      d.st.rented = false → d.st.transmission = false →
      SliceStep c now off (.signed .nft a) s { s with
        nft := none
        secretData := if d.st.secret then none else s.secretData
        secretShards := if d.st.secret ∧ d.st.syncSecret then none else s.secretShards
        capsuleData := if d.st.capsule then none else s.capsuleData
        capsuleShards := if d.st.capsule ∧ d.st.syncCapsule then none else s.capsuleShards }
  | transfer {s a d r} : s.nft = some d → d.owner = a → d.owner ≠ r → d.st.listed = false →
      d.st.delegated = false → ¬ (d.st.soulbound = true ∧ d.creator ≠ d.owner) →
      d.st.syncSecret = false → d.st.rented = false → d.st.syncCapsule = false →
      d.st.transmission = false →
      SliceStep c now off (.signed .nft a) s { s with nft := some { d with owner := r } }
  | delegate {s a d} (r : Option AccountId) : s.nft = some d → d.owner = a →
      d.st.listed = false → d.st.rented = false → d.st.syncSecret = false →
      d.st.syncCapsule = false → d.st.transmission = false →
      SliceStep c now off (.signed .nft a) s { s with
        nft := some { d with st := { d.st with delegated := r.isSome } }
        deleg := r }
  | royalty {s a d roy} : s.nft = some d → d.owner = a → d.creator = a → d.st.listed = false →
      d.st.delegated = false → d.st.rented = false → d.st.syncSecret = false →
      d.st.syncCapsule = false → d.st.transmission = false →
      SliceStep c now off (.signed .nft a) s { s with nft := some { d with royalty := roy } }
  | addToColl {s a d} (k : CollId) : s.nft = some d → d.owner = a → d.coll = none →
      SliceStep c now off (.signed .nft a) s { s with nft := some { d with coll := some k } }
  | addSecret {s a d data} : s.nft = some d → d.owner = a → d.st.listed = false →
      d.st.secret = false → d.st.rented = false → d.st.delegated = false →
      d.st.syncCapsule = false → d.st.transmission = false →
      SliceStep c now off (.signed .nft a) s { s with
        nft := some { d with st := { d.st with secret := true, syncSecret := true } }
        secretData := some data }
  | toCapsule {s a d data} : s.nft = some d → d.owner = a → d.st.listed = false →
      d.st.capsule = false → d.st.rented = false → d.st.delegated = false →
      d.st.syncSecret = false → d.st.transmission = false →
      SliceStep c now off (.signed .nft a) s { s with
        nft := some { d with st := { d.st with capsule := true, syncCapsule := true } }
        capsuleData := some data }
  | secretShard {s a d x} (l : Option (List (ClusterId × AccountId))) : s.nft = some d →
      d.st.secret = true → d.st.syncSecret = true → NftM.pushShard c s.secretShards x = .ok l →
      SliceStep c now off (.signed .nft a) s { s with
        nft := some { d with st := { d.st with syncSecret := l.isSome } }
        secretShards := l }
  | capsuleShard {s a d x} (l : Option (List (ClusterId × AccountId))) : s.nft = some d →
      d.st.capsule = true → d.st.syncCapsule = true → NftM.pushShard c s.capsuleShards x = .ok l →
      SliceStep c now off (.signed .nft a) s { s with
        nft := some { d with st := { d.st with syncCapsule := l.isSome } }
        capsuleShards := l }
  | capsuleData {s a d data} : s.nft = some d → d.owner = a → d.st.capsule = true →
      SliceStep c now off (.signed .nft a) s { s with capsuleData := some data }
  | notifyKey {s a d} : s.nft = some d → d.owner = a → d.st.capsule = true →
      d.st.listed = false → d.st.rented = false → d.st.delegated = false →
      d.st.syncSecret = false → d.st.syncCapsule = false → d.st.transmission = false →
      SliceStep c now off (.signed .nft a) s { s with
        nft := some { d with st := { d.st with syncCapsule := true } } }
  | list {s a d m price comm} : s.nft = some d → d.owner = a → d.st.listed = false →
      d.st.delegated = false → ¬ (d.st.soulbound = true ∧ d.creator ≠ d.owner) →
      d.st.syncSecret = false → d.st.rented = false → d.st.syncCapsule = false →
      d.st.transmission = false →
      SliceStep c now off (.signed .mkt a) s { s with
        nft := some { d with st := { d.st with listed := true } }
        sale := some { seller := a, mkt := m, price := price, commission := comm } }
  | unlist {s a d x} : s.nft = some d → d.owner = a → s.sale = some x →
      SliceStep c now off (.signed .mkt a) s { s with
        nft := some { d with st := { d.st with listed := false } }
        sale := none }
  | buy {s a d x} : s.nft = some d → s.sale = some x → x.seller ≠ a →
      SliceStep c now off (.signed .mkt a) s { s with
        nft := some { d with owner := a, st := { d.st with listed := false } }
        sale := none }
  | aucCreate {s a d m start fin sp bi} : s.nft = some d → d.owner = a → d.st.listed = false →
      d.st.delegated = false → ¬ (d.st.soulbound = true ∧ d.creator ≠ d.owner) →
      d.st.syncSecret = false → d.st.rented = false → d.st.syncCapsule = false →
      d.st.transmission = false →
      SliceStep c now off (.signed .auc a) s { s with
        nft := some { d with st := { d.st with listed := true } }
        auc := some {
          creator := a, start := start, fin := fin, startPrice := sp, buyIt := bi,
          bids := [], mkt := m, extended := false } }
  | aucCancel {s a d x} : s.nft = some d → s.auc = some x → x.creator = a → ¬ x.start ≤ now →
      SliceStep c now off (.signed .auc a) s { s with
        nft := some { d with st := { d.st with listed := false } }
        auc := none }
  | aucEnd {s a d x top} : s.nft = some d → s.auc = some x → x.creator = a →
      x.extended = true → x.bids.getLast? = some top →
      SliceStep c now off (.signed .auc a) s { s with
        nft := some { d with owner := top.1, st := { d.st with listed := false } }
        auc := none }
  | aucBuy {s a d x p} : s.nft = some d → s.auc = some x → x.buyIt = some p → x.creator ≠ a →
      x.start ≤ now →
      SliceStep c now off (.signed .auc a) s { s with
        nft := some { d with owner := a, st := { d.st with listed := false } }
        auc := none }
  | aucHook {s d x top} : s.nft = some d → s.auc = some x → x.bids.getLast? = some top →
      SliceStep c now off .hookAuc s { s with
        nft := some { d with owner := top.1, st := { d.st with listed := false } }
        auc := none }
  | aucHookNone {s d x} : s.nft = some d → s.auc = some x → x.bids = [] →
      SliceStep c now off .hookAuc s { s with
        nft := some { d with st := { d.st with listed := false } }
        auc := none }
  | aucBids {s a x y} : s.auc = some x → y.creator = x.creator → (∀ b ∈ y.bids, b ∈ x.bids ∨ (b.1 = a ∧ x.creator ≠ a)) →
      SliceStep c now off (.signed .auc a) s { s with auc := some y }
  | rentCreate {s a d} (k : Contract) : s.nft = some d → d.owner = a → RentM.valid d.st = true →
      k.renter = a → k.rentee = none → k.start = none →
      SliceStep c now off (.rent a) s { s with
        nft := some { d with st := { d.st with rented := true } }
        con := some k }
  | conRent {s a k} : s.con = some k → k.rentee = none → k.renter ≠ a →
      SliceStep c now off (.rent a) s { s with
        con := some { k with rentee := some a, start := some now } }
  | conAccept {s a k} (r : AccountId) : s.con = some k → k.renter = a →
      SliceStep c now off (.rent a) s { s with
        con := some { k with rentee := some r, start := some now } }
  | conTerms {s a k} (du : Duration) (fee : RentFee) : s.con = some k →
      k.renter = a ∨ k.rentee = some a →
      SliceStep c now off (.rent a) s { s with
        con := some { k with duration := du, rentFee := fee } }
  | conCancel {s a d k} : s.nft = some d → s.con = some k → k.renter = a → k.rentee = none →
      SliceStep c now off (.rent a) s { s with
        nft := some { d with st := { d.st with rented := false } }
        con := none }
  | conRevoke {s a d k r} : s.nft = some d → s.con = some k → k.rentee = some r →
      (k.renter = a ∧ k.renterCanRevoke = true) ∨ r = a →
      SliceStep c now off (.rent a) s { s with
        nft := some { d with st := { d.st with rented := false } }
        con := none }
  | conExpire {s d k} : s.nft = some d → s.con = some k →
      SliceStep c now off .hookRent s { s with
        nft := some { d with st := { d.st with rented := false } }
        con := none }
  | give {s a d} (dst : AccountId) : s.nft = some d → RentM.valid d.st = true →
      d.owner = a ∨ off d.owner a →
      SliceStep c now off (.rent a) s { s with nft := some { d with owner := dst } }
  | release {s d k} (dst : AccountId) : s.nft = some d → d.owner = c.rentPot →
      RentM.valid d.st = true → k = .hookRent ∨ (∃ a, k = .rent a) →
      SliceStep c now off k s { s with nft := some { d with owner := dst } }
  | selfDeposit {s a d k r} : s.nft = some d → s.con = some k → k.rentee = some r → k.renter = a →
      k.renterCanRevoke = true →
      SliceStep c now off (.rent a) s { s with
        nft := some { d with owner := r, st := { d.st with rented := false } }
        con := none }
  | trSet {s a d r p k} : s.nft = some d → d.owner = a → a ≠ r → d.st.listed = false →
      d.st.delegated = false → d.st.rented = false →
      ¬ (d.st.soulbound = true ∧ d.owner ≠ d.creator) → d.st.syncSecret = false →
      d.st.syncCapsule = false → d.st.transmission = false →
      SliceStep c now off (.signed .tr a) s { s with
        nft := some { d with st := { d.st with transmission := true } }
        tr := some { recipient := r, protocol := p, cancellation := k } }
  | trRemove {s a d t} : s.nft = some d → d.owner = a → d.st.transmission = true →
      s.tr = some t → TrM.cancellable now t.cancellation = true →
      SliceStep c now off (.signed .tr a) s { s with
        nft := some { d with st := { d.st with transmission := false } }
        tr := none
        cons := if (TrM.consentData t.protocol).isSome then none else s.cons }
  | trReset {s a d t b} : s.nft = some d → d.owner = a → s.tr = some t →
      TrM.canReset t.protocol = true → now < b →
      SliceStep c now off (.signed .tr a) s { s with
        tr := some { t with protocol := .atBlockWithReset b } }
  | trConsent {s a d t x l} : s.nft = some d → d.st.transmission = true → s.tr = some t →
      TrM.consentData t.protocol = some x → a ∈ x.1 → l.length < x.2 →
      SliceStep c now off (.signed .tr a) s { s with cons := some l }
  | trReached {s a d t x} : s.nft = some d → d.st.transmission = true → s.tr = some t →
      TrM.consentData t.protocol = some x → a ∈ x.1 →
      SliceStep c now off (.signed .tr a) s { s with cons := none }
  | trConsentTransmit {s a d t x} : s.nft = some d → d.st.transmission = true → s.tr = some t →
      TrM.consentData t.protocol = some x → a ∈ x.1 →
      SliceStep c now off (.signed .tr a) s { s with
        nft := some { d with owner := t.recipient, st := { d.st with transmission := false } }
        tr := none
        cons := none }
  | trHook {s d t} : s.nft = some d → s.tr = some t → s.cons = none →
      SliceStep c now off .hookTr s { s with
        nft := some { d with owner := t.recipient, st := { d.st with transmission := false } }
        tr := none }

/-- zero or more transitions -/
abbrev SliceRel (c : Cfg) (now : Block) (off : AccountId → AccountId → Prop) (k : Kind) :=
  Relation.ReflTransGen (SliceStep c now off k)
