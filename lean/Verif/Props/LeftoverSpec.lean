import Verif.Model.Step
/-
What it means that nothing is left over in storage.
-/
namespace Spec

/-- every record of the NFT side belongs to something that exists: an NFT, or the sale, auction, contract or
protocol on it -/
structure NftTidy (w : World) : Prop where
  sale : ∀ n, w.mkt.sales.get n ≠ none → w.nfts.get n ≠ none
  auction : ∀ n, w.auc.auctions.get n ≠ none → w.nfts.get n ≠ none
  contract : ∀ n, w.rent.contracts.get n ≠ none → w.nfts.get n ≠ none
  transmission : ∀ n, w.tr.trans.get n ≠ none → w.nfts.get n ≠ none
  delegate : ∀ n, w.nft.deleg.get n ≠ none → w.nfts.get n ≠ none
  secret : ∀ n, w.nft.secretData.get n ≠ none → ∃ d, w.nfts.get n = some d ∧ d.st.secret = true
  secretShards : ∀ n, w.nft.secretShards.get n ≠ none → ∃ d, w.nfts.get n = some d ∧ d.st.syncSecret = true
  capsule : ∀ n, w.nft.capsuleData.get n ≠ none → ∃ d, w.nfts.get n = some d ∧ d.st.capsule = true
  capsuleShards : ∀ n, w.nft.capsuleShards.get n ≠ none → ∃ d, w.nfts.get n = some d ∧ d.st.syncCapsule = true
  item : ∀ k col n, w.nft.colls.get k = some col → n ∈ col.nfts → ∃ d, w.nfts.get n = some d ∧ d.coll = some k
  collection : ∀ n d k, w.nfts.get n = some d → d.coll = some k → w.nft.colls.get k ≠ none
  deadline : ∀ n b, (n, b) ∈ w.auc.deadlines → ∃ x, w.auc.auctions.get n = some x ∧ x.fin = b
  expiry : ∀ n b, (n, b) ∈ w.rent.availQ → ∃ k, w.rent.contracts.get n = some k ∧ k.rentee = none
  period : ∀ n b, (n, b) ∈ w.rent.fixedQ ∨ (n, b) ∈ w.rent.subQ →
    ∃ k, w.rent.contracts.get n = some k ∧ k.rentee ≠ none
  date : ∀ n b, (n, b) ∈ w.tr.queue → w.tr.trans.get n ≠ none
  consent : ∀ n, w.tr.consents.get n ≠ none → w.tr.trans.get n ≠ none

/-- the two tables of the NFT side that are not covered by `NftTidy` -/
structure NftRest (w : World) : Prop where
  commission : ∀ n, w.auc.comm.get n ≠ none → w.auc.auctions.get n ≠ none
  offers : ∀ n, w.rent.offers.get n ≠ none → ∃ k, w.rent.contracts.get n = some k ∧ k.rentee = none

/-- every record of the TEE side belongs to a registered or assigned operator -/
structure TeeTidy (w : World) : Prop where
  request : ∀ op, w.tee.updates.get op ≠ none → w.tee.data.get op ≠ none
  leaving : ∀ op, op ∈ w.tee.unregs → w.tee.data.get op ≠ none
  cluster : ∀ op, w.tee.opCluster.get op ≠ none → w.tee.data.get op ≠ none
  era : ∀ op, w.tee.assignedEra.get op ≠ none → w.tee.data.get op ≠ none
  seat : ∀ k cl op, w.tee.clusters.get k = some cl → op ∈ cl.enclaves.map Prod.fst → w.tee.opCluster.get op = some k
  home : ∀ op k, w.tee.opCluster.get op = some k → w.tee.clusters.get k ≠ none
  stake : ∀ op s, w.tee.ledger.get op = some s →
    s.unlocking = true ∨ w.tee.registrations.get op ≠ none ∨ w.tee.data.get op ≠ none

/-- the table of the TEE side that is not covered by `TeeTidy` -/
def TeeRest (w : World) : Prop :=
  ∀ x op, w.tee.accOp.get x = some op → ∃ e, w.tee.data.get op = some e ∧ e.addr = x

/-- `pallet_staking` raises the active era by one at a time, and the TEE block hook runs between any two such
changes -/
structure EraPaced (c : Cfg) (w : World) (l : List Op) : Prop where
  next : ∀ l1 e l2, l = l1 ++ .era e :: l2 → ∀ a, (run c w l1).active = some a → e ≤ a + 1
  hook : ∀ l1 e l2 e' l3, l = l1 ++ .era e :: (l2 ++ .era e' :: l3) → .hookTee ∈ l2

/-- the table of reports or the table of paid rewards has something on era `E` -/
def Recorded (w : World) (E : Era) : Prop :=
  ∃ op, w.tee.reports.get (E, op) ≠ none ∨ w.tee.claimed.get (E, op) ≠ none

end Spec
