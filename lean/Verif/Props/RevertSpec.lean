import Verif.Model.Step
/-
What it means that a setting is put back (C122).  Refers to the state and the calls only.
-/
namespace Spec.Revert

/-- the fee of a protocol -/
def trFee (w : World) : ProtocolKind → Balance
  | .atBlock => w.tr.feeAt
  | .atBlockWithReset => w.tr.feeReset
  | .onConsent => w.tr.feeConsent
  | .onConsentAtBlock => w.tr.feeConsentAt

/-- the call that puts back what a call sets, if the state `w` was there before: the same call with the old value; for
a metrics server, its removal or its registration -/
def back (w : World) : Call → Option Call
  | .root (.nftFee _) => some (.root (.nftFee w.nft.fee))
  | .root (.secretFee _) => some (.root (.secretFee w.nft.secretFee))
  | .root (.capsuleFee _) => some (.root (.capsuleFee w.nft.capsuleFee))
  | .root (.mktFee _) => some (.root (.mktFee w.mkt.fee))
  | .root (.trFee k _) => some (.root (.trFee k (trFee w k)))
  | .root (.tee (.setWeights _)) => some (.root (.tee (.setWeights w.tee.weights)))
  | .root (.tee (.setStakingAmount _)) => some (.root (.tee (.setStakingAmount w.tee.stakingAmount)))
  | .root (.tee (.setPool _)) => some (.root (.tee (.setPool w.tee.pool)))
  | .root (.tee (.setAssignedEra op _)) => (w.tee.assignedEra.get op).map fun e => .root (.tee (.setAssignedEra op e))
  | .root (.tee (.updateCluster k _)) => (w.tee.clusters.get k).map fun x => .root (.tee (.updateCluster k x.kind))
  | .root (.tee (.registerServer s)) => some (.root (.tee (.unregisterServer s.addr)))
  | .root (.tee (.unregisterServer a)) =>
    (w.tee.servers.find? (fun x => decide (x.addr = a))).map fun s => .root (.tee (.registerServer s))
  | .root (.tee (.setServerType a _)) =>
    (w.tee.servers.find? (fun x => decide (x.addr = a))).map fun s => .root (.tee (.setServerType a s.kind))
  | .ext (.setThreshold _) => if w.br.threshold = 0 then none else some (.ext (.setThreshold w.br.threshold))
  | .ext (.setRelayers _) => some (.ext (.setRelayers w.br.relayers))
  | .ext (.setFee _) => some (.ext (.setFee w.br.fee))
  | .ext (.setExtra _) => some (.ext (.setExtra w.rew.extra))
  | _ => none

/-- Nothing is left of it: the two states differ at most in the order of the metrics servers. -/
structure Restored (w v : World) : Prop where
  now : v.now = w.now
  active : v.active = w.active
  bal : v.bal = w.bal
  nfts : v.nfts = w.nfts
  nft : v.nft = w.nft
  mkt : v.mkt = w.mkt
  auc : v.auc = w.auc
  rent : v.rent = w.rent
  tr : v.tr = w.tr
  br : v.br = w.br
  rew : v.rew = w.rew
  evs : v.evs = w.evs
  servers : v.tee.servers.Perm w.tee.servers
  clusters : ∀ k, v.tee.clusters.get k = w.tee.clusters.get k
  eras : ∀ op, v.tee.assignedEra.get op = w.tee.assignedEra.get op
  tee : { v.tee with servers := [], clusters := .empty, assignedEra := .empty } =
    { w.tee with servers := [], clusters := .empty, assignedEra := .empty }

/-- the calls of governance that set something for good -/
inductive ForGood (w : World) : Call → (World → Prop) → Prop
  /-- a chain added stays added -/
  | chain {k} : ForGood w (.ext (.addChain k)) fun v => v.br.nonces.get k = none
  /-- a number once used for a cluster is not free again -/
  | create {t} : ForGood w (.root (.tee (.createCluster t))) fun v => v.tee.nextCluster = w.tee.nextCluster
  /-- a cluster removed does not come back -/
  | remove {k} : ForGood w (.root (.tee (.removeCluster k))) fun v => v.tee.clusters.get k ≠ none
  /-- a threshold of zero, as a chain may start with, does not come back -/
  | threshold {t} : w.br.threshold = 0 → ForGood w (.ext (.setThreshold t)) fun v => v.br.threshold = 0

/-- The other calls of governance are no settings: they decide on a request or a member of the enclave registry, or
raise a nonce, which is also raised by every deposit. -/
def Decision : Call → Prop
  | .root (.tee (.assign ..)) => True
  | .root (.tee (.removeRegistration _)) => True
  | .root (.tee (.rejectUpdate _)) => True
  | .root (.tee (.approveUnregister _)) => True
  | .root (.tee (.forceRemove _)) => True
  | .root (.tee (.approveUpdate _)) => True
  | .root (.tee (.forceUpdate ..)) => True
  | .ext (.setNonce ..) => True
  | _ => False

end Spec.Revert
