import Verif.Model.TeeEvents
/-
What an observer of the TEE pallet's events writes down.  Refers to the model's records and events, not to its calls.
-/
namespace Spec

/-- The registry of TEE operators. -/
@[ext] structure Registry where
  /-- waiting to be assigned -/
  registration : AccountId → Option Enclave
  enclave : AccountId → Option Enclave
  /-- requested updates -/
  update : AccountId → Option Enclave
  /-- asked to leave -/
  leaving : AccountId → Bool
  /-- addresses that are taken, and by whom -/
  taken : AccountId → Option AccountId
  cluster : AccountId → Option ClusterId
  since : AccountId → Option Era
  kind : ClusterId → Option ClusterType
  stake : AccountId → Option Ledger
  server : AccountId → Option ClusterType
  weights : Params
  stakingAmount : Balance
  pool : Balance

/-- what the chain stores -/
def registry (w : World) : Registry where
  registration := w.tee.registrations.get
  enclave := w.tee.data.get
  update := w.tee.updates.get
  leaving a := decide (a ∈ w.tee.unregs)
  taken := w.tee.accOp.get
  cluster := w.tee.opCluster.get
  since := w.tee.assignedEra.get
  kind k := (w.tee.clusters.get k).map (·.kind)
  stake := w.tee.ledger.get
  server a := (w.tee.servers.find? fun s => s.addr = a).map (·.kind)
  weights := w.tee.weights
  stakingAmount := w.tee.stakingAmount
  pool := w.tee.pool

namespace Registry

/-- enter or delete -/
def put {α : Type} (f : Nat → α) (n : Nat) (x : α) : Nat → α := fun m => if m = n then x else f m

/-- change an entry, if there is one -/
def on {α : Type} (f : Nat → Option α) (n : Nat) (g : α → α) : Nat → Option α :=
  fun m => if m = n then (f m).map g else f m

/-- the operator's address becomes `a`; `free`: is the old one given free? -/
def move (r : Registry) (op a : AccountId) (free : Bool) : AccountId → Option AccountId :=
  match r.enclave op with
  | none => r.taken
  | some e => if e.addr = a then r.taken else put (if free then put r.taken e.addr none else r.taken) a (some op)

end Registry

open Registry in
/-- How the observer of the registry keeps their books.  `now` and `era` are the block of the event and the active era. -/
def note (now : Block) (era : Option Era) (r : Registry) : TeeEvent → Registry
  | .registrationAdded op a u => { r with registration := put r.registration op (some ⟨a, u⟩) }
  | .registrationRemoved op => { r with registration := put r.registration op none, stake := put r.stake op none }
  | .updateCancelled op | .updateRemoved op => { r with update := put r.update op none }
  | .movedForUnregistration op => { r with leaving := put r.leaving op true }
  | .assigned op k => { r with
      registration := put r.registration op none
      enclave := put r.enclave op (r.registration op)
      taken := match r.registration op with | some e => put r.taken e.addr (some op) | none => r.taken
      cluster := put r.cluster op (some k)
      since := put r.since op era }
  | .enclaveRemoved op => { r with
      enclave := put r.enclave op none
      update := put r.update op none
      leaving := put r.leaving op false
      taken := match r.enclave op with | some e => put r.taken e.addr none | none => r.taken
      cluster := put r.cluster op none
      since := put r.since op none }
  | .movedForUpdate op a u => { r with update := put r.update op (some ⟨a, u⟩) }
  | .updated op a u => { r with
      enclave := put r.enclave op (some ⟨a, u⟩)
      update := put r.update op none
      taken := r.move op a false }
  | .forceUpdated op a u => { r with
      enclave := on r.enclave op fun e => ⟨a.getD e.addr, u.getD e.uri⟩
      update := put r.update op none
      taken := match a with | some a => r.move op a true | none => r.taken }
  | .clusterAdded k t => { r with kind := put r.kind k (some t) }
  | .clusterUpdated k t => { r with kind := put r.kind k (some t) }
  | .clusterRemoved k => { r with kind := put r.kind k none }
  | .bonded op x => { r with stake := put r.stake op (some ⟨op, x, false, 0⟩) }
  | .unbonded op _ => { r with stake := on r.stake op fun s => { s with unlocking := true, unbondedAt := now } }
  | .withdrawn op _ => { r with stake := put r.stake op none }
  | .bondedExtra op x => { r with stake := on r.stake op fun s => { s with staked := s.staked + x } }
  | .refundedExcess op x => { r with stake := on r.stake op fun s => { s with staked := s.staked - x } }
  | .serverAdded s => { r with server := put r.server s.addr (some s.kind) }
  | .serverTypeUpdated a t => { r with server := put r.server a (some t) }
  | .serverRemoved a => { r with server := put r.server a none }
  | .weightsModified p => { r with weights := p }
  | .stakingAmountIsSet x => { r with stakingAmount := x }
  | .rewardAmountIsSet x => { r with pool := x }
  | .assignedEraUpdated op e => { r with since := put r.since op (some e) }
  | .reportSubmitted _ _ _ | .rewardsClaimed _ _ _ | .noActiveEra _ => r

/-- the books after a series of events -/
def notes (r : Registry) : List ((Block × Option Era) × TeeEvent) → Registry
  | [] => r
  | e :: t => notes (note e.1.1 e.1.2 r e.2) t

/-- The amount an event states is the one by which the operator's stake changes between `r` and `r'`. -/
def Truthful (r r' : Registry) : TeeEvent → Prop
  | .bonded op x => r.stake op = none ∧ ∃ s, r'.stake op = some s ∧ s.staked = x
  | .unbonded op x => ∃ s s', r.stake op = some s ∧ s.staked = x ∧ r'.stake op = some s' ∧ s'.staked = x
  | .withdrawn op x => (∃ s, r.stake op = some s ∧ s.staked = x) ∧ r'.stake op = none
  | .bondedExtra op x => ∃ s s', r.stake op = some s ∧ r'.stake op = some s' ∧ s'.staked = s.staked + x ∧ 0 < x
  | .refundedExcess op x => ∃ s s', r.stake op = some s ∧ r'.stake op = some s' ∧ s.staked = s'.staked + x ∧ 0 < x
  | _ => True

end Spec
