import Verif.Model.Transmission
/-
Model of /repo/tee/src/lib.rs.
Simplifications: report parameters and weights are `Nat` instead of `u8` (more inputs than the code
admits); the number of operators is not truncated to `u32`.
-/

/-- `position(p)` then `swap_remove(index)`: the last element takes the removed element's place -/
def swapRemoveBy {α : Type} (p : α → Bool) (l : List α) : List α :=
  match l.findIdx? p, l.getLast? with
  | some i, some z => if i + 1 = l.length then l.dropLast else l.dropLast.set i z
  | _, _ => l

namespace TeeM
variable (c : Cfg)

/-- `register_enclave`, tee/src/lib.rs 465-526 -/
def register (w : World) (who addr : AccountId) (uri : Data) : Except Err World := do
  require (uri ≠ []) "ApiUriIsEmpty"
  require (who ≠ addr) "OperatorAndEnclaveAreSame"
  require (w.tee.registrations.get who = none) "RegistrationAlreadyExists"
  require (w.tee.data.get who = none) "OperatorAlreadyExists"
  require (w.tee.accOp.get addr = none) "EnclaveAddressAlreadyExists"
  require (w.tee.ledger.get who = none) "UnbondingPeriod"
  let amount := w.tee.stakingAmount
  require (amount ≤ w.bal.freeOf who) "InsufficientBalanceToBond"
  require (w.bal.ensureCanWithdraw who amount (w.bal.freeOf who - amount)) "LiquidityRestrictions"
  let w := w.putBal (w.bal.setLock who amount)
  pure { w with tee := { w.tee with
    ledger := w.tee.ledger.insert who
      { operator := who, staked := amount, unlocking := false, unbondedAt := 0 }
    registrations := w.tee.registrations.insert who { addr := addr, uri := uri } } }

/-- `unregister_enclave` of an assigned operator, tee/src/lib.rs 538-566 -/
def unregisterAssigned (w : World) (who : AccountId) : Except Err World := do
  require (who ∉ w.tee.unregs) "UnregistrationAlreadyExists"
  require (w.tee.unregs.length < c.teeList) "UnregistrationLimitReached"
  let s ← getOr (w.tee.ledger.get who) "StakingNotFound"
  pure { w with tee := { w.tee with
    unregs := w.tee.unregs ++ [who]
    ledger := w.tee.ledger.insert who { s with unlocking := true, unbondedAt := w.now } } }

/-- removal of a pending registration, tee/src/lib.rs 567-581 and 731-737 -/
def dropRegistration (w : World) (op : AccountId) : Except Err World := do
  let _ ← getOr (w.tee.registrations.get op) "RegistrationNotFound"
  let w := w.putBal (w.bal.removeLock op)
  pure { w with tee := { w.tee with
    registrations := w.tee.registrations.erase op
    ledger := w.tee.ledger.erase op } }

/-- `unregister_enclave`, tee/src/lib.rs 532-592 -/
def unregister (w : World) (who : AccountId) : Except Err World :=
  match w.tee.data.get who with
  | some _ => unregisterAssigned c w who
  | none => dropRegistration w who

/-- `update_enclave`, tee/src/lib.rs 597-629 -/
def update (w : World) (who addr : AccountId) (uri : Data) : Except Err World := do
  require (uri ≠ []) "ApiUriIsEmpty"
  require (who ≠ addr) "OperatorAndEnclaveAreSame"
  let e ← getOr (w.tee.data.get who) "UpdateProhibitedForUnassignedEnclave"
  require (w.tee.updates.get who = none) "UpdateRequestAlreadyExists"
  require (e.addr = addr ∨ w.tee.accOp.get addr = none) "EnclaveAddressAlreadyExists"
  pure { w with tee := { w.tee with
    updates := w.tee.updates.insert who { addr := addr, uri := uri } } }

/-- `cancel_update` and `reject_update` (root), tee/src/lib.rs 634-645 and 748-762 -/
def dropUpdate (w : World) (op : AccountId) : Except Err World := do
  let _ ← getOr (w.tee.updates.get op) "UpdateRequestNotFound"
  pure { w with tee := { w.tee with updates := w.tee.updates.erase op } }

/-- `assign_enclave` (root), tee/src/lib.rs 650-719 -/
def assign (w : World) (op : AccountId) (k : ClusterId) (slot : SlotId) : Except Err World := do
  let r ← getOr (w.tee.registrations.get op) "RegistrationNotFound"
  let cl ← getOr (w.tee.clusters.get k) "ClusterNotFound"
  require (cl.enclaves.length < c.clusterSize) "ClusterIsFull"
  require (w.tee.accOp.get r.addr = none) "EnclaveAddressAlreadyExists"
  require (w.tee.data.get op = none) "OperatorAlreadyExists"
  let era ← getOr w.active "FailedToGetActiveEra"
  pure { w with tee := { w.tee with
    accOp := w.tee.accOp.insert r.addr op
    data := w.tee.data.insert op r
    opCluster := w.tee.opCluster.insert op k
    assignedEra := w.tee.assignedEra.insert op era
    clusters := w.tee.clusters.insert k { cl with enclaves := cl.enclaves ++ [(op, slot)] }
    registrations := w.tee.registrations.erase op } }

/-- The part common to `approve_enclave_unregistration` (tee/src/lib.rs 780-836) and
`force_remove_enclave` (859-909): the operator leaves its cluster and all tables. -/
def unassign (w : World) (op : AccountId) : Except Err World := do
  let e ← getOr (w.tee.data.get op) "EnclaveNotFound"
  require ((w.tee.accOp.get e.addr).isSome) "EnclaveAddressNotFound"
  let k ← getOr (w.tee.opCluster.get op) "ClusterIdNotFound"
  let cl ← getOr (w.tee.clusters.get k) "ClusterNotFound"
  pure { w with tee := { w.tee with
    updates := w.tee.updates.erase op
    clusters := w.tee.clusters.insert k
      { cl with enclaves := swapRemoveBy (fun x => decide (x.1 = op)) cl.enclaves }
    opCluster := w.tee.opCluster.erase op
    assignedEra := w.tee.assignedEra.erase op
    accOp := w.tee.accOp.erase e.addr
    data := w.tee.data.erase op
    unregs := swapRemoveBy (fun x => decide (x = op)) w.tee.unregs } }

/-- `approve_enclave_unregistration` (root), tee/src/lib.rs 767-845 -/
def approveUnregister (w : World) (op : AccountId) : Except Err World := do
  require (op ∈ w.tee.unregs) "UnregistrationNotFound"
  unassign w op

/-- `force_remove_enclave` (root), tee/src/lib.rs 850-934 -/
def forceRemove (w : World) (op : AccountId) : Except Err World := do
  let w ← unassign w op
  let s ← getOr (w.tee.ledger.get op) "StakingNotFound"
  pure { w with tee := { w.tee with
    ledger := w.tee.ledger.insert op { s with unlocking := true, unbondedAt := w.now } } }

/-- new enclave address of an approved update, tee/src/lib.rs 964-973: the old address' entry is
*not* removed -/
def approveAddr (w : World) (op : AccountId) (e : Enclave) (addr : AccountId) :
    Except Err World :=
  if e.addr = addr then pure w
  else do
    require (w.tee.accOp.get addr = none) "EnclaveAddressAlreadyExists"
    pure { w with tee := { w.tee with accOp := w.tee.accOp.insert addr op } }

/-- `approve_update_enclave` (root), tee/src/lib.rs 939-990 -/
def approveUpdate (w : World) (op : AccountId) : Except Err World := do
  let u ← getOr (w.tee.updates.get op) "UpdateRequestNotFound"
  require (u.uri ≠ []) "ApiUriIsEmpty"
  require (op ≠ u.addr) "OperatorAndEnclaveAreSame"
  let e ← getOr (w.tee.data.get op) "EnclaveNotFound"
  let w ← approveAddr w op e u.addr
  pure { w with tee := { w.tee with
    data := w.tee.data.insert op { addr := u.addr, uri := u.uri }
    updates := w.tee.updates.erase op } }

/-- new enclave address of a forced update, tee/src/lib.rs 1014-1032 -/
def forceAddr (w : World) (op : AccountId) (e : Enclave) : Option AccountId →
    Except Err (World × Enclave)
  | none => pure (w, e)
  | some addr => do
    require (op ≠ addr) "OperatorAndEnclaveAreSame"
    require (e.addr ≠ addr → w.tee.accOp.get addr = none) "EnclaveAddressAlreadyExists"
    let w := if e.addr = addr then w else
      { w with tee := { w.tee with accOp := (w.tee.accOp.erase e.addr).insert addr op } }
    pure (w, { e with addr := addr })

/-- `force_update_enclave` (root), tee/src/lib.rs 995-1055 -/
def forceUpdate (w : World) (op : AccountId) (addr : Option AccountId) (uri : Option Data) :
    Except Err World := do
  require (addr.isSome ∨ uri.isSome) "NoUpdatesProvided"
  let e ← getOr (w.tee.data.get op) "EnclaveNotFound"
  let x ← forceAddr w op e addr
  require (∀ u ∈ uri, u ≠ []) "ApiUriIsEmpty"
  pure { x.1 with tee := { x.1.tee with
    data := x.1.tee.data.insert op { x.2 with uri := uri.getD x.2.uri }
    updates := x.1.tee.updates.erase op } }

/-- `create_cluster` (root), tee/src/lib.rs 1060-1070, with `get_next_cluster_id` 1526-1534 -/
def createCluster (w : World) (t : ClusterType) : Except Err World := do
  let id := w.tee.nextCluster
  let _ ← expectSome (if id < U32MAX then some () else none)
    "If u32 is not enough we should crash for safety; qed."
  pure { w with tee := { w.tee with
    nextCluster := id + 1
    clusters := w.tee.clusters.insert id { enclaves := [], kind := t } } }

/-- `update_cluster` (root), tee/src/lib.rs 1075-1088 -/
def updateCluster (w : World) (k : ClusterId) (t : ClusterType) : Except Err World := do
  let cl ← getOr (w.tee.clusters.get k) "ClusterNotFound"
  pure { w with tee := { w.tee with clusters := w.tee.clusters.insert k { cl with kind := t } } }

/-- `remove_cluster` (root), tee/src/lib.rs 1093-1108 -/
def removeCluster (w : World) (k : ClusterId) : Except Err World := do
  let cl ← getOr (w.tee.clusters.get k) "ClusterNotFound"
  require (cl.enclaves.length = 0) "ClusterIsNotEmpty"
  pure { w with tee := { w.tee with clusters := w.tee.clusters.erase k } }

/-- `withdraw_unbonded`, tee/src/lib.rs 1113-1136 (`now - unbonded_at` cannot underflow: the block
was the current one when written) -/
def withdraw (w : World) (who : AccountId) : Except Err World := do
  let s ← getOr (w.tee.ledger.get who) "StakingNotFound"
  require (s.unlocking = true) "UnbondingNotStarted"
  require (c.bonding ≤ w.now - s.unbondedAt) "WithdrawProhibited"
  let w := w.putBal (w.bal.removeLock who)
  pure { w with tee := { w.tee with ledger := w.tee.ledger.erase who } }

/-- `register_metrics_server` (root), tee/src/lib.rs 1141-1159 -/
def registerServer (w : World) (s : MetricsServer) : Except Err World := do
  require (∀ x ∈ w.tee.servers, x.addr ≠ s.addr) "MetricsServerAlreadyExists"
  require (w.tee.servers.length < c.teeList) "MetricsServerLimitReached"
  pure { w with tee := { w.tee with servers := w.tee.servers ++ [s] } }

/-- `unregister_metrics_server` (root), tee/src/lib.rs 1163-1185 -/
def unregisterServer (w : World) (a : AccountId) : Except Err World := do
  require (∃ x ∈ w.tee.servers, x.addr = a) "MetricsServerNotFound"
  pure { w with tee := { w.tee with
    servers := swapRemoveBy (fun x => decide (x.addr = a)) w.tee.servers } }

/-- replace the kind of the first server with address `a` -/
def setKind (a : AccountId) (t : ClusterType) : List MetricsServer → List MetricsServer
  | [] => []
  | x :: r => if x.addr = a then { x with kind := t } :: r else x :: setKind a t r

/-- `force_update_metrics_server_type` (root), tee/src/lib.rs 1189-1214 -/
def setServerType (w : World) (a : AccountId) (t : ClusterType) : Except Err World := do
  require (∃ x ∈ w.tee.servers, x.addr = a) "MetricsServerNotFound"
  pure { w with tee := { w.tee with servers := setKind a t w.tee.servers } }

/-- replace the first report with the same `submitted_by`, tee/src/lib.rs 1250-1256 -/
def putReport (r : Report) : List Report → Option (List Report)
  | [] => none
  | x :: t => if x.by_ = r.by_ then some (r :: t) else (putReport r t).map (x :: ·)

/-- the new list of reports, tee/src/lib.rs 1249-1271 -/
def addReport (l : List Report) (r : Report) : Except Err (List Report) :=
  match putReport r l with
  | some l' => pure l'
  | none => do
    require (l.length < c.teeList) "MetricsReportsLimitReached"
    pure (l ++ [r])

/-- `submit_metrics_server_report`, tee/src/lib.rs 1219-1282 -/
def submitReport (w : World) (who op : AccountId) (r : Report) : Except Err World := do
  let s ← getOr (w.tee.servers.find? (fun x => decide (x.addr = who))) "MetricsServerAddressNotFound"
  require (s.kind = .pub) "MetricsServerUnsupportedClusterType"
  let _ ← getOr (w.tee.data.get op) "EnclaveNotFoundForTheOperator"
  let active ← getOr w.active "FailedToGetActiveEra"
  let l ← addReport c ((w.tee.reports.get (active - 1, op)).getD []) r
  let w := { w with tee := { w.tee with reports := w.tee.reports.insert (active - 1, op) l } }
  pure (w.ev (.reported (active - 1) op r who))

/-- `set_report_params_weightage` (root), tee/src/lib.rs 1287-1304 -/
def setWeights (w : World) (p : Params) : World := { w with tee := { w.tee with weights := p } }

/-- `set_staking_amount` (root), tee/src/lib.rs 1308-1319 -/
def setStakingAmount (w : World) (x : Balance) : World :=
  { w with tee := { w.tee with stakingAmount := x } }

/-- `set_daily_reward_pool` (root), tee/src/lib.rs 1323-1334 -/
def setPool (w : World) (x : Balance) : World := { w with tee := { w.tee with pool := x } }

/-- `calculate_highest_params`, tee/src/lib.rs 1541-1556 -/
def highest (l : List Report) : Params :=
  l.foldl (fun p r =>
    { p1 := max p.p1 r.params.p1, p2 := max p.p2 r.params.p2, p3 := max p.p3 r.params.p3,
      p4 := max p.p4 r.params.p4, p5 := max p.p5 r.params.p5 }) ⟨0, 0, 0, 0, 0⟩

/-- `calculate_weighted_sum`, tee/src/lib.rs 1558-1571 -/
def weighted (v k : Params) : Nat :=
  v.p1 * k.p1 + v.p2 * k.p2 + v.p3 * k.p3 + v.p4 * k.p4 + v.p5 * k.p5

/-- the equal share of one operator, tee/src/lib.rs 1364-1369 -/
def share (t : TeeSt) : Balance := perbillMul (perbillOf 1 t.data.card) t.pool

/-- the reward for an era, tee/src/lib.rs 1371-1401 -/
def reward (t : TeeSt) (era : Era) (op : AccountId) : Balance :=
  match t.reports.get (era, op) with
  | some l => perbillMul (perbillOf (weighted (highest l) t.weights) 10000) (share t)
  | none => share t

/-- `claim_rewards`, tee/src/lib.rs 1338-1403 -/
def claim (w : World) (who : AccountId) (era : Era) : Except Err World := do
  require (w.tee.claimed.get (era, who) = none) "RewardsAlreadyClaimedForEra"
  let active ← getOr w.active "FailedToGetActiveEra"
  let assigned ← getOr (w.tee.assignedEra.get who) "OperatorAssignedEraNotFound"
  require (era < active - 2 ∧ active - c.history < era ∧ assigned ≤ era) "InvalidEraToClaimRewards"
  let _ ← getOr (w.tee.data.get who) "EnclaveNotFoundForTheOperator"
  let x := reward w.tee era who
  let b ← w.bal.transfer c.ed c.teePot who x .allowDeath
  let w := w.putBal b
  let w := { w with tee := { w.tee with claimed := w.tee.claimed.insert (era, who) x } }
  pure (w.ev (.rewardClaimed era who x))

/-- `update_operator_assigned_era` (root), tee/src/lib.rs 1408-1428 -/
def setAssignedEra (w : World) (op : AccountId) (era : Era) : Except Err World := do
  let _ ← getOr (w.tee.assignedEra.get op) "OperatorAssignedEraNotFound"
  pure { w with tee := { w.tee with assignedEra := w.tee.assignedEra.insert op era } }

/-- `bond_extra`, tee/src/lib.rs 1433-1479 -/
def bondExtra (w : World) (who : AccountId) : Except Err World := do
  let s ← getOr (w.tee.ledger.get who) "StakingNotFound"
  let x := w.tee.stakingAmount
  require (s.staked < x) "BondExtraNotAllowed"
  require (x - s.staked ≤ w.bal.freeOf who) "InsufficientBalanceToBond"
  require (w.bal.ensureCanWithdraw who (x - s.staked) (w.bal.freeOf who - (x - s.staked)))
    "LiquidityRestrictions"
  let w := w.putBal (w.bal.setLock who x)
  pure { w with tee := { w.tee with ledger := w.tee.ledger.insert who { s with staked := x } } }

/-- `refund_excess`, tee/src/lib.rs 1484-1518 -/
def refundExcess (w : World) (who : AccountId) : Except Err World := do
  let s ← getOr (w.tee.ledger.get who) "StakingNotFound"
  let x := w.tee.stakingAmount
  require (x < s.staked) "RefundExcessNotAllowed"
  let w := w.putBal (w.bal.setLock who x)
  pure { w with tee := { w.tee with ledger := w.tee.ledger.insert who { s with staked := x } } }

/-- Signed dispatchables. -/
inductive Call where
  | register (addr : AccountId) (uri : Data)
  | unregister
  | update (addr : AccountId) (uri : Data)
  | cancelUpdate
  | withdraw
  | submitReport (op : AccountId) (r : Report)
  | claim (era : Era)
  | bondExtra
  | refundExcess

/-- dispatch of the signed calls -/
def call (w : World) (who : AccountId) : Call → Except Err World
  | .register a u => register w who a u
  | .unregister => unregister c w who
  | .update a u => update w who a u
  | .cancelUpdate => dropUpdate w who
  | .withdraw => withdraw c w who
  | .submitReport op r => submitReport c w who op r
  | .claim e => claim c w who e
  | .bondExtra => bondExtra w who
  | .refundExcess => refundExcess w who

/-- Root dispatchables. -/
inductive RootCall where
  | assign (op : AccountId) (k : ClusterId) (slot : SlotId)
  | removeRegistration (op : AccountId)
  | rejectUpdate (op : AccountId)
  | approveUnregister (op : AccountId)
  | forceRemove (op : AccountId)
  | approveUpdate (op : AccountId)
  | forceUpdate (op : AccountId) (addr : Option AccountId) (uri : Option Data)
  | createCluster (t : ClusterType)
  | updateCluster (k : ClusterId) (t : ClusterType)
  | removeCluster (k : ClusterId)
  | registerServer (s : MetricsServer)
  | unregisterServer (a : AccountId)
  | setServerType (a : AccountId) (t : ClusterType)
  | setWeights (p : Params)
  | setStakingAmount (x : Balance)
  | setPool (x : Balance)
  | setAssignedEra (op : AccountId) (era : Era)

/-- dispatch of the root calls -/
def root (w : World) : RootCall → Except Err World
  | .assign op k s => assign c w op k s
  | .removeRegistration op => dropRegistration w op
  | .rejectUpdate op => dropUpdate w op
  | .approveUnregister op => approveUnregister w op
  | .forceRemove op => forceRemove w op
  | .approveUpdate op => approveUpdate w op
  | .forceUpdate op a u => forceUpdate w op a u
  | .createCluster t => createCluster w t
  | .updateCluster k t => updateCluster w k t
  | .removeCluster k => removeCluster w k
  | .registerServer s => registerServer c w s
  | .unregisterServer a => unregisterServer w a
  | .setServerType a t => setServerType w a t
  | .setWeights p => .ok (setWeights w p)
  | .setStakingAmount x => .ok (setStakingAmount w x)
  | .setPool x => .ok (setPool w x)
  | .setAssignedEra op e => setAssignedEra w op e

/-- `clear_old_era`, tee/src/lib.rs 1573-1579 -/
def clearEra (w : World) (old : Era) : World :=
  { w with tee := { w.tee with
    claimed := w.tee.claimed.filterKeys (fun x => decide (x.1 ≠ old))
    reports := w.tee.reports.filterKeys (fun x => decide (x.1 ≠ old)) } }

/-- `on_initialize`, tee/src/lib.rs 260-283 -/
def hook (w : World) : World :=
  match w.active with
  | none => w
  | some e => if c.history ≤ e then clearEra w (e - c.history) else w

end TeeM
