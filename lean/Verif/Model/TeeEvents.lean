import Verif.Model.Step
/-
The events the TEE pallet deposits.

As in Model/Events.lean they are modelled apart from the calls: `teeEmit c w o` is what operation `o` deposits when it
happens in world `w`, oldest first; nothing if it fails.
-/

/-- `Event` of tee/src/lib.rs 288-376.  `StakingAmountSet` is never used. -/
inductive TeeEvent where
  | registrationAdded (op addr : AccountId) (uri : Data)
  | registrationRemoved (op : AccountId)
  | updateCancelled (op : AccountId)
  | updateRemoved (op : AccountId)
  | movedForUnregistration (op : AccountId)
  | assigned (op : AccountId) (k : ClusterId)
  | enclaveRemoved (op : AccountId)
  | movedForUpdate (op addr : AccountId) (uri : Data)
  | updated (op addr : AccountId) (uri : Data)
  | forceUpdated (op : AccountId) (addr : Option AccountId) (uri : Option Data)
  | clusterAdded (k : ClusterId) (t : ClusterType)
  | clusterUpdated (k : ClusterId) (t : ClusterType)
  | clusterRemoved (k : ClusterId)
  | bonded (op : AccountId) (x : Balance)
  | unbonded (op : AccountId) (x : Balance)
  | withdrawn (op : AccountId) (x : Balance)
  | serverAdded (s : MetricsServer)
  | serverTypeUpdated (a : AccountId) (t : ClusterType)
  | serverRemoved (a : AccountId)
  | reportSubmitted (era : Era) (op : AccountId) (r : Report)
  | weightsModified (p : Params)
  | rewardsClaimed (era : Era) (op : AccountId) (x : Balance)
  | noActiveEra (b : Block)
  | stakingAmountIsSet (x : Balance)
  | rewardAmountIsSet (x : Balance)
  | assignedEraUpdated (op : AccountId) (era : Era)
  | bondedExtra (op : AccountId) (x : Balance)
  | refundedExcess (op : AccountId) (x : Balance)
deriving DecidableEq

variable (c : Cfg)

namespace TeeM

/-- what the operator has staked -/
def stakedBy (w : World) (op : AccountId) : Balance := ((w.tee.ledger.get op).map (·.staked)).getD 0

/-- Events of a successful signed call, tee/src/lib.rs: 515-523, 555-561, 581-587, 623, 643, 1130, 1275, 1388-1400, 1471,
1510.  `Withdrawn` states the staking amount of the day, not what was staked (535, 584, 1129). -/
def emit (w : World) (who : AccountId) : Call → List TeeEvent
  | .register a u => [.registrationAdded who a u, .bonded who w.tee.stakingAmount]
  | .unregister =>
    match w.tee.data.get who with
    | some _ => [.movedForUnregistration who, .unbonded who (stakedBy w who)]
    | none => [.registrationRemoved who, .withdrawn who w.tee.stakingAmount]
  | .update a u => [.movedForUpdate who a u]
  | .cancelUpdate => [.updateCancelled who]
  | .withdraw => [.withdrawn who w.tee.stakingAmount]
  | .submitReport op r => [.reportSubmitted (w.active.getD 0 - 1) op r]
  | .claim e => [.rewardsClaimed e who (reward w.tee e who)]
  | .bondExtra => [.bondedExtra who (w.tee.stakingAmount - stakedBy w who)]
  | .refundExcess => [.refundedExcess who (stakedBy w who - w.tee.stakingAmount)]

/-- Events of a successful root call, tee/src/lib.rs: 717, 741, 760, 843, 918-932, 980, 1049, 1068, 1084, 1106, 1155, 1176,
1203, 1295, 1316, 1331, 1420. -/
def rootEmit (w : World) : RootCall → List TeeEvent
  | .assign op k _ => [.assigned op k]
  | .removeRegistration op => [.registrationRemoved op]
  | .rejectUpdate op => [.updateRemoved op]
  | .approveUnregister op => [.enclaveRemoved op]
  | .forceRemove op => [.unbonded op (stakedBy w op), .enclaveRemoved op]
  | .approveUpdate op =>
    match w.tee.updates.get op with
    | some u => [.updated op u.addr u.uri]
    | none => []
  | .forceUpdate op a u => [.forceUpdated op a u]
  | .createCluster t => [.clusterAdded w.tee.nextCluster t]
  | .updateCluster k t => [.clusterUpdated k t]
  | .removeCluster k => [.clusterRemoved k]
  | .registerServer s => [.serverAdded s]
  | .unregisterServer a => [.serverRemoved a]
  | .setServerType a t => [.serverTypeUpdated a t]
  | .setWeights p => [.weightsModified p]
  | .setStakingAmount x => [.stakingAmountIsSet x]
  | .setPool x => [.rewardAmountIsSet x]
  | .setAssignedEra op e => [.assignedEraUpdated op e]

end TeeM

/-- TEE events of a call that succeeds; `mandate` keeps those of an inner call that succeeds -/
def teeCallEmit (w : World) : Call → Origin → List TeeEvent
  | .mandate x, .root => match dispatch c x .root w with | .ok _ => teeCallEmit w x .root | .error _ => []
  | .mandate x, .ext => match dispatch c x .root w with | .ok _ => teeCallEmit w x .root | .error _ => []
  | .root (.tee x), .root => TeeM.rootEmit w x
  | .tee x, .signed a => TeeM.emit w a x
  | _, _ => []

/-- TEE events of one operation; of the hook: tee/src/lib.rs 270-271 -/
def teeEmit (w : World) : Op → List TeeEvent
  | .call o x => match dispatch c x o w with | .ok _ => teeCallEmit c w x o | .error _ => []
  | .hookTee => match w.active with | none => [.noActiveEra w.now] | some _ => []
  | _ => []

/-- All TEE events of a run, oldest first, each with its block and the active era. -/
def teeHistory (w : World) : List Op → List ((Block × Option Era) × TeeEvent)
  | [] => []
  | o :: t => (teeEmit c w o).map (fun e => ((w.now, w.active), e)) ++ teeHistory (step c w o) t
