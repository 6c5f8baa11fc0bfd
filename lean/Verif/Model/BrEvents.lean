import Verif.Model.Step
/-
The events the bridge, staking-rewards and mandate pallets deposit.

As in Model/Events.lean they are modelled apart from the calls: `brEmit c w o` is what operation `o` deposits when it
happens in world `w`, oldest first; nothing if it fails.  (The ghost log `World.evs` also has votes, approvals and deposits,
with more detail than the real events.)
-/

/-- `Event` of bridge/src/lib.rs 152-171, staking-rewards/src/lib.rs 108-110 and mandate/src/lib.rs 78-81 (of the result
only whether it is an error). -/
inductive BrEvent where
  | feeUpdated (x : Balance)
  | depositMade (k : ChainId) (nonce : Nat) (amount : Balance) (recipient : Data)
  | nonceUpdated (k : ChainId) (nonce : Nat)
  | chainAllowed (k : ChainId)
  | proposalApproved (k : ChainId) (nonce : Nat)
  | thresholdUpdated (t : Nat)
  | relayerVoted (k : ChainId) (nonce : Nat) (a : AccountId)
  | relayersUpdated (l : List AccountId)
  | extraChanged (x : Balance)
  | rootOp (ok : Bool)
deriving DecidableEq

variable (c : Cfg)

namespace BrM

/-- Events of a successful signed call, bridge/src/lib.rs 319, 331, 368. -/
def emit (w : World) (who : AccountId) : Call → List BrEvent
  | .vote k t => .relayerVoted k t.nonce who ::
    match vote c w who (w.br.votes.get (k, t)) with
    | .ok (_, true) => [.proposalApproved k t.nonce]
    | _ => []
  | .deposit v r d => [.depositMade d (((w.br.nonces.get d).getD 0 + 1) % (U64MAX + 1)) v r]

/-- Events of a successful call of the external origin, bridge/src/lib.rs 213, 229, 244, 267, 382 and
staking-rewards/src/lib.rs 99. -/
def extEmit : ExtCall → List BrEvent
  | .setThreshold t => [.thresholdUpdated t]
  | .addChain k => [.chainAllowed k]
  | .setRelayers l => [.relayersUpdated l]
  | .setNonce k n => [.nonceUpdated k n]
  | .setFee x => [.feeUpdated x]
  | .setExtra x => [.extraChanged x]

end BrM

/-- Bridge events of a call that succeeds; `mandate` keeps those of an inner call that succeeds and tells whether it did,
mandate/src/lib.rs 61-74. -/
def brCallEmit (w : World) : Call → Origin → List BrEvent
  | .mandate x, .root =>
    match dispatch c x .root w with | .ok _ => brCallEmit w x .root ++ [.rootOp true] | .error _ => [.rootOp false]
  | .mandate x, .ext =>
    match dispatch c x .root w with | .ok _ => brCallEmit w x .root ++ [.rootOp true] | .error _ => [.rootOp false]
  | .ext x, .root => BrM.extEmit x
  | .ext x, .ext => BrM.extEmit x
  | .br x, .signed a => BrM.emit c w a x
  | _, _ => []

/-- bridge events of one operation -/
def brEmit (w : World) : Op → List BrEvent
  | .call o x => match dispatch c x o w with | .ok _ => brCallEmit c w x o | .error _ => []
  | _ => []

/-- All these events of a run, oldest first. -/
def brHistory (w : World) : List Op → List BrEvent
  | [] => []
  | o :: t => brEmit c w o ++ brHistory (step c w o) t
