import Verif.Proofs.LaterTr
/-
Moving in time commutes with the calls and the hook of the TEE pallet.
-/
open Spec Sym

namespace TeeM
variable (k : Block) (c : Cfg) (w : World) (who : AccountId)

theorem later_get (a : AccountId) : (Later.world k w).tee.ledger.get a = (w.tee.ledger.get a).map (Later.ledger k) :=
  FMap.mapv_get ..

theorem later_dropRegistration : dropRegistration (Later.world k w) who = Except.map (Later.world k) (dropRegistration w who) := by
  ren [dropRegistration, Later.world, Later.teeSt, World.putBal]

theorem later_dropUpdate : dropUpdate (Later.world k w) who = Except.map (Later.world k) (dropUpdate w who) := by
  lat [dropUpdate]

theorem later_unassign : unassign (Later.world k w) who = Except.map (Later.world k) (unassign w who) := by
  lat [unassign]

theorem later_approveAddr (e : Enclave) (a : AccountId) :
    approveAddr (Later.world k w) who e a = Except.map (Later.world k) (approveAddr w who e a) := by
  simp only [approveAddr]
  split
  · rfl
  · lat []

theorem later_forceAddr (e : Enclave) (a : Option AccountId) :
    forceAddr (Later.world k w) who e a = Except.map (fun x => (Later.world k x.1, x.2)) (forceAddr w who e a) := by
  cases a with
  | none => rfl
  | some a =>
    by_cases h : e.addr = a
    · simp only [forceAddr, if_pos h]; lat []
    · simp only [forceAddr, if_neg h]; lat []

theorem later_unbond (l : Ledger) :
    ({ Later.ledger k l with unlocking := true, unbondedAt := (Later.world k w).now } : Ledger) =
      Later.ledger k { l with unlocking := true, unbondedAt := w.now } := by
  by_cases h : l.unlocking = true <;> simp [Later.ledger, h, Later.world]

theorem later_staked (l : Ledger) (v : Balance) :
    ({ Later.ledger k l with staked := v } : Ledger) = Later.ledger k { l with staked := v } := by
  by_cases h : l.unlocking = true <;> simp [Later.ledger, h]

theorem later_stake (l : Ledger) : (Later.ledger k l).staked = l.staked := by
  by_cases h : l.unlocking = true <;> simp [Later.ledger, h]

theorem later_unlocking (l : Ledger) : (Later.ledger k l).unlocking = l.unlocking := by
  by_cases h : l.unlocking = true <;> simp [Later.ledger, h]

theorem later_put (l : Ledger) : ({ Later.world k w with tee := { (Later.world k w).tee with
      ledger := (Later.world k w).tee.ledger.insert who (Later.ledger k l) } } : World) =
    Later.world k { w with tee := { w.tee with ledger := w.tee.ledger.insert who l } } := by
  simp [Later.world, Later.teeSt]

theorem later_call (x : Call) : call c (Later.world k w) who x = Except.map (Later.world k) (call c w who x) := by
  cases x with
  | register a u =>
    ren [call, register, Later.world, Later.teeSt, World.putBal, Later.ledger]
  | unregister =>
    have h : (Later.world k w).tee.data = w.tee.data := rfl
    simp only [call, unregister, h]
    cases w.tee.data.get who with
    | none => exact later_dropRegistration k w who
    | some e =>
      simp only [unregisterAssigned, later_get, getOr_map', bind_map', map_bind', map_pure', later_unbond]
      ren [Later.world, Later.teeSt]
  | update a u => lat [call, update]
  | cancelUpdate => exact later_dropUpdate k w who
  | withdraw =>
    simp only [call, withdraw, later_get, getOr_map', bind_map', map_bind', map_pure']
    congr 1
    funext l
    by_cases h : l.unlocking = true
    · have h1 : (Later.ledger k l).unbondedAt = l.unbondedAt + k := by simp [Later.ledger, h]
      have h2 : (Later.world k w).now - (l.unbondedAt + k) = w.now - l.unbondedAt := Nat.add_sub_add_right ..
      simp only [later_unlocking, h1, h2]
      ren [Later.world, Later.teeSt, World.putBal]
    · simp only [later_unlocking, require, h]
      rfl
  | submitReport a r =>
    simp only [call, submitReport, map_bind', map_pure']
    ren [Later.world, Later.teeSt, World.ev, Later.ev]
  | claim e =>
    have h : reward (Later.world k w).tee e who = reward w.tee e who := rfl
    simp only [call, claim, map_bind', map_pure', h]
    ren [Later.world, World.ev, Later.ev, World.putBal, Later.teeSt]
  | bondExtra =>
    simp only [call, bondExtra, later_get, getOr_map', bind_map', map_bind', map_pure', later_stake, later_staked]
    ren [Later.world, Later.teeSt, World.putBal]
  | refundExcess =>
    simp only [call, refundExcess, later_get, getOr_map', bind_map', map_bind', map_pure', later_stake, later_staked]
    ren [Later.world, Later.teeSt, World.putBal]

theorem later_root (x : RootCall) : root c (Later.world k w) x = Except.map (Later.world k) (root c w x) := by
  cases x with
  | assign a s t => lat [root, assign]
  | removeRegistration a => exact later_dropRegistration k w a
  | rejectUpdate a => exact later_dropUpdate k w a
  | approveUnregister a => lat [root, approveUnregister, later_unassign]
  | forceRemove a =>
    simp only [root, forceRemove, later_unassign, later_get, getOr_map', bind_map', map_bind', map_pure', later_unbond]
    ren [Later.world, Later.teeSt]
  | approveUpdate a => lat [root, approveUpdate, later_approveAddr]
  | forceUpdate a b u => lat [root, forceUpdate, later_forceAddr]
  | createCluster t => lat [root, createCluster]
  | updateCluster x t => lat [root, updateCluster]
  | removeCluster x => lat [root, removeCluster]
  | registerServer s => lat [root, registerServer]
  | unregisterServer a => lat [root, unregisterServer]
  | setServerType a t => lat [root, setServerType]
  | setWeights p => rfl
  | setStakingAmount x => rfl
  | setPool x => rfl
  | setAssignedEra a e => lat [root, setAssignedEra]

theorem later_hook : hook c (Later.world k w) = Later.world k (hook c w) := by
  simp only [hook, show (Later.world k w).active = w.active from rfl]
  cases w.active with
  | none => rfl
  | some e =>
    simp only
    split <;> rfl

end TeeM
