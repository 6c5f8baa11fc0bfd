import Verif.Proofs.SymTr
/-
Renaming commutes with the calls and the hook of the TEE pallet.
-/
open Spec Sym

theorem Sym.ren_swapRemoveBy {α : Type} (f : α → α) (p p' : α → Bool) (h : ∀ x, p' (f x) = p x) (l : List α) :
    swapRemoveBy p' (l.map f) = (swapRemoveBy p l).map f := by
  have : p' ∘ f = p := funext h
  simp only [swapRemoveBy, List.findIdx?_map, this, List.getLast?_map, List.length_map]
  cases l.findIdx? p with
  | none => rfl
  | some i =>
    cases l.getLast? with
    | none => rfl
    | some z =>
      simp only [Option.map_some]
      split <;> simp [List.map_dropLast, List.map_set]

namespace TeeM
variable (ρ : Ren) (c : Cfg) (w : World) (who : AccountId)

theorem ren_dropRegistration : dropRegistration (ρ.world w) (ρ.acc who) = Except.map ρ.world (dropRegistration w who) := by
  ren [dropRegistration, Ren.world, Ren.teeSt, World.putBal]

theorem ren_dropUpdate : dropUpdate (ρ.world w) (ρ.acc who) = Except.map ρ.world (dropUpdate w who) := by
  ren [dropUpdate, Ren.world, Ren.teeSt]

theorem ren_unassign : unassign (ρ.world w) (ρ.acc who) = Except.map ρ.world (unassign w who) := by
  have h1 : ∀ l : List (AccountId × SlotId), swapRemoveBy (fun x => decide (x.1 = ρ.acc who)) (l.map ρ.member) =
      (swapRemoveBy (fun x => decide (x.1 = who)) l).map ρ.member := fun l =>
    ren_swapRemoveBy ρ.member _ _ (fun x => by simp [Ren.member]) l
  have h2 : ∀ l : List AccountId, swapRemoveBy (fun x => decide (x = ρ.acc who)) (l.map ρ.acc) =
      (swapRemoveBy (fun x => decide (x = who)) l).map ρ.acc := fun l =>
    ren_swapRemoveBy ρ.acc _ _ (fun x => by simp) l
  ren [unassign, Ren.world, Ren.teeSt, Ren.cluster, Ren.enclave, h1, h2]

theorem ren_approveAddr (e : Enclave) (a : AccountId) :
    approveAddr (ρ.world w) (ρ.acc who) (ρ.enclave e) (ρ.acc a) = Except.map ρ.world (approveAddr w who e a) := by
  simp only [approveAddr, Ren.enclave, Ren.acc_eq]
  split
  · rfl
  · ren [Ren.world, Ren.teeSt]

theorem ren_forceAddr (e : Enclave) (a : Option AccountId) :
    forceAddr (ρ.world w) (ρ.acc who) (ρ.enclave e) (a.map ρ.acc) =
      Except.map (fun x => (ρ.world x.1, ρ.enclave x.2)) (forceAddr w who e a) := by
  cases a with
  | none => rfl
  | some a =>
    by_cases h : e.addr = a
    · ren [forceAddr, Ren.enclave, h]
    · ren [forceAddr, Ren.enclave, h, Ren.world, Ren.teeSt]

theorem ren_setKind (t : ClusterType) (l : List MetricsServer) :
    setKind (ρ.acc who) t (l.map ρ.server) = (setKind who t l).map ρ.server := by
  induction l with
  | nil => rfl
  | cons x r ih =>
    simp only [List.map_cons, setKind, Ren.server, Ren.acc_eq]
    split
    · rfl
    · simp [← ih, Ren.server]

theorem ren_putReport (r : Report) (l : List Report) :
    putReport (ρ.report r) (l.map ρ.report) = (putReport r l).map (List.map ρ.report) := by
  induction l with
  | nil => rfl
  | cons x t ih =>
    have : ((ρ.report x).by_ = (ρ.report r).by_) = (x.by_ = r.by_) := propext (ρ.acc_eq ..)
    simp only [List.map_cons, putReport, this, ih]
    split
    · rfl
    · cases putReport r t <;> rfl

theorem ren_addReport (r : Report) (l : List Report) :
    addReport (ρ.cfg c) (l.map ρ.report) (ρ.report r) = Except.map (List.map ρ.report) (addReport c l r) := by
  simp only [addReport, ren_putReport]
  cases putReport r l with
  | none => ren [Ren.cfg]
  | some l' => rfl

theorem ren_highest (l : List Report) : highest (l.map ρ.report) = highest l := by
  simp [highest, List.foldl_map, Ren.report]

theorem ren_reward (t : TeeSt) (e : Era) : reward (ρ.teeSt t) e (ρ.acc who) = reward t e who := by
  have h : (ρ.teeSt t).reports.get (e, ρ.acc who) = (t.reports.get (e, who)).map (List.map ρ.report) :=
    FMap.mapk_get ρ.eraAcc ρ.eraAcc_inj _ _ (e, who)
  have hs : share (ρ.teeSt t) = share t := by simp [share, Ren.teeSt]
  simp only [reward, h, hs]
  cases t.reports.get (e, who) with
  | none => rfl
  | some l => simp only [Option.map_some, ren_highest]; rfl

theorem ren_call (x : Call) : call (ρ.cfg c) (ρ.world w) (ρ.acc who) (ρ.teeCall x) = Except.map ρ.world (call c w who x) := by
  cases x with
  | register a u =>
    ren [call, Ren.teeCall, register, Ren.world, Ren.teeSt, World.putBal, Ren.ledger, Ren.enclave]
  | unregister =>
    have h : (ρ.world w).tee.data.get (ρ.acc who) = (w.tee.data.get who).map ρ.enclave :=
      FMap.mapk_get ρ.acc ρ.inj ..
    simp only [call, Ren.teeCall, unregister, h]
    cases w.tee.data.get who with
    | none => exact ren_dropRegistration ρ w who
    | some e => ren [unregisterAssigned, Ren.world, Ren.teeSt, Ren.ledger, Ren.cfg]
  | update a u => ren [call, Ren.teeCall, update, Ren.world, Ren.teeSt, Ren.enclave]
  | cancelUpdate => exact ren_dropUpdate ρ w who
  | withdraw => ren [call, Ren.teeCall, withdraw, Ren.world, Ren.teeSt, Ren.ledger, World.putBal, Ren.cfg]
  | submitReport a r =>
    have h1 : (ρ.world w).tee.servers.find? (fun x => decide (x.addr = ρ.acc who)) =
        (w.tee.servers.find? (fun x => decide (x.addr = who))).map ρ.server := by
      show (w.tee.servers.map ρ.server).find? _ = _
      rw [List.find?_map]
      congr! 2
      funext x
      simp [Ren.server]
    have h2 : ∀ e : Era, (ρ.world w).tee.reports.get (e, ρ.acc a) = (w.tee.reports.get (e, a)).map (List.map ρ.report) := fun e =>
      FMap.mapk_get ρ.eraAcc ρ.eraAcc_inj _ _ (e, a)
    have h3 : ∀ o : Option (List Report), (o.map (List.map ρ.report)).getD [] = (o.getD []).map ρ.report := fun o => by
      cases o <;> rfl
    have h4 : (ρ.world w).tee.data.get (ρ.acc a) = (w.tee.data.get a).map ρ.enclave := FMap.mapk_get ρ.acc ρ.inj ..
    have h5 : ∀ (e : Era) (m : FMap (Era × AccountId) (List Report)) l, (m.insert (e, a) l).mapk ρ.eraAcc ρ.eraAcc_inj (List.map ρ.report) =
      (m.mapk ρ.eraAcc ρ.eraAcc_inj (List.map ρ.report)).insert (e, ρ.acc a) (l.map ρ.report) := fun e m l => FMap.mapk_insert ..
    simp [-bind_pure_comp, call, Ren.teeCall, submitReport, h1, h2, h3, h4, ren_addReport]
    ren [Ren.world, Ren.teeSt, h5, World.ev, Ren.ev, Ren.server]
  | claim e =>
    have h1 : (ρ.world w).tee.claimed.get (e, ρ.acc who) = (w.tee.claimed.get (e, who)).map id :=
      FMap.mapk_get ρ.eraAcc ρ.eraAcc_inj _ _ (e, who)
    have h2 : (ρ.world w).tee.assignedEra.get (ρ.acc who) = (w.tee.assignedEra.get who).map id :=
      FMap.mapk_get ρ.acc ρ.inj ..
    have h3 : (ρ.world w).tee.data.get (ρ.acc who) = (w.tee.data.get who).map ρ.enclave := FMap.mapk_get ρ.acc ρ.inj ..
    have h4 : reward (ρ.world w).tee e (ρ.acc who) = reward w.tee e who := ren_reward ρ who w.tee e
    have h5 : ∀ (m : FMap (Era × AccountId) Balance) l, (m.insert (e, who) l).mapk ρ.eraAcc ρ.eraAcc_inj id =
      (m.mapk ρ.eraAcc ρ.eraAcc_inj id).insert (e, ρ.acc who) l := fun m l => FMap.mapk_insert ..
    simp [-bind_pure_comp, call, Ren.teeCall, claim, h1, h2, h3, h4]
    ren [Ren.world, Ren.teeSt, World.putBal, Ren.bal_transfer, Ren.cfg, h5, World.ev, Ren.ev]
  | bondExtra => ren [call, Ren.teeCall, bondExtra, Ren.world, Ren.teeSt, Ren.ledger, World.putBal]
  | refundExcess => ren [call, Ren.teeCall, refundExcess, Ren.world, Ren.teeSt, Ren.ledger, World.putBal]

theorem ren_root (x : RootCall) : root (ρ.cfg c) (ρ.world w) (ρ.teeRoot x) = Except.map ρ.world (root c w x) := by
  cases x with
  | assign a k s => ren [root, Ren.teeRoot, assign, Ren.world, Ren.teeSt, Ren.cluster, Ren.enclave, Ren.cfg, Ren.member]
  | removeRegistration a => exact ren_dropRegistration ρ w a
  | rejectUpdate a => exact ren_dropUpdate ρ w a
  | approveUnregister a =>
    simp only [root, Ren.teeRoot, approveUnregister, ren_unassign, map_bind']
    ren [Ren.world, Ren.teeSt]
  | forceRemove a =>
    simp only [root, Ren.teeRoot, forceRemove, ren_unassign, map_bind', bind_map']
    ren [Ren.world, Ren.teeSt, Ren.ledger]
  | approveUpdate a =>
    have h1 : (ρ.world w).tee.data.get (ρ.acc a) = (w.tee.data.get a).map ρ.enclave := FMap.mapk_get ρ.acc ρ.inj ..
    have h2 : (ρ.world w).tee.updates.get (ρ.acc a) = (w.tee.updates.get a).map ρ.enclave := FMap.mapk_get ρ.acc ρ.inj ..
    have h3 : ∀ e, (ρ.enclave e).addr = ρ.acc e.addr := fun _ => rfl
    simp only [root, Ren.teeRoot, approveUpdate, h1, h2, h3, getOr_map', bind_map', map_bind', ren_approveAddr]
    ren [Ren.world, Ren.teeSt, Ren.enclave]
  | forceUpdate a b u =>
    have h1 : (ρ.world w).tee.data.get (ρ.acc a) = (w.tee.data.get a).map ρ.enclave := FMap.mapk_get ρ.acc ρ.inj ..
    have h2 : ∀ d : Data, (u.map ρ.data).getD (ρ.data d) = ρ.data (u.getD d) := fun d => by cases u <;> rfl
    have h3 : (∀ x ∈ u.map ρ.data, x ≠ []) = (∀ x ∈ u, x ≠ []) := by cases u <;> simp
    simp only [root, Ren.teeRoot, forceUpdate, h1, getOr_map', bind_map', map_bind', ren_forceAddr, Option.isSome_map, h3]
    ren [Ren.world, Ren.teeSt, Ren.enclave, h2]
  | createCluster t => ren [root, Ren.teeRoot, createCluster, Ren.world, Ren.teeSt, Ren.cluster]
  | updateCluster k t => ren [root, Ren.teeRoot, updateCluster, Ren.world, Ren.teeSt, Ren.cluster]
  | removeCluster k => ren [root, Ren.teeRoot, removeCluster, Ren.world, Ren.teeSt, Ren.cluster]
  | registerServer s =>
    ren [root, Ren.teeRoot, registerServer, Ren.world, Ren.teeSt, Ren.server, Ren.cfg]
  | unregisterServer a =>
    have h : ∀ l : List MetricsServer, swapRemoveBy (fun x => decide (x.addr = ρ.acc a)) (l.map ρ.server) =
        (swapRemoveBy (fun x => decide (x.addr = a)) l).map ρ.server := fun l =>
      ren_swapRemoveBy ρ.server _ _ (fun x => by simp [Ren.server]) l
    simp [-bind_pure_comp, root, Ren.teeRoot, unregisterServer, Ren.world, Ren.teeSt, h]
    ren [Ren.server]
  | setServerType a t =>
    simp [-bind_pure_comp, root, Ren.teeRoot, setServerType, Ren.world, Ren.teeSt, ren_setKind]
    ren [Ren.server]
  | setWeights p => rfl
  | setStakingAmount x => rfl
  | setPool x => rfl
  | setAssignedEra a e => ren [root, Ren.teeRoot, setAssignedEra, Ren.world, Ren.teeSt]

theorem ren_clearEra (e : Era) : clearEra (ρ.world w) e = ρ.world (clearEra w e) := by
  simp only [clearEra, Ren.world, Ren.teeSt]
  rw [FMap.mapk_filterKeys _ _ _ _ (fun x => decide (x.1 ≠ e)) _ (fun k => rfl),
    FMap.mapk_filterKeys _ _ _ _ (fun x => decide (x.1 ≠ e)) _ (fun k => rfl)]

theorem ren_hook : hook (ρ.cfg c) (ρ.world w) = ρ.world (hook c w) := by
  simp only [hook, show (ρ.world w).active = w.active from rfl, show (ρ.cfg c).history = c.history from rfl]
  cases w.active with
  | none => rfl
  | some e =>
    simp only
    split
    · exact ren_clearEra ρ w _
    · rfl

end TeeM
