import Verif.Props.Sync
/-
Property C83: what root can order, and what exactly happens then.
-/
variable {c : Cfg} {w w' : World} {a : AccountId}
set_option maxRecDepth 10000

namespace TeeM

/-- Pending updates have an address other than the operator's and a URI; metrics servers have distinct addresses, and
at most the limit is registered. -/
structure GInv (c : Cfg) (t : TeeSt) : Prop where
  upd : ∀ op e, t.updates.get op = some e → e.addr ≠ op ∧ e.uri ≠ []
  srv : (t.servers.map (·.addr)).Nodup
  room : t.servers.length ≤ c.teeList

theorem GInv.congr {t t' : TeeSt} (h : GInv c t) (h1 : ∀ op e, t'.updates.get op = some e → t.updates.get op = some e)
    (h2 : t'.servers = t.servers) : GInv c t' :=
  ⟨fun op e he => h.upd op e (h1 op e he), by rw [h2]; exact h.srv, by rw [h2]; exact h.room⟩

theorem erase_some {f : FMap AccountId Enclave} {x op : AccountId} {e : Enclave} (h : (f.erase x).get op = some e) :
    f.get op = some e := by
  rw [FMap.get_erase] at h; split at h
  · simp at h
  · exact h

theorem setKind_addr {b : AccountId} {t : ClusterType} (l : List MetricsServer) :
    (setKind b t l).map (·.addr) = l.map (·.addr) := by
  induction l with
  | nil => rfl
  | cons x r ih => simp only [setKind]; split <;> simp [ih]

theorem setKind_mem {s : MetricsServer} {l : List MetricsServer} (hn : (l.map (·.addr)).Nodup)
    (he : ∃ x ∈ l, x.addr = s.addr) (x : MetricsServer) :
    x ∈ setKind s.addr s.kind l ↔ x = s ∨ (x ∈ l ∧ x.addr ≠ s.addr) := by
  induction l with
  | nil => simp at he
  | cons y r ih =>
    simp only [List.map_cons, List.nodup_cons] at hn
    simp only [setKind]
    split
    · rename_i hy
      have h1 : ∀ z ∈ r, z.addr ≠ s.addr := fun z hz e => hn.1 (by rw [hy, ← e]; exact List.mem_map_of_mem hz)
      simp only [List.mem_cons]
      constructor
      · rintro (rfl | h)
        · left; rw [hy]
        · exact Or.inr ⟨Or.inr h, h1 x h⟩
      · rintro (rfl | ⟨rfl | h, h2⟩)
        · left; rw [hy]
        · exact absurd hy h2
        · exact Or.inr h
    · rename_i hy
      have he' : ∃ x ∈ r, x.addr = s.addr := by
        obtain ⟨z, hz, e⟩ := he
        rcases List.mem_cons.1 hz with rfl | hz
        · exact absurd e hy
        · exact ⟨z, hz, e⟩
      simp only [List.mem_cons, ih hn.2 he']
      constructor
      · rintro (rfl | rfl | h)
        · exact Or.inr ⟨Or.inl rfl, hy⟩
        · exact Or.inl rfl
        · exact Or.inr ⟨Or.inr h.1, h.2⟩
      · rintro (rfl | ⟨rfl | h, h2⟩)
        · exact Or.inr (Or.inl rfl)
        · exact Or.inl rfl
        · exact Or.inr (Or.inr ⟨h, h2⟩)

theorem unassign_ginv {op} (h : unassign w op = .ok w') (hi : GInv c w.tee) : GInv c w'.tee := by
  simp only [unassign] at h; inv_ok at h
  obtain ⟨_, _, _, _, _, _, _, rfl⟩ := h
  exact hi.congr (fun _ _ => erase_some) rfl

theorem root_ginv {r : RootCall} (h : root c w r = .ok w') (hi : GInv c w.tee) : GInv c w'.tee := by
  cases r <;> simp only [root] at h
  case approveUnregister =>
    simp only [approveUnregister] at h; inv_ok at h
    exact unassign_ginv h.2 hi
  case forceRemove =>
    simp only [forceRemove] at h; inv_ok at h
    obtain ⟨w2, s, h5, _, rfl⟩ := h
    exact (unassign_ginv h5 hi).congr (fun _ _ => id) rfl
  case forceUpdate op ad uri =>
    cases ad <;> simp only [forceUpdate, forceAddr] at h <;> inv_ok at h
    · obtain ⟨_, y, _, _, h5, _, rfl⟩ := h; subst h5; exact hi.congr (fun _ _ => erase_some) rfl
    · obtain ⟨_, y, _, _, _, _, h5, _, rfl⟩ := h
      subst h5
      simp only
      split <;> exact hi.congr (fun _ _ => erase_some) rfl
  case approveUpdate op =>
    simp only [approveUpdate, approveAddr] at h; inv_ok at h
    obtain ⟨_, _, y, _, _, _, _, h5, rfl⟩ := h
    split at h5 <;> inv_ok at h5
    · subst h5; exact hi.congr (fun _ _ => erase_some) rfl
    · obtain ⟨_, rfl⟩ := h5; exact hi.congr (fun _ _ => erase_some) rfl
  case rejectUpdate =>
    simp only [dropUpdate] at h; inv_ok at h
    obtain ⟨_, _, rfl⟩ := h
    exact hi.congr (fun _ _ => erase_some) rfl
  case registerServer s =>
    simp only [registerServer] at h; inv_ok at h
    obtain ⟨h1, h2, rfl⟩ := h
    refine ⟨hi.upd, ?_, by simp; omega⟩
    simp only [List.map_append, List.map_cons, List.map_nil, List.nodup_append, hi.srv, List.nodup_cons,
      List.not_mem_nil, not_false_eq_true, List.nodup_nil, and_self, true_and, List.mem_singleton]
    rintro x hx y rfl rfl
    obtain ⟨z, hz, e⟩ := List.mem_map.1 hx
    exact h1 z hz e
  case unregisterServer b =>
    simp only [unregisterServer] at h; inv_ok at h
    obtain ⟨_, _, _, rfl⟩ := h
    refine ⟨hi.upd, ?_, ?_⟩
    · exact swapRemoveBy_nodup MetricsServer.addr b hi.srv
    · exact Nat.le_trans (swapRemoveBy_length _ _) hi.room
  case setServerType b t =>
    simp only [setServerType] at h; inv_ok at h
    obtain ⟨_, _, _, rfl⟩ := h
    have e := setKind_addr (b := b) (t := t) w.tee.servers
    refine ⟨hi.upd, by rw [e]; exact hi.srv, ?_⟩
    have := congrArg List.length e
    simp only [List.length_map] at this
    simp only [this]; exact hi.room
  all_goals
    simp only [assign, dropRegistration, createCluster, updateCluster, removeCluster, setWeights, setStakingAmount,
      setPool, setAssignedEra] at h
    frame_auto at h
    exact hi.congr (fun _ _ => id) rfl

end TeeM

theorem Reach.ginv (hr : Reach c w) : TeeM.GInv c w.tee := by
  induction hr with
  | init h =>
    have := h.tee
    refine ⟨fun op e he => ?_, ?_, ?_⟩
    · rw [this.2.2.1] at he; simp at he
    · rw [this.2.2.2.2.2.2.2.2.1]; simp
    · rw [this.2.2.2.2.2.2.2.2.1]; simp
  | @step w o hr ho ih =>
    have hs := step_tee (c := c) w o ho
    generalize _root_.step c w o = w' at hs
    cases hs with
    | quiet h => rw [h]; exact ih
    | hook _ h =>
      subst h
      rcases TeeM.hook_eq (c := c) w with h | ⟨_, _, _, h⟩ <;> rw [h]
      · exact ih
      · exact ih.congr (fun _ _ => id) rfl
    | root h1 h2 h3 h4 h5 h6 =>
      subst h6
      exact (TeeM.root_ginv h4 ih).congr (fun _ _ => id) rfl
    | call h1 h2 h3 =>
      rename_i x
      cases x <;> simp only [TeeM.call] at h3
      case unregister =>
        simp only [TeeM.unregister, TeeM.dropRegistration, TeeM.unregisterAssigned] at h3
        split at h3 <;> frame_auto at h3 <;> exact ih.congr (fun _ _ => id) rfl
      case update ad uri =>
        simp only [TeeM.update] at h3; inv_ok at h3
        obtain ⟨_, h4, h5, _, _, _, rfl⟩ := h3
        refine ⟨fun op e he => ?_, ih.srv, ih.room⟩
        rw [FMap.get_insert] at he
        split at he
        · subst_vars; simp at he; subst he; exact ⟨fun e => h5 e.symm, h4⟩
        · exact ih.upd op e he
      case cancelUpdate =>
        simp only [TeeM.dropUpdate] at h3; inv_ok at h3
        obtain ⟨_, _, rfl⟩ := h3
        exact ih.congr (fun _ _ => TeeM.erase_some) rfl
      all_goals
        simp only [TeeM.register, TeeM.withdraw, TeeM.submitReport, TeeM.claim,
          TeeM.bondExtra, TeeM.refundExcess] at h3
        frame_auto at h3
        exact ih.congr (fun _ _ => id) rfl

/- C83 -/

/-- Root can set every fee to every amount; nothing else changes. -/
theorem C83_fees (w : World) (x : Balance) (k : ProtocolKind) :
    dispatch c (.root (.nftFee x)) .root w = .ok { w with nft := { w.nft with fee := x } } ∧
    dispatch c (.root (.secretFee x)) .root w = .ok { w with nft := { w.nft with secretFee := x } } ∧
    dispatch c (.root (.capsuleFee x)) .root w = .ok { w with nft := { w.nft with capsuleFee := x } } ∧
    dispatch c (.root (.mktFee x)) .root w = .ok { w with mkt := { w.mkt with fee := x } } ∧
    dispatch c (.root (.trFee k x)) .root w = .ok { w with
      tr := { w.tr with
        feeAt := if k = .atBlock then x else w.tr.feeAt
        feeReset := if k = .atBlockWithReset then x else w.tr.feeReset
        feeConsent := if k = .onConsent then x else w.tr.feeConsent
        feeConsentAt := if k = .onConsentAtBlock then x else w.tr.feeConsentAt } } := by
  refine ⟨rfl, rfl, rfl, rfl, ?_⟩
  cases k <;> rfl

/-- Root can set the weights of reports, the staking amount and the reward pool to everything; nothing else
changes. -/
theorem C83_params (w : World) (x : Balance) (p : Params) :
    dispatch c (.root (.tee (.setWeights p))) .root w = .ok { w with tee := { w.tee with weights := p } } ∧
    dispatch c (.root (.tee (.setStakingAmount x))) .root w =
      .ok { w with tee := { w.tee with stakingAmount := x } } ∧
    dispatch c (.root (.tee (.setPool x))) .root w = .ok { w with tee := { w.tee with pool := x } } :=
  ⟨rfl, rfl, rfl⟩

/-- Root can refuse every registration that is not assigned yet: the whole stake is free again. -/
theorem C83_refuse {op : AccountId} {e : Enclave} (h : w.tee.registrations.get op = some e) :
    dispatch c (.root (.tee (.removeRegistration op))) .root w = .ok { w with
      bal := { w.bal with tee := w.bal.tee.erase op }
      tee := { w.tee with
        registrations := w.tee.registrations.erase op
        ledger := w.tee.ledger.erase op } } := by
  eval_ok [rootCall, TeeM.root, TeeM.dropRegistration, h, Bal.removeLock, World.putBal]

/-- Root can reject every requested update; the enclave stays as it is. -/
theorem C83_reject {op : AccountId} {e : Enclave} (h : w.tee.updates.get op = some e) :
    dispatch c (.root (.tee (.rejectUpdate op))) .root w = .ok { w with
      tee := { w.tee with updates := w.tee.updates.erase op } } := by
  eval_ok [rootCall, TeeM.root, TeeM.dropUpdate, h]

/-- Root can approve every requested update whose address nobody took in the meantime, and then the enclave is as
requested.  (The old address still authenticates, see `C44_fails`.) -/
theorem C83_approve (hr : Reach c w) {op : AccountId} {e u : Enclave} (h : w.tee.updates.get op = some u)
    (hd : w.tee.data.get op = some e) (h1 : u.addr = e.addr ∨ w.tee.accOp.get u.addr = none) :
    ∃ t, dispatch c (.root (.tee (.approveUpdate op))) .root w = .ok { w with
      tee := { w.tee with
        accOp := t
        data := w.tee.data.insert op u
        updates := w.tee.updates.erase op } } ∧
      ∀ x, t.get x = if x = u.addr then some op else w.tee.accOp.get x := by
  obtain ⟨h2, h3⟩ := hr.ginv.upd op u h
  by_cases he : e.addr = u.addr
  · refine ⟨w.tee.accOp, ?_, fun x => ?_⟩
    · eval_ok [rootCall, TeeM.root, TeeM.approveUpdate, TeeM.approveAddr, h, hd, h3, h2.symm, he]
    · split
      · subst_vars; rw [← he]; exact hr.tinv.addr op e hd
      · rfl
  · have h4 : w.tee.accOp.get u.addr = none := h1.resolve_left (fun e => he e.symm)
    refine ⟨w.tee.accOp.insert u.addr op, ?_, fun x => by rw [FMap.get_insert]⟩
    eval_ok [rootCall, TeeM.root, TeeM.approveUpdate, TeeM.approveAddr, h, hd, h3, h2.symm, he, h4]

/-- Root can give every assigned operator another address that nobody else has, another URI, or both: the old address
does not authenticate any more, and a pending update is dropped. -/
theorem C83_force (hr : Reach c w) {op : AccountId} {e : Enclave} (hd : w.tee.data.get op = some e)
    {ad : Option AccountId} {uri : Option Data} (h1 : ad ≠ none ∨ uri ≠ none)
    (h2 : ∀ x, ad = some x → x ≠ op ∧ (x = e.addr ∨ w.tee.accOp.get x = none)) (h3 : uri ≠ some []) :
    ∃ t, dispatch c (.root (.tee (.forceUpdate op ad uri))) .root w = .ok { w with
      tee := { w.tee with
        accOp := t
        data := w.tee.data.insert op ⟨ad.getD e.addr, uri.getD e.uri⟩
        updates := w.tee.updates.erase op } } ∧
      ∀ x, t.get x = if x = ad.getD e.addr then some op else if x = e.addr then none else w.tee.accOp.get x := by
  have ha := hr.tinv.addr op e hd
  have h4 : ∀ u ∈ uri, u ≠ [] := by
    rintro u hu rfl; exact h3 hu
  have h4' : ∀ u, uri = some u → ¬ u = [] := h4
  cases ad with
  | none =>
    have h5 : uri.isSome := by cases uri <;> simp_all
    refine ⟨w.tee.accOp, ?_, fun x => ?_⟩
    · eval_ok [rootCall, TeeM.root, TeeM.forceUpdate, TeeM.forceAddr, hd, h5]
      rw [if_pos h4']
    · simp only [Option.getD_none]
      split
      · subst_vars; exact ha
      · rfl
  | some ad =>
    obtain ⟨h5, h6⟩ := h2 ad rfl
    by_cases he : e.addr = ad
    · subst he
      refine ⟨w.tee.accOp, ?_, fun x => ?_⟩
      · eval_ok [rootCall, TeeM.root, TeeM.forceUpdate, TeeM.forceAddr, hd, h5.symm]
        rw [if_pos h4']
      · simp only [Option.getD_some]
        split
        · subst_vars; exact ha
        · rfl
    · have h7 : w.tee.accOp.get ad = none := h6.resolve_left (fun e => he e.symm)
      refine ⟨(w.tee.accOp.erase e.addr).insert ad op, ?_, fun x => ?_⟩
      · eval_ok [rootCall, TeeM.root, TeeM.forceUpdate, TeeM.forceAddr, hd, h5.symm, he, h7]
        rw [if_pos h4']
      · simp only [FMap.get_insert, FMap.get_erase, Option.getD_some]

/-- Root can create a cluster, which is empty and has a new id, while ids are left; can change the type of every
cluster; and can remove every empty one. -/
theorem C83_clusters (hr : Reach c w) (t : ClusterType) :
    (w.tee.nextCluster < U32MAX →
      w.tee.clusters.get w.tee.nextCluster = none ∧
      dispatch c (.root (.tee (.createCluster t))) .root w = .ok { w with
        tee := { w.tee with
          nextCluster := w.tee.nextCluster + 1
          clusters := w.tee.clusters.insert w.tee.nextCluster ⟨[], t⟩ } }) ∧
    ∀ k x, w.tee.clusters.get k = some x →
      dispatch c (.root (.tee (.updateCluster k t))) .root w = .ok { w with
        tee := { w.tee with clusters := w.tee.clusters.insert k ⟨x.enclaves, t⟩ } } ∧
      (x.enclaves = [] → dispatch c (.root (.tee (.removeCluster k))) .root w = .ok { w with
        tee := { w.tee with clusters := w.tee.clusters.erase k } }) := by
  refine ⟨fun h => ⟨hr.tinv.fresh _ (Nat.le_refl _), ?_⟩, fun k x h => ⟨?_, fun h1 => ?_⟩⟩
  · eval_ok [rootCall, TeeM.root, TeeM.createCluster, h, expectSome]
  · eval_ok [rootCall, TeeM.root, TeeM.updateCluster, h]
  · eval_ok [rootCall, TeeM.root, TeeM.removeCluster, h, h1]

/-- Root can set the era an assigned operator counts from. -/
theorem C83_era {op : AccountId} {e0 : Era} (h : w.tee.assignedEra.get op = some e0) (e : Era) :
    dispatch c (.root (.tee (.setAssignedEra op e))) .root w = .ok { w with
      tee := { w.tee with assignedEra := w.tee.assignedEra.insert op e } } := by
  eval_ok [rootCall, TeeM.root, TeeM.setAssignedEra, h]

/-- Metrics servers have distinct addresses, and at most the limit is registered. -/
theorem C83_servers_distinct (hr : Reach c w) :
    (w.tee.servers.map (·.addr)).Nodup ∧ w.tee.servers.length ≤ c.teeList :=
  ⟨hr.ginv.srv, hr.ginv.room⟩

/-- Root can register a metrics server with a new address while there is room, and change the type of or remove
every registered one; the other servers stay. -/
theorem C83_servers (hr : Reach c w) (s : MetricsServer) :
    ((∀ x ∈ w.tee.servers, x.addr ≠ s.addr) → w.tee.servers.length < c.teeList →
      dispatch c (.root (.tee (.registerServer s))) .root w = .ok { w with
        tee := { w.tee with servers := w.tee.servers ++ [s] } }) ∧
    ((∃ x ∈ w.tee.servers, x.addr = s.addr) →
      (∃ l, dispatch c (.root (.tee (.unregisterServer s.addr))) .root w = .ok { w with
          tee := { w.tee with servers := l } } ∧ ∀ x, x ∈ l ↔ x ∈ w.tee.servers ∧ x.addr ≠ s.addr) ∧
      (∃ l, dispatch c (.root (.tee (.setServerType s.addr s.kind))) .root w = .ok { w with
          tee := { w.tee with servers := l } } ∧
        ∀ x, x ∈ l ↔ x = s ∨ (x ∈ w.tee.servers ∧ x.addr ≠ s.addr))) := by
  obtain ⟨hn, _⟩ := C83_servers_distinct hr
  refine ⟨fun h1 h2 => ?_, fun h => ⟨⟨swapRemoveBy (fun x => decide (x.addr = s.addr)) w.tee.servers, ?_,
    fun x => ?_⟩, ⟨TeeM.setKind s.addr s.kind w.tee.servers, ?_, fun x => ?_⟩⟩⟩
  · eval_ok [rootCall, TeeM.root, TeeM.registerServer, h2]
    rw [if_pos (fun x hx => h1 x hx)]
  · eval_ok [rootCall, TeeM.root, TeeM.unregisterServer, h]
  · rw [(swapRemoveBy_key MetricsServer.addr s.addr hn).mem_iff, List.mem_filter, decide_eq_true_eq]
  · eval_ok [rootCall, TeeM.root, TeeM.setServerType, h]
  · exact TeeM.setKind_mem hn h x

namespace Demo
/-- operator 8 asks for another address, operator 6 is registered only, cluster 1 is empty -/
abbrev pending : List Op := enclaves ++
  [by_ 8 (.tee (.update 28 [2])), by_ 6 (.tee (.register 16 [1])), .call .root (.root (.tee (.createCluster .admin)))]
end Demo

example : Reach Demo.cfg (Demo.at_ Demo.pending) ∧
    (Demo.at_ Demo.pending).tee.updates.get 8 = some ⟨28, [2]⟩ ∧
    (Demo.at_ Demo.pending).tee.data.get 8 = some ⟨18, [1]⟩ ∧
    (Demo.at_ Demo.pending).tee.accOp.get 28 = none ∧
    (Demo.at_ Demo.pending).tee.registrations.get 6 = some ⟨16, [1]⟩ ∧
    ((Demo.at_ Demo.pending).tee.clusters.get 1).map (·.enclaves) = some [] ∧
    (Demo.at_ Demo.pending).tee.nextCluster < U32MAX ∧
    (Demo.at_ Demo.pending).tee.assignedEra.get 8 = some 5 ∧
    (Demo.at_ Demo.pending).tee.servers.map (·.addr) = [7] ∧ 1 < Demo.cfg.teeList :=
  ⟨Demo.reach _ (by decide), by decide, by decide, by decide, by decide, by decide, by decide, by decide, by decide,
    by decide⟩

-- the same state: fees, parameters, a refused registration, a rejected, approved and forced update, a cluster that is
-- empty, the era of an assignment, and the metrics server
open Demo in
example := C83_fees (c := cfg) (at_ pending) 9 .onConsent

open Demo in
example := C83_params (c := cfg) (at_ pending) 9 ⟨10, 10, 10, 10, 60⟩

open Demo in
example := C83_refuse (c := cfg) (w := at_ pending) (op := 6) (e := ⟨16, [1]⟩) rfl

open Demo in
example := C83_reject (c := cfg) (w := at_ pending) (op := 8) (e := ⟨28, [2]⟩) rfl

open Demo in
example := C83_approve (reach pending (by decide)) (op := 8) (e := ⟨18, [1]⟩) (u := ⟨28, [2]⟩) rfl rfl (.inr rfl)

open Demo in
example := C83_force (reach pending (by decide)) (op := 9) (e := ⟨19, [1]⟩) (ad := some 29) (uri := none) rfl (.inl (by simp))
  (by intro x h; cases h; exact ⟨by decide, .inr rfl⟩) (by simp)

open Demo in
example := (C83_clusters (reach pending (by decide)) .priv).2 1 ⟨[], .admin⟩ rfl

open Demo in
example := C83_era (c := cfg) (w := at_ pending) (op := 8) (e0 := 5) rfl 3

open Demo in
example := C83_servers_distinct (reach pending (by decide))

open Demo in
example := (C83_servers (reach pending (by decide)) ⟨7, .admin⟩).2 (by decide)
