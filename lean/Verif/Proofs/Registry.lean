import Verif.Props.RegistrySpec
import Verif.Props.Govern
/-
What an observer of the TEE events writes down is what the operations store.
-/
open Spec

variable {c : Cfg} {w w' : World} {a : AccountId}

/-- the observer reads the events of one operation -/
abbrev Spec.noted (now : Block) (era : Option Era) (r : Registry) (l : List TeeEvent) : Registry :=
  l.foldl (note now era) r

macro "regi" : tactic => `(tactic| (
  simp only [Spec.noted, List.foldl_cons, List.foldl_nil, note]
  apply Registry.ext <;> (first | rfl | (
    funext m
    simp only [registry, Registry.on, Registry.put, Registry.move, FMap.get_insert, FMap.get_erase, FMap.get_set,
      World.putBal, World.ev] <;>
    (first | rfl | (split <;> simp_all [Registry.put, FMap.get_insert, FMap.get_erase]))))))

theorem TeeM.seen {x} (h : call c w a x = .ok w') :
    registry w' = noted w.now w.active (registry w) (emit w a x) := by
  cases x <;> simp only [call] at h <;> simp only [emit]
  case register b u =>
    simp only [register] at h; inv_ok at h
    obtain ⟨_, _, _, _, _, _, _, _, rfl⟩ := h
    regi
  case unregister =>
    cases e : w.tee.data.get a with
    | none =>
      simp only [unregister, e, dropRegistration] at h; inv_ok at h
      obtain ⟨_, h1, rfl⟩ := h
      regi
    | some d =>
      simp only [unregister, e, unregisterAssigned] at h; inv_ok at h
      obtain ⟨s, h1, h2, h3, rfl⟩ := h
      regi
  case update b u =>
    simp only [update] at h; inv_ok at h
    obtain ⟨e, _, _, _, _, _, rfl⟩ := h
    regi
  case cancelUpdate =>
    simp only [dropUpdate] at h; inv_ok at h
    obtain ⟨e, _, rfl⟩ := h
    regi
  case withdraw =>
    simp only [withdraw] at h; inv_ok at h
    obtain ⟨s, _, _, _, rfl⟩ := h
    regi
  case submitReport op r =>
    simp only [submitReport] at h; inv_ok at h
    obtain ⟨_, _, _, _, _, _, _, _, _, rfl⟩ := h
    regi
  case claim e =>
    simp only [claim] at h; inv_ok at h
    obtain ⟨_, _, _, _, _, _, _, _, _, _, _, _, rfl⟩ := h
    regi
  case bondExtra =>
    simp only [bondExtra] at h; inv_ok at h
    obtain ⟨s, hs, h1, h2, h3, rfl⟩ := h
    have e : stakedBy w a = s.staked := by simp [stakedBy, hs]
    rw [e]
    have := Nat.add_sub_cancel' (Nat.le_of_lt h1)
    regi
  case refundExcess =>
    simp only [refundExcess] at h; inv_ok at h
    obtain ⟨s, hs, h1, rfl⟩ := h
    have e : stakedBy w a = s.staked := by simp [stakedBy, hs]
    rw [e]
    have := Nat.sub_sub_self (Nat.le_of_lt h1)
    regi

theorem TeeM.unassign_ok {op} (h : unassign w op = .ok w') : ∃ e k cl,
    w.tee.data.get op = some e ∧ w.tee.opCluster.get op = some k ∧ w.tee.clusters.get k = some cl ∧
    w' = { w with tee := { w.tee with
      updates := w.tee.updates.erase op
      clusters := w.tee.clusters.insert k
        { cl with enclaves := swapRemoveBy (fun x => decide (x.1 = op)) cl.enclaves }
      opCluster := w.tee.opCluster.erase op
      assignedEra := w.tee.assignedEra.erase op
      accOp := w.tee.accOp.erase e.addr
      data := w.tee.data.erase op
      unregs := swapRemoveBy (fun x => decide (x = op)) w.tee.unregs } } := by
  simp only [unassign] at h; inv_ok at h
  obtain ⟨e, k, cl, h1, _, h2, h3, rfl⟩ := h
  exact ⟨e, k, cl, h1, h2, h3, rfl⟩

theorem TeeM.mem_left {l : List AccountId} (h : l.Nodup) (op m : AccountId) :
    m ∈ swapRemoveBy (fun x => decide (x = op)) l ↔ m ∈ l ∧ m ≠ op := by
  simpa using swapRemoveBy_mem id op (l := l) (by simpa using h) m

theorem TeeM.server_find {l : List MetricsServer} (h : (l.map (·.addr)).Nodup) (s : MetricsServer) :
    s ∈ l ↔ (l.find? fun x => x.addr = s.addr).map (·.kind) = some s.kind := by
  constructor
  · intro hs
    cases e : l.find? (fun x => decide (x.addr = s.addr)) with
    | none =>
      simp only [List.find?_eq_none, decide_eq_true_eq] at e
      exact absurd rfl (e s hs)
    | some x =>
      have h1 := List.mem_of_find?_eq_some e
      have h2 := List.find?_some e
      simp only [decide_eq_true_eq] at h2
      rw [List.inj_on_of_nodup_map h h1 hs h2]; rfl
  · intro hs
    cases e : l.find? (fun x => decide (x.addr = s.addr)) with
    | none => rw [e] at hs; simp at hs
    | some x =>
      have h1 := List.mem_of_find?_eq_some e
      have h2 := List.find?_some e
      simp only [decide_eq_true_eq] at h2
      rw [e] at hs
      simp only [Option.map_some, Option.some.injEq] at hs
      have : x = s := by cases x; cases s; simp_all
      rwa [← this]

/-- only the servers change -/
theorem TeeM.servers_seen {l : List MetricsServer} {b : AccountId} {v : Option ClusterType} {r : Registry}
    (h0 : (w.tee.servers.map (·.addr)).Nodup) (h : (l.map (·.addr)).Nodup)
    (hl : ∀ s, s ∈ l ↔ (s.addr = b ∧ v = some s.kind) ∨ (s ∈ w.tee.servers ∧ s.addr ≠ b))
    (e : r = { registry w with server := Registry.put (registry w).server b v }) :
    registry { w with tee := { w.tee with servers := l } } = r := by
  subst e
  apply Registry.ext <;> first | rfl | skip
  funext m
  have key : ∀ t, (l.find? fun s => s.addr = m).map (·.kind) = some t ↔
      Registry.put (registry w).server b v m = some t := fun t => by
    rw [← server_find h ⟨m, t⟩, hl, server_find h0 ⟨m, t⟩]
    by_cases e : m = b <;> simp [Registry.put, registry, e]
  show (l.find? fun s => s.addr = m).map (·.kind) = Registry.put (registry w).server b v m
  exact Option.ext key

theorem TeeM.root_seen (hr : Reach c w) {r} (h : root c w r = .ok w') :
    registry w' = noted w.now w.active (registry w) (rootEmit w r) := by
  have hi := hr.tinv
  have hn := hr.ginv.srv
  have hn' : (w'.tee.servers.map (·.addr)).Nodup := by
    have e : step c w (.call .root (.root (.tee r))) = w' := by simp [step, dispatch, rootCall, h, orSame]
    rw [← e]
    exact (Reach.step (.call .root (.root (.tee r))) hr (by simp [Op.Ok])).ginv.srv
  cases r <;> simp only [root] at h <;> simp only [rootEmit]
  case assign op k s =>
    simp only [assign] at h; inv_ok at h
    obtain ⟨e, cl, er, h1, h2, _, _, _, h3, rfl⟩ := h
    regi
  case removeRegistration op =>
    simp only [dropRegistration] at h; inv_ok at h
    obtain ⟨_, h1, rfl⟩ := h
    regi
  case rejectUpdate op =>
    simp only [dropUpdate] at h; inv_ok at h
    obtain ⟨e, _, rfl⟩ := h
    regi
  case approveUnregister op =>
    simp only [approveUnregister] at h; inv_ok at h
    obtain ⟨_, h⟩ := h
    obtain ⟨e, k, cl, h1, h2, h3, rfl⟩ := unassign_ok h
    have := mem_left hi.unr op
    regi
  case forceRemove op =>
    simp only [forceRemove] at h; inv_ok at h
    obtain ⟨w1, s, h, hs, rfl⟩ := h
    obtain ⟨e, k, cl, h1, h2, h3, rfl⟩ := unassign_ok h
    have := mem_left hi.unr op
    regi
  case approveUpdate op =>
    simp only [approveUpdate] at h; inv_ok at h
    obtain ⟨u, e, w1, hu, _, _, hd, h, rfl⟩ := h
    rw [hu]
    simp only [approveAddr] at h
    split at h
    · inv_ok at h; subst h
      regi
    · inv_ok at h
      obtain ⟨_, rfl⟩ := h
      regi
  case forceUpdate op b u =>
    simp only [forceUpdate] at h; inv_ok at h
    obtain ⟨e, x, _, hd, h, _, rfl⟩ := h
    cases b with
    | none =>
      simp only [forceAddr] at h; inv_ok at h; subst h
      regi
    | some b =>
      simp only [forceAddr] at h; inv_ok at h
      obtain ⟨_, _, rfl⟩ := h
      by_cases hb : e.addr = b
      · simp only [hb, if_true]
        regi
      · simp only [hb, if_false]
        regi
  case createCluster t =>
    simp only [createCluster] at h; inv_ok at h
    obtain ⟨_, rfl⟩ := h
    regi
  case updateCluster k t =>
    simp only [updateCluster] at h; inv_ok at h
    obtain ⟨_, _, rfl⟩ := h
    regi
  case removeCluster k =>
    simp only [removeCluster] at h; inv_ok at h
    obtain ⟨_, _, _, rfl⟩ := h
    regi
  case registerServer s =>
    simp only [registerServer] at h; inv_ok at h
    obtain ⟨h1, _, rfl⟩ := h
    refine servers_seen (b := s.addr) (v := some s.kind) hn hn' (fun x => ?_) rfl
    simp only [List.mem_append, List.mem_singleton]
    constructor
    · rintro (hx | rfl)
      · exact Or.inr ⟨hx, h1 x hx⟩
      · exact Or.inl ⟨rfl, rfl⟩
    · rintro (⟨h2, h3⟩ | ⟨hx, _⟩)
      · right; cases x; cases s; simp_all
      · exact Or.inl hx
  case unregisterServer b =>
    simp only [unregisterServer] at h; inv_ok at h
    obtain ⟨s, h1, h2, rfl⟩ := h
    refine servers_seen (b := b) (v := none) hn hn' (fun x => ?_) rfl
    show x ∈ swapRemoveBy _ _ ↔ _
    rw [(swapRemoveBy_key MetricsServer.addr b hn).mem_iff, List.mem_filter, decide_eq_true_eq]
    simp
  case setServerType b t =>
    simp only [setServerType] at h; inv_ok at h
    obtain ⟨s, h1, h2, rfl⟩ := h
    refine servers_seen (b := b) (v := some t) hn hn' (fun x => ?_) rfl
    show x ∈ setKind _ _ _ ↔ _
    rw [setKind_mem (s := ⟨b, t⟩) hn ⟨s, h1, h2⟩ x]
    cases x; simp [eq_comm]
  case setWeights p => inv_ok at h; subst h; rfl
  case setStakingAmount x => inv_ok at h; subst h; rfl
  case setPool x => inv_ok at h; subst h; rfl
  case setAssignedEra op e =>
    simp only [setAssignedEra] at h; inv_ok at h
    obtain ⟨_, _, rfl⟩ := h
    regi

/-- root and committee calls, however nested -/
theorem teeCallEmit_seen (hr : Reach c w) (x : Call) : ∀ (o : Origin) (w' : World), (∀ a, o ≠ .signed a) →
    dispatch c x o w = .ok w' → registry w' = noted w.now w.active (registry w) (teeCallEmit c w x o) := by
  induction x with
  | mandate y ih =>
    have key : ∀ w', mandateResult w (dispatch c y .root w) = .ok w' →
        registry w' = noted w.now w.active (registry w)
          (match dispatch c y .root w with | .ok _ => teeCallEmit c w y .root | .error _ => []) := by
      intro w' h
      rcases mandateResult_ok h with ⟨w1, hy, rfl⟩ | ⟨e, hy, rfl⟩
      · rw [hy]; exact ih .root w1 (by simp) hy
      · rw [hy]; rfl
    intro o w' ho h
    cases o with
    | signed a => exact absurd rfl (ho a)
    | root => exact key w' h
    | ext => exact key w' h
  | root y =>
    intro o w' ho h
    cases o with
    | signed a => exact absurd rfl (ho a)
    | root =>
      simp only [dispatch] at h
      cases y <;> simp only [rootCall] at h
      case tee r => exact TeeM.root_seen hr h
      all_goals simp only [Except.ok.injEq] at h; subst h
      case trFee k x => cases k <;> rfl
      all_goals rfl
    | ext => simp [dispatch] at h
  | ext y =>
    intro o w' ho h
    have e : dispatch c (.ext y) o w = .ok w' → w'.tee = w.tee := fun h => by
      cases o with
      | signed a => exact absurd rfl (ho a)
      | root => exact fr% World.tee (BrM.ext_frame h)
      | ext => exact fr% World.tee (BrM.ext_frame h)
    cases o with
    | signed a => exact absurd rfl (ho a)
    | _ => simp only [registry, e h]; rfl
  | _ =>
    intro o w' ho h
    cases o with
    | signed a => exact absurd rfl (ho a)
    | root => simp [dispatch] at h
    | ext => simp [dispatch] at h

/-- One operation and its events. -/
theorem step_noted (hr : Reach c w) (o : Op) (ho : o.Ok c) :
    registry (step c w o) = noted w.now w.active (registry w) (teeEmit c w o) := by
  have ht : ∀ w', w'.tee = w.tee → registry w' = registry w := fun w' e => by simp only [registry, e]
  have hq : (∀ a x, o ≠ .call (.signed a) (.tee x)) → (∀ g x, (∀ a, g ≠ .signed a) → o ≠ .call g x) → o ≠ .hookTee →
      registry (step c w o) = registry w := fun h1 h2 h3 => by
    cases step_tee w o ho with
    | quiet h => exact ht _ h
    | call h => exact absurd h (h1 _ _)
    | root h hg => exact absurd h (h2 _ _ hg)
    | hook h => exact absurd h h3
  cases o
  case call o x =>
    cases h : dispatch c x o w with
    | error e => simp only [step, teeEmit, h]; rfl
    | ok w' =>
      have hs : step c w (.call o x) = w' := by simp only [step, h]; rfl
      cases o with
      | signed a =>
        cases x
        case tee x =>
          rw [hs]
          simp only [dispatch, signedCall] at h
          simp only [teeEmit, dispatch, signedCall, h, teeCallEmit]
          exact TeeM.seen h
        all_goals
          rw [hq (by simp) (by rintro g x hg he; cases he; exact hg a rfl) (by simp)]
          simp only [teeEmit, h, teeCallEmit]; rfl
      | root => rw [hs]; simp only [teeEmit, h]; exact teeCallEmit_seen hr x _ w' (by simp) h
      | ext => rw [hs]; simp only [teeEmit, h]; exact teeCallEmit_seen hr x _ w' (by simp) h
  case hookTee =>
    simp only [step, TeeM.hook, teeEmit]
    cases w.active with
    | none => rfl
    | some e => dsimp only; split <;> rfl
  all_goals exact hq (by simp) (by simp) (by simp)

theorem Spec.notes_append (r : Registry) (l l' : List ((Block × Option Era) × TeeEvent)) :
    notes r (l ++ l') = notes (notes r l) l' := by
  induction l generalizing r with
  | nil => rfl
  | cons e t ih => exact ih _

theorem Spec.notes_map (now : Block) (era : Option Era) (r : Registry) (l : List TeeEvent) :
    notes r (l.map fun e => ((now, era), e)) = noted now era r l := by
  induction l generalizing r with
  | nil => rfl
  | cons e t ih => exact ih _

theorem TeeM.truthful {x} (h : call c w a x = .ok w') {e : TeeEvent} (he : e ∈ emit w a x) (hs : SInv w)
    (hw : ∀ op x s, e = .withdrawn op x → w.tee.ledger.get op = some s → s.staked = w.tee.stakingAmount) :
    Truthful (registry w) (registry w') e := by
  cases x <;> simp only [call] at h <;> simp only [emit] at he
  case register b u =>
    simp only [register] at h; inv_ok at h
    obtain ⟨_, _, _, _, _, h1, _, _, rfl⟩ := h
    simp only [List.mem_cons, List.not_mem_nil, or_false] at he
    rcases he with rfl | rfl
    · trivial
    · exact ⟨h1, _, FMap.get_insert_self .., rfl⟩
  case unregister =>
    cases e' : w.tee.data.get a with
    | none =>
      simp only [unregister, e', dropRegistration] at h; inv_ok at h
      obtain ⟨_, h1, rfl⟩ := h
      simp only [e', List.mem_cons, List.not_mem_nil, or_false] at he
      rcases he with rfl | rfl
      · trivial
      · obtain ⟨s, h2, _⟩ := hs.reg a _ h1
        exact ⟨⟨s, h2, hw a _ s rfl h2⟩, FMap.get_erase_self ..⟩
    | some d =>
      simp only [unregister, e', unregisterAssigned] at h; inv_ok at h
      obtain ⟨s, h1, h2, h3, rfl⟩ := h
      simp only [e', List.mem_cons, List.not_mem_nil, or_false] at he
      rcases he with rfl | rfl
      · trivial
      · exact ⟨s, _, h3, by simp [stakedBy, h3], FMap.get_insert_self .., by simp [stakedBy, h3]⟩
  case withdraw =>
    simp only [withdraw] at h; inv_ok at h
    obtain ⟨s, h1, _, _, rfl⟩ := h
    simp only [List.mem_cons, List.not_mem_nil, or_false] at he
    subst he
    exact ⟨⟨s, h1, hw a _ s rfl h1⟩, FMap.get_erase_self ..⟩
  case bondExtra =>
    simp only [bondExtra] at h; inv_ok at h
    obtain ⟨s, hs, h1, h2, h3, rfl⟩ := h
    have e : stakedBy w a = s.staked := by simp [stakedBy, hs]
    simp only [List.mem_cons, List.not_mem_nil, or_false] at he
    subst he
    rw [e]
    exact ⟨s, _, hs, FMap.get_insert_self .., (Nat.add_sub_cancel' (Nat.le_of_lt h1)).symm, Nat.sub_pos_of_lt h1⟩
  case refundExcess =>
    simp only [refundExcess] at h; inv_ok at h
    obtain ⟨s, hs, h1, rfl⟩ := h
    have e : stakedBy w a = s.staked := by simp [stakedBy, hs]
    simp only [List.mem_cons, List.not_mem_nil, or_false] at he
    subst he
    rw [e]
    exact ⟨s, _, hs, FMap.get_insert_self .., (Nat.add_sub_cancel' (Nat.le_of_lt h1)).symm, Nat.sub_pos_of_lt h1⟩
  all_goals
    simp only [List.mem_cons, List.not_mem_nil, or_false] at he
    subst he; trivial

theorem TeeM.root_truthful {r} (h : root c w r = .ok w') {e : TeeEvent} (he : e ∈ rootEmit w r) :
    Truthful (registry w) (registry w') e := by
  cases r <;> simp only [root] at h <;> simp only [rootEmit] at he
  case forceRemove op =>
    simp only [forceRemove] at h; inv_ok at h
    obtain ⟨w1, s, h, hs, rfl⟩ := h
    obtain ⟨e, k, cl, h1, h2, h3, rfl⟩ := unassign_ok h
    have hs : w.tee.ledger.get op = some s := hs
    simp only [List.mem_cons, List.not_mem_nil, or_false] at he
    rcases he with rfl | rfl
    · exact ⟨s, _, hs, by simp [stakedBy, hs], FMap.get_insert_self .., by simp [stakedBy, hs]⟩
    · trivial
  case approveUpdate op =>
    split at he
    · simp only [List.mem_cons, List.not_mem_nil, or_false] at he
      subst he; trivial
    · simp at he
  all_goals
    simp only [List.mem_cons, List.not_mem_nil, or_false] at he
    subst he; trivial

theorem teeCallEmit_truthful (x : Call) : ∀ (o : Origin) (w' : World) (e : TeeEvent), (∀ a, o ≠ .signed a) →
    dispatch c x o w = .ok w' → e ∈ teeCallEmit c w x o → Truthful (registry w) (registry w') e := by
  induction x with
  | mandate y ih =>
    have key : ∀ w' e, mandateResult w (dispatch c y .root w) = .ok w' →
        e ∈ (match dispatch c y .root w with | .ok _ => teeCallEmit c w y .root | .error _ => []) →
        Truthful (registry w) (registry w') e := by
      intro w' e h
      rcases mandateResult_ok h with ⟨w1, hy, rfl⟩ | ⟨e, hy, rfl⟩
      · rw [hy]; exact ih .root w1 e (by simp) hy
      · rw [hy]; intro h; simp at h
    intro o w' e ho h
    cases o with
    | signed a => exact absurd rfl (ho a)
    | root => exact key w' e h
    | ext => exact key w' e h
  | root y =>
    intro o w' e ho h he
    cases o with
    | signed a => exact absurd rfl (ho a)
    | root =>
      simp only [dispatch] at h
      cases y <;> simp only [rootCall] at h
      case tee r => exact TeeM.root_truthful h he
      all_goals simp [teeCallEmit] at he
    | ext => simp [dispatch] at h
  | _ =>
    intro o w' e ho h he
    cases o with
    | signed a => exact absurd rfl (ho a)
    | _ => simp [teeCallEmit] at he

theorem step_truthful (hr : Reach c w) (o : Op) {e : TeeEvent} (he : e ∈ teeEmit c w o)
    (hw : ∀ op x s, e = .withdrawn op x → w.tee.ledger.get op = some s → s.staked = w.tee.stakingAmount) :
    Truthful (registry w) (registry (step c w o)) e := by
  cases o
  case call o x =>
    cases h : dispatch c x o w with
    | error e => simp [teeEmit, h] at he
    | ok w' =>
      have hs : step c w (.call o x) = w' := by simp only [step, h]; rfl
      rw [hs]
      simp only [teeEmit, h] at he
      cases o with
      | signed a =>
        cases x
        case tee x => exact TeeM.truthful h he hr.sinv hw
        all_goals simp [teeCallEmit] at he
      | root => exact teeCallEmit_truthful x _ w' e (by simp) h he
      | ext => exact teeCallEmit_truthful x _ w' e (by simp) h he
  case hookTee =>
    simp only [teeEmit] at he
    cases ha : w.active with
    | none => simp [ha] at he; subst he; trivial
    | some b => simp [ha] at he
  all_goals simp [teeEmit] at he
