import Verif.Props.Tee
/-
Property C161: an enclave operator keeps its seat until it asks to leave or change, or governance forces it.
-/
variable {c : Cfg} {w w' : World} {op : AccountId}
set_option maxRecDepth 10000

/- Specification -/
namespace Spec

/-- `op` works enclave `e` in slot `s` of cluster `k` since era `r`, and the enclave's address is known as its own -/
structure Seat (w : World) (op : AccountId) (e : Enclave) (k : ClusterId) (s : SlotId) (r : Era) : Prop where
  data : w.tee.data.get op = some e
  addr : w.tee.accOp.get e.addr = some op
  cluster : w.tee.opCluster.get op = some k
  slot : ∃ cl, w.tee.clusters.get k = some cl ∧ (op, s) ∈ cl.enclaves
  since : w.tee.assignedEra.get op = some r

/-- a request of `op` is waiting: to leave, or to change its enclave -/
def Asks (w : World) (op : AccountId) : Prop := op ∈ w.tee.unregs ∨ w.tee.updates.get op ≠ none

/-- `op` asks in operation `o` to leave or to change its enclave -/
def asking (op : AccountId) (o : Op) : Prop :=
  o = .call (.signed op) (.tee .unregister) ∨ ∃ a u, o = .call (.signed op) (.tee (.update a u))

/-- governance disposes of the seat of `op` without having been asked by `op` -/
def forces (op : AccountId) : TeeM.RootCall → Prop
  | .forceRemove x => x = op
  | .forceUpdate x _ _ => x = op
  | .setAssignedEra x _ => x = op
  | _ => False

end Spec

namespace Seat
open TeeM

/-- all of a seat that is not implied by the invariant, and no request -/
structure Held (t : TeeSt) (op : AccountId) (e : Enclave) (k : ClusterId) (s : SlotId) (r : Era) : Prop where
  data : t.data.get op = some e
  cluster : t.opCluster.get op = some k
  slot : ∃ cl, t.clusters.get k = some cl ∧ (op, s) ∈ cl.enclaves
  since : t.assignedEra.get op = some r
  unreg : op ∉ t.unregs
  upd : t.updates.get op = none

variable {e : Enclave} {k : ClusterId} {s : SlotId} {r : Era}

theorem Held.congr {t t' : TeeSt} (h : Held t op e k s r) (h1 : t'.data = t.data) (h2 : t'.opCluster = t.opCluster)
    (h3 : t'.clusters = t.clusters) (h4 : t'.assignedEra = t.assignedEra) (h5 : t'.unregs = t.unregs)
    (h6 : t'.updates = t.updates) : Held t' op e k s r :=
  ⟨h1 ▸ h.data, h2 ▸ h.cluster, h3 ▸ h.slot, h4 ▸ h.since, h5 ▸ h.unreg, h6 ▸ h.upd⟩

theorem held_unassign {x : AccountId} (h : unassign w x = .ok w') (hi : TInv c w.tee) (hx : x ≠ op)
    (hh : Held w.tee op e k s r) : Held w'.tee op e k s r := by
  simp only [unassign] at h; inv_ok at h
  obtain ⟨e', k', cl, he, _, hk, hcl, rfl⟩ := h
  have hne : op ≠ x := fun h => hx h.symm
  refine ⟨?_, ?_, ?_, ?_, ?_, ?_⟩ <;> dsimp only
  · rw [FMap.get_erase_ne _ hne]; exact hh.data
  · rw [FMap.get_erase_ne _ hne]; exact hh.cluster
  · obtain ⟨cl', g1, g2⟩ := hh.slot
    simp only [FMap.get_insert]
    split
    · subst_vars
      rw [hcl] at g1; cases g1
      refine ⟨_, rfl, ?_⟩
      show _ ∈ swapRemoveBy _ cl.enclaves
      rw [(swapRemoveBy_key Prod.fst x (hi.nodup _ _ hcl)).mem_iff, List.mem_filter]
      exact ⟨g2, by simpa using hne⟩
    · exact ⟨cl', g1, g2⟩
  · rw [FMap.get_erase_ne _ hne]; exact hh.since
  · intro hm
    have := (swapRemoveBy_mem id x (l := w.tee.unregs) (by simpa using hi.unr) op).1 (by simpa using hm)
    exact hh.unreg (by simpa using this.1)
  · rw [FMap.get_erase_ne _ hne]; exact hh.upd

theorem held_root {x : TeeM.RootCall} (h : root c w x = .ok w') (hi : TInv c w.tee) (hx : ¬ Spec.forces op x)
    (hh : Held w.tee op e k s r) : Held w'.tee op e k s r := by
  cases x <;> simp only [root] at h
  case removeRegistration =>
    simp only [dropRegistration] at h; frame_auto at h; exact hh.congr rfl rfl rfl rfl rfl rfl
  case rejectUpdate x =>
    simp only [dropUpdate] at h; inv_ok at h
    obtain ⟨u, hu, rfl⟩ := h
    refine { hh with upd := ?_ }
    simp only [FMap.get_erase]; split
    · rfl
    · exact hh.upd
  case approveUnregister x =>
    simp only [approveUnregister] at h; inv_ok at h
    refine held_unassign h.2 hi ?_ hh
    rintro rfl; exact hh.unreg h.1
  case forceRemove x =>
    simp only [forceRemove] at h; inv_ok at h
    obtain ⟨w1, s, h1, h2, rfl⟩ := h
    exact (held_unassign h1 hi hx hh).congr rfl rfl rfl rfl rfl rfl
  case approveUpdate x =>
    simp only [approveUpdate] at h; inv_ok at h
    obtain ⟨u, e', w1, h1, h2, h3, h4, h5, rfl⟩ := h
    have hne : op ≠ x := by rintro rfl; rw [hh.upd] at h1; cases h1
    have hh1 : Held w1.tee op e k s r := by
      unfold approveAddr at h5
      split at h5
      · inv_ok at h5; subst h5; exact hh
      · inv_ok at h5; obtain ⟨_, rfl⟩ := h5; exact hh.congr rfl rfl rfl rfl rfl rfl
    refine { hh1 with data := ?_, upd := ?_ }
    · show (w1.tee.data.insert x _).get op = _
      rw [FMap.get_insert_ne _ _ hne]; exact hh1.data
    · show (w1.tee.updates.erase x).get op = _
      rw [FMap.get_erase_ne _ hne]; exact hh1.upd
  case forceUpdate x ad uri =>
    simp only [forceUpdate] at h; inv_ok at h
    obtain ⟨e', y, h1, h2, h3, h4, rfl⟩ := h
    have hne : op ≠ x := fun h => hx h.symm
    have hh1 : Held y.1.tee op e k s r := by
      cases ad with
      | none => simp only [forceAddr] at h3; inv_ok at h3; subst h3; exact hh
      | some ad =>
        simp only [forceAddr] at h3; inv_ok at h3
        obtain ⟨h5, h6, rfl⟩ := h3
        dsimp only
        split
        · exact hh
        · exact hh.congr rfl rfl rfl rfl rfl rfl
    refine { hh1 with data := ?_, upd := ?_ }
    · show (y.1.tee.data.insert x _).get op = _
      rw [FMap.get_insert_ne _ _ hne]; exact hh1.data
    · show (y.1.tee.updates.erase x).get op = _
      rw [FMap.get_erase_ne _ hne]; exact hh1.upd
  case assign x k' slot =>
    simp only [assign] at h; inv_ok at h
    obtain ⟨r', cl, era, h1, h2, h3, h4, h5, h6, rfl⟩ := h
    have hne : op ≠ x := by rintro rfl; rw [hh.data] at h5; cases h5
    refine { hh with data := ?_, cluster := ?_, slot := ?_, since := ?_ }
    · show (FMap.insert _ x _).get op = _; rw [FMap.get_insert_ne _ _ hne]; exact hh.data
    · show (FMap.insert _ x _).get op = _; rw [FMap.get_insert_ne _ _ hne]; exact hh.cluster
    · obtain ⟨cl', g1, g2⟩ := hh.slot
      simp only [FMap.get_insert]
      split
      · subst_vars
        rw [h2] at g1; cases g1
        exact ⟨_, rfl, List.mem_append_left _ g2⟩
      · exact ⟨cl', g1, g2⟩
    · show (FMap.insert _ x _).get op = _; rw [FMap.get_insert_ne _ _ hne]; exact hh.since
  case createCluster t =>
    simp only [createCluster] at h; inv_ok at h
    obtain ⟨_, _, rfl⟩ := h
    refine { hh with slot := ?_ }
    obtain ⟨cl', g1, g2⟩ := hh.slot
    refine ⟨cl', ?_, g2⟩
    show (FMap.insert _ _ _).get k = _
    rw [FMap.get_insert_ne _ _ ?_]
    · exact g1
    · rintro rfl; rw [hi.fresh _ (Nat.le_refl _)] at g1; cases g1
  case updateCluster k' t =>
    simp only [updateCluster] at h; inv_ok at h
    obtain ⟨cl, h1, rfl⟩ := h
    refine { hh with slot := ?_ }
    obtain ⟨cl', g1, g2⟩ := hh.slot
    simp only [FMap.get_insert]
    split
    · subst_vars; rw [h1] at g1; cases g1; exact ⟨_, rfl, g2⟩
    · exact ⟨cl', g1, g2⟩
  case removeCluster k' =>
    simp only [removeCluster] at h; inv_ok at h
    obtain ⟨cl, h1, h2, rfl⟩ := h
    refine { hh with slot := ?_ }
    obtain ⟨cl', g1, g2⟩ := hh.slot
    refine ⟨cl', ?_, g2⟩
    show (FMap.erase _ _).get k = _
    rw [FMap.get_erase_ne _ ?_]
    · exact g1
    · rintro rfl; rw [h1] at g1; cases g1
      rw [List.eq_nil_of_length_eq_zero h2] at g2; cases g2
  case setAssignedEra x era =>
    simp only [setAssignedEra] at h; inv_ok at h
    obtain ⟨_, h1, rfl⟩ := h
    have hne : op ≠ x := fun h => hx h.symm
    refine { hh with since := ?_ }
    show (FMap.insert _ x _).get op = _; rw [FMap.get_insert_ne _ _ hne]; exact hh.since
  case registerServer => simp only [registerServer] at h; frame_auto at h; exact hh.congr rfl rfl rfl rfl rfl rfl
  case unregisterServer => simp only [unregisterServer] at h; frame_auto at h; exact hh.congr rfl rfl rfl rfl rfl rfl
  case setServerType => simp only [setServerType] at h; frame_auto at h; exact hh.congr rfl rfl rfl rfl rfl rfl
  case setWeights => cases h; exact hh.congr rfl rfl rfl rfl rfl rfl
  case setStakingAmount => cases h; exact hh.congr rfl rfl rfl rfl rfl rfl
  case setPool => cases h; exact hh.congr rfl rfl rfl rfl rfl rfl

theorem held_call {a : AccountId} {x : TeeM.Call} (h : call c w a x = .ok w')
    (hx : ¬ Spec.asking op (.call (.signed a) (.tee x)))
    (hh : Held w.tee op e k s r) : Held w'.tee op e k s r := by
  cases x <;> simp only [call] at h
  case register => simp only [register] at h; frame_auto at h; exact hh.congr rfl rfl rfl rfl rfl rfl
  case unregister =>
    simp only [unregister] at h
    split at h
    · simp only [unregisterAssigned] at h; inv_ok at h
      obtain ⟨s, h1, h2, h3, rfl⟩ := h
      refine { hh with unreg := ?_ }
      intro hm
      rcases List.mem_append.1 hm with hm | hm
      · exact hh.unreg hm
      · rw [List.mem_singleton] at hm; subst hm; exact hx (Or.inl rfl)
    · simp only [dropRegistration] at h; frame_auto at h; exact hh.congr rfl rfl rfl rfl rfl rfl
  case update ad uri =>
    simp only [update] at h; inv_ok at h
    obtain ⟨e, h1, h2, h3, h4, h5, rfl⟩ := h
    refine { hh with upd := ?_ }
    show (FMap.insert _ a _).get op = _
    rw [FMap.get_insert_ne _ _ ?_]
    · exact hh.upd
    · rintro rfl; exact hx (Or.inr ⟨_, _, rfl⟩)
  case cancelUpdate =>
    simp only [dropUpdate] at h; inv_ok at h
    obtain ⟨u, hu, rfl⟩ := h
    refine { hh with upd := ?_ }
    simp only [FMap.get_erase]; split
    · rfl
    · exact hh.upd
  case withdraw => simp only [withdraw] at h; frame_auto at h; exact hh.congr rfl rfl rfl rfl rfl rfl
  case submitReport => simp only [submitReport] at h; frame_auto at h; exact hh.congr rfl rfl rfl rfl rfl rfl
  case claim => simp only [claim] at h; frame_auto at h; exact hh.congr rfl rfl rfl rfl rfl rfl
  case bondExtra => simp only [bondExtra] at h; frame_auto at h; exact hh.congr rfl rfl rfl rfl rfl rfl
  case refundExcess => simp only [refundExcess] at h; frame_auto at h; exact hh.congr rfl rfl rfl rfl rfl rfl

theorem held_hook (hh : Held w.tee op e k s r) : Held (hook c w).tee op e k s r := by
  rcases TeeM.hook_eq (c := c) w with h | ⟨e, _, _, h⟩
  · rw [h]; exact hh
  · rw [h]; exact hh.congr rfl rfl rfl rfl rfl rfl

theorem held_step (hr : Reach c w) (o : Op) (ho : o.Ok c) (h1 : ¬ Spec.asking op o)
    (h2 : ∀ x, Spec.orders o x → ¬ Spec.forces op x) (hh : Held w.tee op e k s r) :
    Held (step c w o).tee op e k s r := by
  cases step_tee w o ho with
  | quiet h => rw [h]; exact hh
  | call e _ h => subst e; exact held_call h h1 hh
  | root e hg hx h _ e' => 
    have := held_root h hr.tinv (h2 _ (orders_iff.2 ⟨_, _, e, hg, hx⟩)) hh
    rw [e']; exact this
  | hook _ e => rw [e]; exact held_hook hh

end Seat

/-- An operator that has asked for nothing and asks for nothing keeps its seat, whatever everybody else does: enclave, address,
cluster, slot and the era from which it is paid. Governance can take it only by the calls that force it. -/
theorem C161 (hr : Reach c w) {e : Enclave} {k : ClusterId} {s : SlotId} {r : Era} (hs : Spec.Seat w op e k s r)
    (hq : ¬ Spec.Asks w op) (l : List Op) (hl : ∀ o ∈ l, o.Ok c) (h1 : ∀ o ∈ l, ¬ Spec.asking op o)
    (h2 : ∀ o ∈ l, ∀ x, Spec.orders o x → ¬ Spec.forces op x) :
    Spec.Seat (run c w l) op e k s r ∧ ¬ Spec.Asks (run c w l) op := by
  have hh : Seat.Held w.tee op e k s r :=
    ⟨hs.data, hs.cluster, hs.slot, hs.since, fun h => hq (Or.inl h), by
      by_contra h; exact hq (Or.inr h)⟩
  clear hs hq
  induction l generalizing w with
  | nil =>
    exact ⟨⟨hh.data, hr.tinv.addr _ _ hh.data, hh.cluster, hh.slot, hh.since⟩, fun h => h.elim hh.unreg (fun h => h hh.upd)⟩
  | cons o l ih =>
    have ho := hl o (List.mem_cons_self ..)
    exact ih (hr.step o ho) (fun o h => hl o (List.mem_cons_of_mem _ h)) (fun o h => h1 o (List.mem_cons_of_mem _ h))
      (fun o h => h2 o (List.mem_cons_of_mem _ h))
      (Seat.held_step hr o ho (h1 o (List.mem_cons_self ..)) (h2 o (List.mem_cons_self ..)) hh)

namespace Demo

/-- the other operator leaves, the cluster is changed, a third operator is assigned to it -/
def around : List Op :=
  [by_ 9 (.tee .unregister), .call .root (.root (.tee (.approveUnregister 9))), .call .root (.root (.tee (.updateCluster 0 .admin))),
   .call .root (.root (.tee (.assign 6 0 5))), .call .root (.root (.tee (.removeCluster 0))),
   .call .root (.root (.tee (.forceUpdate 6 (some 18) none))), by_ 8 (.tee .cancelUpdate)]

end Demo

/-- operator 8 keeps its seat while all others leave, come and change -/
example : Reach Demo.cfg (Demo.at_ Demo.third) ∧ Spec.Seat (Demo.at_ Demo.third) 8 ⟨18, [1]⟩ 0 0 5 ∧
    ¬ Spec.Asks (Demo.at_ Demo.third) 8 ∧ (∀ o ∈ Demo.around, o.Ok Demo.cfg) ∧ (∀ o ∈ Demo.around, ¬ Spec.asking 8 o) ∧
    (∀ o ∈ Demo.around, ∀ x, Spec.orders o x → ¬ Spec.forces 8 x) ∧
    (run Demo.cfg (Demo.at_ Demo.third) Demo.around).tee.clusters.get 0 = some ⟨[(8, 0), (6, 5)], .admin⟩ :=
  ⟨Demo.reach _ (by decide), ⟨by decide, by decide, by decide, ⟨⟨[(8, 0), (9, 1)], .pub⟩, by decide, by decide⟩, by decide⟩,
    by rintro (h | h)
       · revert h; decide
       · exact h (by decide),
    by decide, by
    intro o ho
    simp [Demo.around, Demo.by_] at ho
    rcases ho with rfl | rfl | rfl | rfl | rfl | rfl | rfl <;> simp [Spec.asking], by
    intro o ho x
    rintro ⟨g, y, rfl, hg, hx⟩
    simp [Demo.around, Demo.by_] at ho
    rcases ho with ⟨rfl, rfl⟩ | ⟨rfl, rfl⟩ | ⟨rfl, rfl⟩ | ⟨rfl, rfl⟩ | ⟨rfl, rfl⟩ | ⟨rfl, rfl⟩ | ⟨rfl, rfl⟩ <;>
      simp [Spec.innermost] at hx <;> subst hx <;> simp [Spec.forces], by decide⟩

/-- C161: without that, a seat is lost: governance removes the operator. -/
theorem C161_forced : ∃ w l, Reach Demo.cfg w ∧ Spec.Seat w 8 ⟨18, [1]⟩ 0 0 5 ∧ ¬ Spec.Asks w 8 ∧
    (∀ o ∈ l, ¬ Spec.asking 8 o) ∧ (run Demo.cfg w l).tee.data.get 8 = none :=
  ⟨Demo.at_ Demo.third, [.call .root (.root (.tee (.forceRemove 8)))], Demo.reach _ (by decide),
    ⟨by decide, by decide, by decide, ⟨⟨[(8, 0), (9, 1)], .pub⟩, by decide, by decide⟩, by decide⟩,
    by rintro (h | h)
       · revert h; decide
       · exact h (by decide),
    by intro o ho; simp at ho; subst ho; simp [Spec.asking], by decide⟩
