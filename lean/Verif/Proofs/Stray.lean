import Verif.Proofs.TeeStake
/-
Every stake lock belongs to a stake on record.
-/
variable {c : Cfg} {w w' : World} {a : AccountId}

/-- every stake lock belongs to a stake on record -/
def TeeM.NoStray (w : World) : Prop := ∀ a, w.tee.ledger.get a = none → w.bal.tee.get a = none

theorem TeeM.dropRegistration_stray {op} (h : dropRegistration w op = .ok w') (hs : NoStray w) : NoStray w' := by
  simp only [dropRegistration] at h; inv_ok at h
  obtain ⟨_, _, rfl⟩ := h
  intro y
  simp only [World.putBal, Bal.removeLock, FMap.get_erase]
  split
  · simp
  · exact hs y

theorem TeeM.lock_stray {s : Ledger} {v : Balance} (hs : NoStray w) :
    ∀ y, (w.tee.ledger.insert a s).get y = none → (w.bal.setLock a v).tee.get y = none := by
  intro y
  rw [FMap.get_insert]
  split
  · simp
  · rename_i e
    intro h
    unfold Bal.setLock
    split
    · exact hs y h
    · show (w.bal.tee.insert a v).get y = none
      rw [FMap.get_insert, if_neg e]; exact hs y h

theorem TeeM.call_stray {x : TeeM.Call} (h : TeeM.call c w a x = .ok w') (hs : NoStray w) : NoStray w' := by
  have keep : ∀ {s : Ledger} {v : World}, v.bal.tee = w.bal.tee → v.tee.ledger = w.tee.ledger.insert a s → NoStray v := by
    intro s v h1 h2 y
    rw [h1, h2, FMap.get_insert]
    split
    · simp
    · exact hs y
  cases x <;> simp only [call] at h
  case register =>
    simp only [register] at h; inv_ok at h
    obtain ⟨h1, h2, h3, h4, h5, h6, h7, h8, rfl⟩ := h
    exact lock_stray hs
  case unregister =>
    simp only [unregister] at h
    split at h
    · simp only [unregisterAssigned] at h; inv_ok at h
      obtain ⟨s, _, _, _, rfl⟩ := h
      exact keep rfl rfl
    · exact dropRegistration_stray h hs
  case withdraw =>
    simp only [withdraw] at h; inv_ok at h
    obtain ⟨_, _, _, _, rfl⟩ := h
    intro y
    simp only [World.putBal, Bal.removeLock, FMap.get_erase]
    split
    · simp
    · exact hs y
  case claim =>
    simp only [claim] at h; inv_ok at h
    obtain ⟨_, _, _, b, _, _, _, _, _, _, _, h1, rfl⟩ := h
    intro y hy
    have := (Bal.transfer_locks h1).1
    show b.tee.get y = none
    rw [this]; exact hs y hy
  case bondExtra =>
    simp only [bondExtra] at h; inv_ok at h
    obtain ⟨s, h1, h2, h3, h4, rfl⟩ := h
    exact lock_stray hs
  case refundExcess =>
    simp only [refundExcess] at h; inv_ok at h
    obtain ⟨s, h1, h2, rfl⟩ := h
    exact lock_stray hs
  all_goals simp only [update, dropUpdate, submitReport] at h
  all_goals frame_auto at h
  all_goals exact hs

theorem TeeM.root_stray {x : TeeM.RootCall} (h : TeeM.root c w x = .ok w') (hs : NoStray w) : NoStray w' := by
  cases x <;> simp only [root] at h
  case removeRegistration => exact dropRegistration_stray h hs
  case forceRemove op =>
    simp only [forceRemove] at h; inv_ok at h
    obtain ⟨v, s, hv, h1, rfl⟩ := h
    simp only [unassign] at hv; inv_ok at hv
    obtain ⟨_, _, _, _, _, _, _, rfl⟩ := hv
    intro y
    simp only [FMap.get_insert]
    split
    · simp
    · exact hs y
  case approveUpdate =>
    simp only [approveUpdate] at h; inv_ok at h
    obtain ⟨u, e, v, _, _, _, _, hv, rfl⟩ := h
    have : v.tee.ledger = w.tee.ledger ∧ v.bal = w.bal := by
      unfold approveAddr at hv
      split at hv
      · inv_ok at hv; subst hv; exact ⟨rfl, rfl⟩
      · inv_ok at hv; obtain ⟨_, rfl⟩ := hv; exact ⟨rfl, rfl⟩
    intro y
    show v.tee.ledger.get y = none → v.bal.tee.get y = none
    rw [this.1, this.2]; exact hs y
  case forceUpdate =>
    simp only [forceUpdate] at h; inv_ok at h
    obtain ⟨e, v, _, _, hv, _, rfl⟩ := h
    have : v.1.tee.ledger = w.tee.ledger ∧ v.1.bal = w.bal := by
      unfold forceAddr at hv
      split at hv
      · inv_ok at hv; subst hv; exact ⟨rfl, rfl⟩
      · inv_ok at hv
        obtain ⟨_, _, rfl⟩ := hv
        dsimp only
        split <;> exact ⟨rfl, rfl⟩
    intro y
    show v.1.tee.ledger.get y = none → v.1.bal.tee.get y = none
    rw [this.1, this.2]; exact hs y
  all_goals simp only [assign, dropUpdate, approveUnregister, unassign,
    createCluster, updateCluster, removeCluster, registerServer, unregisterServer, setServerType, setWeights,
    setStakingAmount, setPool, setAssignedEra] at h
  all_goals frame_auto at h
  all_goals exact hs

theorem Reach.noStray (h : Reach c w) : TeeM.NoStray w := by
  induction h with
  | init h => intro a _; simp [h.bal.tee]
  | step o hr ho ih =>
    cases step_tee _ o ho with
    | quiet h1 h2 => intro y; rw [h1, h2]; exact ih y
    | call _ _ h => exact TeeM.call_stray h ih
    | root _ _ _ h _ e => have := TeeM.root_stray h ih; rw [e]; exact this
    | hook _ e =>
      rw [e]; unfold TeeM.hook
      split
      · exact ih
      · split
        · exact ih
        · exact ih

/-- who has a stake that is not unbonding is registered, or assigned and not leaving -/
def TeeM.Held (t : TeeSt) : Prop := ∀ op s, t.ledger.get op = some s → s.unlocking = false →
  t.registrations.get op ≠ none ∨ t.data.get op ≠ none ∧ op ∉ t.unregs

theorem TeeM.Held.congr {t t' : TeeSt} (h : Held t) (h1 : t'.ledger = t.ledger) (h2 : t'.registrations = t.registrations)
    (h3 : ∀ op, t.data.get op ≠ none → t'.data.get op ≠ none) (h4 : t'.unregs = t.unregs) : Held t' := by
  intro op s; rw [h1, h2, h4]
  intro hs hu
  exact (h op s hs hu).imp id fun x => ⟨h3 op x.1, x.2⟩

/-- a stake is changed but not its state -/
theorem TeeM.Held.restake {t : TeeSt} {s : Ledger} {v : Balance} (h : Held t) (hs : t.ledger.get a = some s) :
    Held { t with ledger := t.ledger.insert a { s with staked := v } } := by
  intro op s'
  dsimp only
  rw [FMap.get_insert]
  split
  · rename_i e; subst e
    intro hs' hu
    simp only [Option.some.injEq] at hs'; subst hs'
    exact h _ s hs hu
  · exact h op s'

/-- a stake begins to be unbonded -/
theorem TeeM.Held.unlock {t t' : TeeSt} {s : Ledger} (h : Held t) (hs : s.unlocking = true)
    (h1 : t'.ledger = t.ledger.insert a s) (h2 : t'.registrations = t.registrations)
    (h3 : ∀ op, op ≠ a → t'.data.get op = t.data.get op) (h4 : ∀ op, op ≠ a → (op ∈ t'.unregs ↔ op ∈ t.unregs)) :
    Held t' := by
  intro op s'
  rw [h1, FMap.get_insert]
  split
  · intro hs' hu
    simp only [Option.some.injEq] at hs'; subst hs'
    rw [hs] at hu; simp at hu
  · rename_i e
    rw [h2, h3 op e, h4 op e]; exact h op s'

/-- a stake is given back -/
theorem TeeM.Held.release {t t' : TeeSt} (h : Held t) (h1 : t'.ledger = t.ledger.erase a)
    (h2 : ∀ op, op ≠ a → t'.registrations.get op = t.registrations.get op)
    (h3 : t'.data = t.data) (h4 : t'.unregs = t.unregs) : Held t' := by
  intro op s'
  rw [h1, FMap.get_erase]
  split
  · simp
  · rename_i e
    rw [h2 op e, h3, h4]; exact h op s'

theorem TeeM.dropRegistration_held {op} (h : dropRegistration w op = .ok w') (hs : Held w.tee) : Held w'.tee := by
  simp only [dropRegistration] at h; inv_ok at h
  obtain ⟨_, _, rfl⟩ := h
  exact hs.release rfl (fun y hy => by simp [World.putBal, FMap.get_erase, hy]) rfl rfl

theorem TeeM.call_held {x : TeeM.Call} (h : TeeM.call c w a x = .ok w') (hs : Held w.tee) : Held w'.tee := by
  cases x <;> simp only [call] at h
  case register =>
    simp only [register] at h; inv_ok at h
    obtain ⟨h1, h2, h3, h4, h5, h6, h7, h8, rfl⟩ := h
    intro op s
    simp only [World.putBal, FMap.get_insert]
    split
    · intro _ _; left; simp
    · exact hs op s
  case unregister =>
    simp only [unregister] at h
    split at h
    · simp only [unregisterAssigned] at h; inv_ok at h
      obtain ⟨s, _, _, _, rfl⟩ := h
      exact hs.unlock (a := a) rfl rfl rfl (fun _ _ => rfl) (fun _ hy => by simp [hy])
    · exact dropRegistration_held h hs
  case withdraw =>
    simp only [withdraw] at h; inv_ok at h
    obtain ⟨_, _, _, _, rfl⟩ := h
    exact hs.release rfl (fun _ _ => rfl) rfl rfl
  case claim =>
    simp only [claim] at h; inv_ok at h
    obtain ⟨_, _, _, b, _, _, _, _, _, _, _, h1, rfl⟩ := h
    exact hs.congr rfl rfl (fun _ h => h) rfl
  case bondExtra =>
    simp only [bondExtra] at h; inv_ok at h
    obtain ⟨s, h1, h2, h3, h4, rfl⟩ := h
    exact hs.restake h1
  case refundExcess =>
    simp only [refundExcess] at h; inv_ok at h
    obtain ⟨s, h1, h2, rfl⟩ := h
    exact hs.restake h1
  all_goals simp only [update, dropUpdate, submitReport] at h
  all_goals frame_auto at h
  all_goals exact hs

theorem TeeM.root_held {x : TeeM.RootCall} (h : TeeM.root c w x = .ok w') (hi : TInv c w.tee) (hs : Held w.tee) :
    Held w'.tee := by
  have hm : ∀ op y : AccountId, y ≠ op →
      (y ∈ swapRemoveBy (fun x => decide (x = op)) w.tee.unregs ↔ y ∈ w.tee.unregs) := by
    intro op y hy
    have := swapRemoveBy_mem id op (l := w.tee.unregs) (by simpa using hi.unr) y
    simp only [id, List.map_id_fun] at this
    rw [this]; simp [hy]
  cases x <;> simp only [root] at h
  case removeRegistration => exact dropRegistration_held h hs
  case assign op k sl =>
    simp only [assign] at h; inv_ok at h
    obtain ⟨e, _, _, he, _, _, _, _, _, rfl⟩ := h
    intro y s'
    simp only [FMap.get_erase, FMap.get_insert]
    split
    · rename_i ey; subst ey
      intro _ _; right
      refine ⟨by simp, fun hu => ?_⟩
      exact hi.unrData y hu (hi.reg y e he)
    · exact hs y s'
  case approveUnregister op =>
    simp only [approveUnregister, unassign] at h; inv_ok at h
    obtain ⟨_, _, _, _, h1, h2, _, _, _, rfl⟩ := h
    intro y s' hy hu
    simp only [FMap.get_erase]
    by_cases ey : y = op
    · subst ey
      rcases hs y s' hy hu with h | h
      · obtain ⟨e, he⟩ := Option.ne_none_iff_exists'.1 h
        exact absurd (hi.reg y e he) (hi.unrData y ‹_›)
      · exact absurd ‹_› h.2
    · simp only [ey, if_false, hm op y ey]; exact hs y s' hy hu
  case forceRemove op =>
    simp only [forceRemove] at h; inv_ok at h
    obtain ⟨v, s, hv, h1, rfl⟩ := h
    simp only [unassign] at hv; inv_ok at hv
    obtain ⟨_, _, _, _, _, _, _, rfl⟩ := hv
    exact hs.unlock (a := op) (by rfl) rfl rfl (fun y hy => by simp [FMap.get_erase, hy]) (fun y hy => hm op y hy)
  case approveUpdate op =>
    simp only [approveUpdate] at h; inv_ok at h
    obtain ⟨u, e, v, _, _, _, _, hv, rfl⟩ := h
    have : v.tee.ledger = w.tee.ledger ∧ v.tee.registrations = w.tee.registrations ∧ v.tee.data = w.tee.data ∧
        v.tee.unregs = w.tee.unregs := by
      unfold approveAddr at hv
      split at hv
      · inv_ok at hv; subst hv; exact ⟨rfl, rfl, rfl, rfl⟩
      · inv_ok at hv; obtain ⟨_, rfl⟩ := hv; exact ⟨rfl, rfl, rfl, rfl⟩
    refine hs.congr this.1 this.2.1 (fun y hy => ?_) this.2.2.2
    simp only [FMap.get_insert, this.2.2.1]; split <;> simp_all
  case forceUpdate =>
    simp only [forceUpdate] at h; inv_ok at h
    obtain ⟨e, v, _, _, hv, _, rfl⟩ := h
    have : v.1.tee.ledger = w.tee.ledger ∧ v.1.tee.registrations = w.tee.registrations ∧ v.1.tee.data = w.tee.data ∧
        v.1.tee.unregs = w.tee.unregs := by
      unfold forceAddr at hv
      split at hv
      · inv_ok at hv; subst hv; exact ⟨rfl, rfl, rfl, rfl⟩
      · inv_ok at hv
        obtain ⟨_, _, rfl⟩ := hv
        dsimp only
        split <;> exact ⟨rfl, rfl, rfl, rfl⟩
    refine hs.congr this.1 this.2.1 (fun y hy => ?_) this.2.2.2
    simp only [FMap.get_insert, this.2.2.1]; split <;> simp_all
  all_goals simp only [dropUpdate,
    createCluster, updateCluster, removeCluster, registerServer, unregisterServer, setServerType, setWeights,
    setStakingAmount, setPool, setAssignedEra] at h
  all_goals frame_auto at h
  all_goals exact hs

theorem Reach.held (h : Reach c w) : TeeM.Held w.tee := by
  induction h with
  | init h => intro a s hs; simp [h.tee] at hs
  | step o hr ho ih =>
    cases step_tee _ o ho with
    | quiet h1 h2 => rw [h1]; exact ih
    | call _ _ h => exact TeeM.call_held h ih
    | root _ _ _ h _ e => have := TeeM.root_held h hr.tinv ih; rw [e]; exact this
    | hook _ e =>
      rw [e]; unfold TeeM.hook
      split
      · exact ih
      · split
        · exact ih
        · exact ih
