import Verif.Proofs.TeeCover
import Verif.Proofs.Events
/-
Which operations move enclave addresses, stakes, reports and rewards.
-/
variable {c : Cfg} {w w' : World} {a : AccountId}

/-- root orders `r`, directly or through mandates -/
def Orders (o : Op) (r : TeeM.RootCall) : Prop :=
  ∃ g x, o = .call g x ∧ (∀ a, g ≠ .signed a) ∧ x.core = .root (.tee r)

namespace TeeM

/-- root gives `addr` to `op` -/
inductive Gave (w : World) (op addr : AccountId) : RootCall → Prop where
  | assign {k slot r} : w.tee.registrations.get op = some r → r.addr = addr → Gave w op addr (.assign op k slot)
  | approve {u} : w.tee.updates.get op = some u → u.addr = addr → Gave w op addr (.approveUpdate op)
  | force {uri} : Gave w op addr (.forceUpdate op (some addr) uri)

theorem call_accOp {x : Call} (h : call c w a x = .ok w') :
    w'.tee.accOp = w.tee.accOp ∧ w'.tee.data = w.tee.data ∧ w'.tee.opCluster = w.tee.opCluster := by
  cases x <;> simp only [call] at h
  case unregister =>
    simp only [unregister] at h
    split at h
    · simp only [unregisterAssigned] at h; frame_auto at h; simp
    · simp only [dropRegistration] at h; frame_auto at h; simp [World.putBal]
  all_goals simp only [register, update, dropUpdate, withdraw, submitReport, claim, bondExtra,
    refundExcess] at h
  all_goals frame_auto at h
  all_goals exact ⟨rfl, rfl, rfl⟩

/-- the enclave addresses and data after a root call -/
theorem root_accOp {r : RootCall} (h : root c w r = .ok w') (hi : TInv c w.tee) {x op : AccountId}
    (hx : w'.tee.accOp.get x = some op) : w.tee.accOp.get x = some op ∨ Gave w op x r := by
  have hu : ∀ {op' w1}, unassign w op' = .ok w1 → w1.tee.accOp.get x = some op →
      w.tee.accOp.get x = some op := by
    intro op' w1 h hx
    simp only [unassign] at h; inv_ok at h
    obtain ⟨e, k, cl, he, _, hk, hcl, rfl⟩ := h
    simp only [FMap.get_erase] at hx
    split at hx
    · simp at hx
    · exact hx
  cases r <;> simp only [root] at h
  case approveUnregister =>
    simp only [approveUnregister] at h; inv_ok at h
    exact Or.inl (hu h.2 hx)
  case forceRemove =>
    simp only [forceRemove] at h; inv_ok at h
    obtain ⟨w1, s, h1, h2, rfl⟩ := h
    exact Or.inl (hu h1 hx)
  case approveUpdate op' =>
    simp only [approveUpdate] at h; inv_ok at h
    obtain ⟨u, e, w1, h1, h2, h3, h4, h5, rfl⟩ := h
    unfold approveAddr at h5
    split at h5
    · inv_ok at h5; subst h5; exact Or.inl hx
    · inv_ok at h5
      obtain ⟨h5, rfl⟩ := h5
      simp only [FMap.get_insert] at hx
      split at hx
      · simp at hx; subst hx; subst_vars; exact Or.inr (.approve h1 rfl)
      · exact Or.inl hx
  case forceUpdate op' ad uri =>
    simp only [forceUpdate] at h; inv_ok at h
    obtain ⟨e, y, h1, h2, h3, h4, rfl⟩ := h
    cases ad with
    | none => simp only [forceAddr] at h3; inv_ok at h3; subst h3; exact Or.inl hx
    | some ad =>
      simp only [forceAddr] at h3; inv_ok at h3
      obtain ⟨h5, h6, rfl⟩ := h3
      by_cases e1 : e.addr = ad
      · simp only [e1, if_true] at hx; exact Or.inl hx
      · simp only [e1, if_false, FMap.get_insert, FMap.get_erase] at hx
        split at hx
        · simp at hx; subst hx; subst_vars; exact Or.inr .force
        · split at hx
          · simp at hx
          · exact Or.inl hx
  case assign op' k slot =>
    simp only [assign] at h; inv_ok at h
    obtain ⟨r, cl, era, h1, h2, h3, h4, h5, h6, rfl⟩ := h
    simp only [FMap.get_insert] at hx
    split at hx
    · simp at hx; subst hx; subst_vars; exact Or.inr (.assign h1 rfl)
    · exact Or.inl hx
  all_goals simp only [registerServer, unregisterServer, setServerType, setWeights, setStakingAmount,
    setPool, setAssignedEra, createCluster, updateCluster, removeCluster, dropRegistration,
    dropUpdate] at h
  all_goals frame_auto at h
  all_goals exact Or.inl hx

/-- an address that resolves is the current one of its operator -/
def Exact (t : TeeSt) : Prop := ∀ x op, t.accOp.get x = some op →
  ∃ e, t.data.get op = some e ∧ e.addr = x

theorem root_exact {r : RootCall} (h : root c w r = .ok w') (hi : TInv c w.tee)
    (hr : ∀ op, r ≠ .approveUpdate op) (hx : Exact w.tee) : Exact w'.tee := by
  have hu : ∀ {op w1}, unassign w op = .ok w1 → Exact w1.tee := by
    intro op w1 h j op' hj
    simp only [unassign] at h; inv_ok at h
    obtain ⟨e, k, cl, he, _, hk, hcl, rfl⟩ := h
    simp only [FMap.get_erase] at hj ⊢
    split at hj
    · simp at hj
    · obtain ⟨f, h1, h2⟩ := hx j op' hj
      split
      · subst_vars; rw [he] at h1; simp at h1; subst h1; tauto
      · exact ⟨f, h1, h2⟩
  cases r <;> simp only [root] at h
  case approveUnregister =>
    simp only [approveUnregister] at h; inv_ok at h
    exact hu h.2
  case forceRemove =>
    simp only [forceRemove] at h; inv_ok at h
    obtain ⟨w1, s, h1, h2, rfl⟩ := h
    exact (hu h1 : Exact w1.tee)
  case approveUpdate op' => exact absurd rfl (hr op')
  case forceUpdate op' ad uri =>
    simp only [forceUpdate] at h; inv_ok at h
    obtain ⟨e, y, h1, h2, h3, h4, rfl⟩ := h
    have key : ∀ f : Enclave, f.addr = e.addr →
        ∀ x op, w.tee.accOp.get x = some op → ∃ e, (w.tee.data.insert op' f).get op = some e ∧ e.addr = x := by
      intro f hf x op hj
      obtain ⟨g, h5, h6⟩ := hx x op hj
      simp only [FMap.get_insert]
      split
      · subst_vars; rw [h2] at h5; simp at h5; subst h5; exact ⟨f, rfl, hf⟩
      · exact ⟨g, h5, h6⟩
    cases ad with
    | none => simp only [forceAddr] at h3; inv_ok at h3; subst h3; exact key _ rfl
    | some ad =>
      simp only [forceAddr] at h3; inv_ok at h3
      obtain ⟨h5, h6, rfl⟩ := h3
      by_cases e1 : e.addr = ad
      · simp only [e1, if_true]; exact key _ e1.symm
      · simp only [e1, if_false]
        intro x op hj
        simp only [FMap.get_insert, FMap.get_erase] at hj ⊢
        split at hj
        · simp at hj; subst hj; simp [*]
        · split at hj
          · simp at hj
          · obtain ⟨f, h7, h8⟩ := hx x op hj
            split
            · subst_vars; rw [h2] at h7; simp at h7; subst h7; tauto
            · exact ⟨f, h7, h8⟩
  case assign op' k slot =>
    simp only [assign] at h; inv_ok at h
    obtain ⟨r, cl, era, h1, h2, h3, h4, h5, h6, rfl⟩ := h
    intro x op hj
    simp only [FMap.get_insert] at hj ⊢
    split at hj
    · simp at hj; subst hj; simp [*]
    · obtain ⟨f, h7, h8⟩ := hx x op hj
      split
      · subst_vars; rw [h5] at h7; simp at h7
      · exact ⟨f, h7, h8⟩
  all_goals simp only [registerServer, unregisterServer, setServerType, setWeights, setStakingAmount,
    setPool, setAssignedEra, createCluster, updateCluster, removeCluster, dropRegistration,
    dropUpdate] at h
  all_goals frame_auto at h
  all_goals exact hx

/-- What an operation does to the stake of `op`. -/
inductive StakeMove (c : Cfg) (w : World) (o : Op) (op : AccountId) : Option Ledger → Option Ledger → Prop where
  | same {x} : StakeMove c w o op x x
  | register {ad uri} : o = .call (.signed op) (.tee (.register ad uri)) →
      StakeMove c w o op none (some ⟨op, w.tee.stakingAmount, false, 0⟩)
  | unregister {s} : o = .call (.signed op) (.tee .unregister) → w.tee.data.get op ≠ none →
      StakeMove c w o op (some s) (some { s with unlocking := true, unbondedAt := w.now })
  | forced {s} : Orders o (.forceRemove op) → w.tee.data.get op ≠ none →
      StakeMove c w o op (some s) (some { s with unlocking := true, unbondedAt := w.now })
  | dropped {s} : o = .call (.signed op) (.tee .unregister) ∨ Orders o (.removeRegistration op) →
      w.tee.registrations.get op ≠ none → w.tee.data.get op = none → StakeMove c w o op (some s) none
  | withdrawn {s} : o = .call (.signed op) (.tee .withdraw) → s.unlocking = true →
      c.bonding ≤ w.now - s.unbondedAt → StakeMove c w o op (some s) none
  | bonded {s} : o = .call (.signed op) (.tee .bondExtra) → s.staked < w.tee.stakingAmount →
      StakeMove c w o op (some s) (some { s with staked := w.tee.stakingAmount })
  | refunded {s} : o = .call (.signed op) (.tee .refundExcess) → w.tee.stakingAmount < s.staked →
      StakeMove c w o op (some s) (some { s with staked := w.tee.stakingAmount })

theorem dropRegistration_stake {o : Op} {op j : AccountId} (h : dropRegistration w j = .ok w')
    (hi : TInv c w.tee) (hs : SInv w)
    (ho : o = .call (.signed j) (.tee .unregister) ∨ Orders o (.removeRegistration j)) :
    StakeMove c w o op (w.tee.ledger.get op) (w'.tee.ledger.get op) := by
  simp only [dropRegistration] at h; inv_ok at h
  obtain ⟨e, he, rfl⟩ := h
  simp only [FMap.get_erase]
  split
  · subst_vars
    obtain ⟨s, h1, h2⟩ := hs.reg _ e he
    rw [h1]; exact .dropped ho (by simp [he]) (hi.reg _ e he)
  · exact .same

theorem call_stake {x : Call} (h : call c w a x = .ok w') (hi : TInv c w.tee) (hs : SInv w) (op : AccountId) :
    StakeMove c w (.call (.signed a) (.tee x)) op (w.tee.ledger.get op) (w'.tee.ledger.get op) := by
  cases x <;> simp only [call] at h
  case register ad uri =>
    simp only [register] at h; inv_ok at h
    obtain ⟨h1, h2, h3, h4, h5, h6, h7, h8, rfl⟩ := h
    simp only [FMap.get_insert]
    split
    · subst_vars; rw [h6]; exact .register rfl
    · exact .same
  case unregister =>
    simp only [unregister] at h
    split at h
    · rename_i e he
      simp only [unregisterAssigned] at h; inv_ok at h
      obtain ⟨s, h1, h2, h3, rfl⟩ := h
      simp only [FMap.get_insert]
      split
      · subst_vars; rw [h3]; exact .unregister rfl (by simp [he])
      · exact .same
    · exact dropRegistration_stake h hi hs (Or.inl rfl)
  case withdraw =>
    simp only [withdraw] at h; inv_ok at h
    obtain ⟨s, h1, h2, h3, rfl⟩ := h
    simp only [FMap.get_erase]
    split
    · subst_vars; rw [h1]; exact .withdrawn rfl h2 h3
    · exact .same
  case bondExtra =>
    simp only [bondExtra] at h; inv_ok at h
    obtain ⟨s, h1, h2, h3, h4, rfl⟩ := h
    simp only [FMap.get_insert]
    split
    · subst_vars; rw [h1]; exact .bonded rfl h2
    · exact .same
  case refundExcess =>
    simp only [refundExcess] at h; inv_ok at h
    obtain ⟨s, h1, h2, rfl⟩ := h
    simp only [FMap.get_insert]
    split
    · subst_vars; rw [h1]; exact .refunded rfl h2
    · exact .same
  all_goals simp only [update, dropUpdate, submitReport, claim] at h
  all_goals frame_auto at h
  all_goals exact .same

theorem root_stake {r : RootCall} {o : Op} (h : root c w r = .ok w') (hi : TInv c w.tee) (hs : SInv w)
    (ho : Orders o r) (op : AccountId) :
    StakeMove c w o op (w.tee.ledger.get op) (w'.tee.ledger.get op) := by
  have hu : ∀ {j w1}, unassign w j = .ok w1 → w1.tee.ledger = w.tee.ledger := by
    intro j w1 h; simp only [unassign] at h; frame_auto at h; rfl
  cases r <;> simp only [root] at h
  case removeRegistration => exact dropRegistration_stake h hi hs (Or.inr ho)
  case approveUnregister =>
    simp only [approveUnregister] at h; inv_ok at h
    rw [hu h.2]; exact .same
  case forceRemove j =>
    simp only [forceRemove] at h; inv_ok at h
    obtain ⟨w1, s, h1, h2, rfl⟩ := h
    have hl := hu h1
    simp only [unassign] at h1; inv_ok at h1
    obtain ⟨e, k, cl, he, _, hk, hcl, rfl⟩ := h1
    simp only [FMap.get_insert]
    split
    · rename_i e'
      subst e'
      rw [show w.tee.ledger.get op = some s from h2]; exact .forced ho (by simp [he])
    · exact .same
  case approveUpdate op' =>
    simp only [approveUpdate] at h; inv_ok at h
    obtain ⟨u, e, w1, h1, h2, h3, h4, h5, rfl⟩ := h
    unfold approveAddr at h5
    split at h5
    · inv_ok at h5; subst h5; exact .same
    · inv_ok at h5
      obtain ⟨h5, rfl⟩ := h5
      exact .same
  case forceUpdate op' ad uri =>
    simp only [forceUpdate] at h; inv_ok at h
    obtain ⟨e, y, h1, h2, h3, h4, rfl⟩ := h
    cases ad with
    | none => simp only [forceAddr] at h3; inv_ok at h3; subst h3; exact .same
    | some ad =>
      simp only [forceAddr] at h3; inv_ok at h3
      obtain ⟨h5, h6, rfl⟩ := h3
      by_cases e1 : e.addr = ad
      · simp only [e1, if_true]; exact .same
      · simp only [e1, if_false]; exact .same
  all_goals simp only [registerServer, unregisterServer, setServerType, setWeights, setStakingAmount,
    setPool, setAssignedEra, createCluster, updateCluster, removeCluster, assign,
    dropUpdate] at h
  all_goals frame_auto at h
  all_goals exact .same

theorem hook_ledger (w : World) : (hook c w).tee.ledger = w.tee.ledger ∧
    (hook c w).tee.accOp = w.tee.accOp ∧ (hook c w).tee.data = w.tee.data := by
  rcases hook_eq (c := c) w with h | ⟨e, _, _, h⟩
  · rw [h]; simp
  · rw [h]; simp [clearEra]

end TeeM

theorem step_stake (hr : Reach c w) (o : Op) (ho : o.Ok c) (op : AccountId) :
    TeeM.StakeMove c w o op (w.tee.ledger.get op) ((step c w o).tee.ledger.get op) := by
  cases step_tee w o ho with
  | quiet h1 h2 => rw [h1]; exact .same
  | call e _ h => subst e; exact TeeM.call_stake h hr.tinv hr.sinv op
  | root e hg hx h _ e' => rw [e']; exact TeeM.root_stake h hr.tinv hr.sinv ⟨_, _, e, hg, hx⟩ op
  | hook _ e => rw [e, (TeeM.hook_ledger w).1]; exact .same

theorem step_accOp (hr : Reach c w) (o : Op) (ho : o.Ok c) {x op : AccountId}
    (hx : (step c w o).tee.accOp.get x = some op) :
    w.tee.accOp.get x = some op ∨ ∃ r, Orders o r ∧ TeeM.Gave w op x r := by
  cases step_tee w o ho with
  | quiet h1 h2 => rw [h1] at hx; exact Or.inl hx
  | call e _ h => rw [(TeeM.call_accOp h).1] at hx; exact Or.inl hx
  | root e hg hx' h _ e' =>
    rw [e'] at hx
    rcases TeeM.root_accOp h hr.tinv hx with h1 | h1
    · exact Or.inl h1
    · exact Or.inr ⟨_, ⟨_, _, e, hg, hx'⟩, h1⟩
  | hook _ e => rw [e, (TeeM.hook_ledger w).2.1] at hx; exact Or.inl hx

theorem step_exact (hr : Reach c w) (o : Op) (ho : o.Ok c) (h0 : ∀ op, ¬ Orders o (.approveUpdate op))
    (hx : TeeM.Exact w.tee) : TeeM.Exact (step c w o).tee := by
  cases step_tee w o ho with
  | quiet h1 h2 => rw [h1]; exact hx
  | call e _ h =>
    have := TeeM.call_accOp h
    unfold TeeM.Exact; rw [this.1, this.2.1]; exact hx
  | root e hg hx' h _ e' =>
    have := TeeM.root_exact h hr.tinv (fun op he => h0 op ⟨_, _, e, hg, he ▸ hx'⟩) hx
    rw [e']; exact this
  | hook _ e =>
    unfold TeeM.Exact; rw [e, (TeeM.hook_ledger w).2.1, (TeeM.hook_ledger w).2.2]; exact hx
