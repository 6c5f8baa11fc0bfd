import Mathlib.Tactic.Ring
import Mathlib.Tactic.Linarith
import Verif.Proofs.TeeActs
/-
Rewards and reports.
-/
variable {c : Cfg} {w w' : World} {a : AccountId}

theorem swallow {α β : Type} {f : α → Option β} {l : List α} (h : ∀ x ∈ l, f x = none) :
    l.filterMap f = [] := by
  rw [List.filterMap_eq_nil_iff]; exact h

namespace TeeM

/-- the rewards paid for an era -/
def paid (E : Era) (l : List Ev) : List (AccountId × Balance) :=
  l.filterMap fun
    | .rewardClaimed e a x => if e = E then some (a, x) else none
    | _ => none

theorem claim_ok {E : Era} (h : claim c w a E = .ok w') : ∃ A as e b,
    w.tee.claimed.get (E, a) = none ∧ w.active = some A ∧ w.tee.assignedEra.get a = some as ∧
    E < A - 2 ∧ A - c.history < E ∧ as ≤ E ∧ w.tee.data.get a = some e ∧
    w.bal.transfer c.ed c.teePot a (reward w.tee E a) .allowDeath = .ok b ∧
    w' = { w with
      bal := b
      tee := { w.tee with claimed := w.tee.claimed.insert (E, a) (reward w.tee E a) }
      evs := .rewardClaimed E a (reward w.tee E a) :: w.evs } := by
  simp only [claim] at h; inv_ok at h
  obtain ⟨A, as, e, b, h1, h2, h3, h4, h5, h6, h7, h8, rfl⟩ := h
  exact ⟨A, as, e, b, h1, h2, h3, h4, h5, h6, h7, h8, rfl⟩

end TeeM

theorem step_paid (w : World) (o : Op) (E : Era) :
    TeeM.paid E (step c w o).evs = TeeM.paid E w.evs ∨
    ∃ a, o = .call (.signed a) (.tee (.claim E)) ∧ TeeM.claim c w a E = .ok (step c w o) ∧
      TeeM.paid E (step c w o).evs = (a, TeeM.reward w.tee E a) :: TeeM.paid E w.evs := by
  by_cases h : ∃ a, o = .call (.signed a) (.tee (.claim E))
  · obtain ⟨a, rfl⟩ := h
    simp only [step, dispatch, signedCall, TeeM.call]
    cases h : TeeM.claim c w a E with
    | error e => exact Or.inl rfl
    | ok w' =>
      right
      refine ⟨a, rfl, h, ?_⟩
      obtain ⟨A, as, e, b, h1, h2, h3, h4, h5, h6, h7, h8, rfl⟩ := TeeM.claim_ok h
      simp [orSame, TeeM.paid]
  · left
    obtain ⟨l, e, hl⟩ := step_evs (c := c) w o
    rw [e]; unfold TeeM.paid
    rw [List.filterMap_append]
    refine (congrArg (· ++ _) (swallow ?_)).trans (List.nil_append _)
    intro x hx
    have := hl x hx
    cases x <;> try rfl
    simp only [Ev.By] at this
    dsimp only
    split
    · subst_vars; exact absurd ⟨_, rfl⟩ h
    · rfl

theorem step_active (w : World) (o : Op) (ho : o.Ok c) {A : Era} (h : w.active = some A) :
    ∃ B, (step c w o).active = some B ∧ A ≤ B := by
  cases step_tee w o ho with
  | quiet h1 h2 h3 h4 =>
    rcases h4 with h4 | ⟨e, _, h4, h5⟩
    · rw [h4]; exact ⟨A, h, Nat.le_refl _⟩
    · exact ⟨e, h4, h5 A (by simp [h])⟩
  | call _ _ h' =>
    have e := TeeM.call_frame h'
    rw [show (step c w o).active = w.active from fr% World.active e]; exact ⟨A, h, Nat.le_refl _⟩
  | @root g x r w1 l _ _ _ h' _ e' =>
    have e := TeeM.root_frame h'
    have e : w1.active = w.active := fr% World.active e
    rw [e']; exact ⟨A, e.trans h, Nat.le_refl _⟩
  | hook _ e' =>
    have e := TeeM.hook_frame (c := c) w
    have e : (TeeM.hook c w).active = w.active := fr% World.active e
    rw [e', e]; exact ⟨A, h, Nat.le_refl _⟩

/-- the claims table is only written by claims and cleared by the hook -/
theorem step_claimed (w : World) (o : Op) (ho : o.Ok c) (k : Era × AccountId) :
    (step c w o).tee.claimed.get k = w.tee.claimed.get k ∨
    (o = .hookTee ∧ ∃ A, w.active = some A ∧ c.history ≤ A ∧ k.1 = A - c.history ∧
      (step c w o).tee.claimed.get k = none) ∨
    (o = .call (.signed k.2) (.tee (.claim k.1)) ∧
      (step c w o).tee.claimed.get k = some (TeeM.reward w.tee k.1 k.2)) := by
  cases step_tee w o ho with
  | quiet h1 h2 => rw [h1]; exact Or.inl rfl
  | @call a x e _ h =>
    subst e
    revert h
    generalize step c w (.call (.signed a) (.tee x)) = w'
    intro h
    cases x <;> simp only [TeeM.call] at h
    case unregister =>
      simp only [TeeM.unregister] at h
      split at h
      · simp only [TeeM.unregisterAssigned] at h; frame_auto at h; exact Or.inl rfl
      · simp only [TeeM.dropRegistration] at h; frame_auto at h; exact Or.inl rfl
    case claim E =>
      obtain ⟨A, as, e, b, h1, h2, h3, h4, h5, h6, h7, h8, rfl⟩ := TeeM.claim_ok h
      simp only [FMap.get_insert]
      split
      · subst_vars; exact Or.inr (Or.inr ⟨rfl, rfl⟩)
      · exact Or.inl rfl
    all_goals simp only [TeeM.register, TeeM.update, TeeM.dropUpdate, TeeM.withdraw, TeeM.submitReport,
      TeeM.bondExtra, TeeM.refundExcess] at h
    all_goals frame_auto at h
    all_goals exact Or.inl rfl
  | @root g x r w1 l _ _ hx h _ e' =>
    clear hx
    left
    rw [e']
    clear e'
    have hu : ∀ {j w1}, TeeM.unassign w j = .ok w1 → w1.tee.claimed = w.tee.claimed := by
      intro j w1 h; simp only [TeeM.unassign] at h; frame_auto at h; rfl
    show w1.tee.claimed.get k = _
    cases r <;> simp only [TeeM.root] at h
    case approveUnregister =>
      simp only [TeeM.approveUnregister] at h; inv_ok at h
      rw [hu h.2]
    case forceRemove j =>
      simp only [TeeM.forceRemove] at h; inv_ok at h
      obtain ⟨w1, s, h1, h2, rfl⟩ := h
      have hl := hu h1
      dsimp only; rw [hl]
    case approveUpdate op' =>
      simp only [TeeM.approveUpdate] at h; inv_ok at h
      obtain ⟨u, e, w1, h1, h2, h3, h4, h5, rfl⟩ := h
      unfold TeeM.approveAddr at h5
      split at h5 <;> frame_auto at h5 <;> rfl
    case forceUpdate op' ad uri =>
      simp only [TeeM.forceUpdate] at h; inv_ok at h
      obtain ⟨e, y, h1, h2, h3, h4, rfl⟩ := h
      cases ad with
      | none => simp only [TeeM.forceAddr] at h3; inv_ok at h3; subst h3; rfl
      | some ad =>
        simp only [TeeM.forceAddr] at h3; inv_ok at h3
        obtain ⟨h5, h6, rfl⟩ := h3
        by_cases e1 : e.addr = ad
        · simp only [e1, if_true]
        · simp only [e1, if_false]
    all_goals simp only [TeeM.registerServer, TeeM.unregisterServer, TeeM.setServerType,
      TeeM.setWeights, TeeM.setStakingAmount, TeeM.setPool, TeeM.setAssignedEra, TeeM.createCluster,
      TeeM.updateCluster, TeeM.removeCluster, TeeM.assign, TeeM.dropUpdate, TeeM.dropRegistration] at h
    all_goals frame_auto at h
    all_goals rfl
  | hook e e' =>
    rw [e']
    rcases TeeM.hook_eq (c := c) w with h | ⟨A, h1, h2, h⟩
    · rw [h]; exact Or.inl rfl
    · rw [h]
      simp only [TeeM.clearEra, FMap.get_filterKeys]
      by_cases hk : k.1 = A - c.history
      · right; left; exact ⟨e, A, h1, h2, hk, by simp [hk]⟩
      · left; simp [hk]

/-- Every reward paid is remembered, or its era is out of the claim window. -/
def TeeM.Once (c : Cfg) (w : World) : Prop := ∀ E,
  ((TeeM.paid E w.evs).map Prod.fst).Nodup ∧
  ∀ op ∈ (TeeM.paid E w.evs).map Prod.fst, w.tee.claimed.get (E, op) ≠ none ∨
    ∃ A, w.active = some A ∧ c.history ≤ A ∧ E ≤ A - c.history

theorem Reach.once (h : Reach c w) : TeeM.Once c w := by
  induction h with
  | init h => intro E; simp [h.evs, TeeM.paid]
  | @step w o hr ho ih =>
    intro E
    obtain ⟨h1, h2⟩ := ih E
    have keep : ∀ op ∈ (TeeM.paid E w.evs).map Prod.fst,
        (_root_.step c w o).tee.claimed.get (E, op) ≠ none ∨
        ∃ A, (_root_.step c w o).active = some A ∧ c.history ≤ A ∧ E ≤ A - c.history := by
      intro op hop
      rcases h2 op hop with h3 | ⟨A, h3, h4, h5⟩
      · rcases step_claimed w o ho (E, op) with h6 | ⟨_, A, h6, h7, h8, _⟩ | ⟨_, h6⟩
        · rw [h6]; exact Or.inl h3
        · right
          obtain ⟨B, h9, h10⟩ := step_active w o ho h6
          simp only at h8
          exact ⟨B, h9, by omega, by omega⟩
        · rw [h6]; simp
      · right
        obtain ⟨B, h9, h10⟩ := step_active w o ho h3
        exact ⟨B, h9, by omega, by omega⟩
    rcases step_paid (c := c) w o E with e | ⟨a, rfl, hc, e⟩
    · rw [e]; exact ⟨h1, keep⟩
    · rw [e]
      obtain ⟨A, as, f, b, g1, g2, g3, g4, g5, g6, g7, g8, g9⟩ := TeeM.claim_ok hc
      have hn : a ∉ (TeeM.paid E w.evs).map Prod.fst := by
        intro hm
        rcases h2 a hm with h3 | ⟨B, h3, h4, h5⟩
        · exact h3 g1
        · rw [g2] at h3; simp at h3; subst h3; omega
      refine ⟨List.nodup_cons.2 ⟨hn, h1⟩, ?_⟩
      intro op hop
      rcases List.mem_cons.1 hop with rfl | hop
      · left; rw [g9]; simp
      · exact keep op hop

/-- What can happen to the reports on an operator for an era. -/
inductive TeeM.ReportMove (c : Cfg) (w : World) (o : Op) (E : Era) (op : AccountId) :
    Option (List Report) → Option (List Report) → Prop where
  | same {x} : ReportMove c w o E op x x
  | cleared {x A} : o = .hookTee → w.active = some A → c.history ≤ A → E = A - c.history →
      ReportMove c w o E op x none
  | reported {x l a r A s} : o = .call (.signed a) (.tee (.submitReport op r)) → s ∈ w.tee.servers →
      s.addr = a → s.kind = .pub → w.tee.data.get op ≠ none → w.active = some A → E = A - 1 →
      TeeM.addReport c (x.getD []) r = .ok l → ReportMove c w o E op x (some l)

theorem TeeM.addReport_mem {l l' : List Report} {r x : Report} (h : addReport c l r = .ok l')
    (hx : x ∈ l') : x = r ∨ x ∈ l := by
  have hp : ∀ {l l'}, putReport r l = some l' → x ∈ l' → x = r ∨ x ∈ l := by
    intro l
    induction l with
    | nil => simp [putReport]
    | cons y t ih =>
      intro l' h hx
      simp only [putReport] at h
      split at h
      · simp at h; subst h
        rcases List.mem_cons.1 hx with h | h
        · exact Or.inl h
        · exact Or.inr (List.mem_cons_of_mem _ h)
      · simp only [Option.map_eq_some_iff] at h
        obtain ⟨m, h1, rfl⟩ := h
        rcases List.mem_cons.1 hx with h | h
        · exact Or.inr (by simp [h])
        · rcases ih h1 h with h | h
          · exact Or.inl h
          · exact Or.inr (List.mem_cons_of_mem _ h)
  unfold addReport at h
  split at h
  · rename_i m hm
    inv_ok at h; subst h; exact hp hm hx
  · inv_ok at h
    obtain ⟨_, rfl⟩ := h
    rcases List.mem_append.1 hx with h | h
    · exact Or.inr h
    · left; simpa using h

theorem step_reports (w : World) (o : Op) (ho : o.Ok c) (E : Era) (op : AccountId) :
    TeeM.ReportMove c w o E op (w.tee.reports.get (E, op)) ((step c w o).tee.reports.get (E, op)) := by
  cases step_tee w o ho with
  | quiet h1 h2 => rw [h1]; exact .same
  | @call a x e _ h =>
    subst e
    revert h
    generalize step c w (.call (.signed a) (.tee x)) = w'
    intro h
    cases x <;> simp only [TeeM.call] at h
    case unregister =>
      simp only [TeeM.unregister] at h
      split at h
      · simp only [TeeM.unregisterAssigned] at h; frame_auto at h; exact .same
      · simp only [TeeM.dropRegistration] at h; frame_auto at h; exact .same
    case submitReport op' r =>
      simp only [TeeM.submitReport] at h; inv_ok at h
      obtain ⟨s, e, A, l, h1, h2, h3, h4, h5, rfl⟩ := h
      show TeeM.ReportMove c w _ E op _ ((w.tee.reports.insert (A - 1, op') l).get (E, op))
      simp only [FMap.get_insert]
      split
      · rename_i hk
        simp only [Prod.mk.injEq] at hk
        obtain ⟨rfl, rfl⟩ := hk
        have hs := List.find?_some h1
        simp only [decide_eq_true_eq] at hs
        exact .reported rfl (List.mem_of_find?_eq_some h1) hs h2 (by simp [h3]) h4 rfl h5
      · exact .same
    all_goals simp only [TeeM.register, TeeM.update, TeeM.dropUpdate, TeeM.withdraw, TeeM.claim,
      TeeM.bondExtra, TeeM.refundExcess] at h
    all_goals frame_auto at h
    all_goals exact .same
  | @root g x r w1 l _ _ hx h _ e' =>
    clear hx
    rw [e']
    clear e'
    have hu : ∀ {j w1}, TeeM.unassign w j = .ok w1 → w1.tee.reports = w.tee.reports := by
      intro j w1 h; simp only [TeeM.unassign] at h; frame_auto at h; rfl
    show TeeM.ReportMove c w _ E op _ (w1.tee.reports.get (E, op))
    cases r <;> simp only [TeeM.root] at h
    case approveUnregister =>
      simp only [TeeM.approveUnregister] at h; inv_ok at h
      rw [hu h.2]; exact .same
    case forceRemove j =>
      simp only [TeeM.forceRemove] at h; inv_ok at h
      obtain ⟨w1, s, h1, h2, rfl⟩ := h
      have hl := hu h1
      dsimp only; rw [hl]; exact .same
    case approveUpdate op' =>
      simp only [TeeM.approveUpdate] at h; inv_ok at h
      obtain ⟨u, e, w1, h1, h2, h3, h4, h5, rfl⟩ := h
      unfold TeeM.approveAddr at h5
      split at h5 <;> frame_auto at h5 <;> exact .same
    case forceUpdate op' ad uri =>
      simp only [TeeM.forceUpdate] at h; inv_ok at h
      obtain ⟨e, y, h1, h2, h3, h4, rfl⟩ := h
      cases ad with
      | none => simp only [TeeM.forceAddr] at h3; inv_ok at h3; subst h3; exact .same
      | some ad =>
        simp only [TeeM.forceAddr] at h3; inv_ok at h3
        obtain ⟨h5, h6, rfl⟩ := h3
        by_cases e1 : e.addr = ad
        · simp only [e1, if_true]; exact .same
        · simp only [e1, if_false]; exact .same
    all_goals simp only [TeeM.registerServer, TeeM.unregisterServer, TeeM.setServerType,
      TeeM.setWeights, TeeM.setStakingAmount, TeeM.setPool, TeeM.setAssignedEra, TeeM.createCluster,
      TeeM.updateCluster, TeeM.removeCluster, TeeM.assign, TeeM.dropUpdate, TeeM.dropRegistration] at h
    all_goals frame_auto at h
    all_goals exact .same
  | hook e e' =>
    rw [e']
    rcases TeeM.hook_eq (c := c) w with h | ⟨A, h1, h2, h⟩
    · rw [h]; exact .same
    · rw [h]
      simp only [TeeM.clearEra, FMap.get_filterKeys]
      by_cases hk : E = A - c.history
      · rw [if_neg (by simp [hk])]; exact .cleared e h1 h2 hk
      · rw [if_pos (by simp [hk])]; exact .same

/-! ## sums of rewards -/

theorem fracMul_round {m p : Nat} (hm : 0 < m) (x : Nat) : 2 * m * fracMul m p x ≤ 2 * (p * x) + m := by
  unfold fracMul
  have hx := Nat.div_add_mod x m
  have h3 := Nat.div_add_mod (x % m * p) m
  have e : p * x = m * (x / m * p) + x % m * p := by
    conv_lhs => rw [← hx]
    ring
  rw [e]
  generalize x / m * p = u
  generalize x % m * p = v at *
  have e1 : 2 * m * (u + v / m) = 2 * (m * u) + 2 * (m * (v / m)) := by ring
  have h4 : v % m < m := Nat.mod_lt _ hm
  split
  · rename_i h
    have e2 : 2 * m * (u + v / m + 1) = 2 * (m * u) + 2 * (m * (v / m)) + 2 * m := by ring
    rw [e2]; omega
  · rw [Nat.add_zero, e1]; omega

theorem TeeM.share_le (t : TeeSt) (h : t.data.card ≠ 0) :
    2 * t.data.card * share t ≤ 2 * t.pool + t.data.card := by
  unfold share perbillMul
  have h1 := fracMul_round (m := 1000000000) (p := perbillOf 1 t.data.card) (by omega) t.pool
  have h2 : perbillOf 1 t.data.card * t.data.card ≤ 1000000000 := by
    unfold perbillOf
    rw [if_neg h]
    calc _ ≤ (1 * 1000000000 / t.data.card) * t.data.card :=
          Nat.mul_le_mul_right _ (Nat.min_le_left _ _)
      _ ≤ _ := by have := Nat.div_mul_le_self (1 * 1000000000) t.data.card; omega
  generalize perbillOf 1 t.data.card = p at h1 h2 ⊢
  generalize fracMul 1000000000 p t.pool = y at h1 ⊢
  generalize t.data.card = n at h1 h2 ⊢
  have h3 : p * n * t.pool ≤ 1000000000 * t.pool := Nat.mul_le_mul_right _ h2
  have h4 : 2 * 1000000000 * y * n ≤ (2 * (p * t.pool) + 1000000000) * n := Nat.mul_le_mul_right _ h1
  nlinarith

theorem TeeM.reward_le (t : TeeSt) (E : Era) (op : AccountId) : reward t E op ≤ share t := by
  unfold reward
  split
  · exact perbillMul_le (perbillOf_le _ _) _
  · exact Nat.le_refl _

theorem TeeM.share_le_pool (t : TeeSt) : share t ≤ t.pool := perbillMul_le (perbillOf_le _ _) _

/-- root calls that change the number of operators or the pool -/
def TeeM.resizes : TeeM.RootCall → Prop
  | .assign _ _ _ => True
  | .approveUnregister _ => True
  | .forceRemove _ => True
  | .setPool _ => True
  | _ => False

theorem TeeM.root_keys {r : RootCall} (h : root c w r = .ok w') (hr : ¬ resizes r) :
    (∀ j, w'.tee.data.get j = none ↔ w.tee.data.get j = none) ∧ w'.tee.pool = w.tee.pool := by
  cases r <;> simp only [root] at h
  case approveUnregister => exact absurd trivial hr
  case forceRemove j => exact absurd trivial hr
  case assign => exact absurd trivial hr
  case setPool => exact absurd trivial hr
  case approveUpdate op =>
    simp only [approveUpdate] at h; inv_ok at h
    obtain ⟨u, e, w1, h1, h2, h3, h4, h5, rfl⟩ := h
    have : ∀ f : Enclave, ∀ j, (w.tee.data.insert op f).get j = none ↔
        w.tee.data.get j = none := by
      intro f j; simp only [FMap.get_insert]; split
      · subst_vars; simp [h4]
      · rfl
    unfold approveAddr at h5
    split at h5
    · inv_ok at h5; subst h5; exact ⟨this _, rfl⟩
    · inv_ok at h5; obtain ⟨h5, rfl⟩ := h5; exact ⟨this _, rfl⟩
  case forceUpdate op ad uri =>
    simp only [forceUpdate] at h; inv_ok at h
    obtain ⟨e, y, h1, h2, h3, h4, rfl⟩ := h
    have : ∀ f : Enclave, ∀ j, (w.tee.data.insert op f).get j = none ↔
        w.tee.data.get j = none := by
      intro f j; simp only [FMap.get_insert]; split
      · subst_vars; simp [h2]
      · rfl
    cases ad with
    | none =>
      simp only [forceAddr] at h3; inv_ok at h3; subst h3; exact ⟨this _, rfl⟩
    | some ad =>
      simp only [forceAddr] at h3; inv_ok at h3
      obtain ⟨h5, h6, rfl⟩ := h3
      by_cases e1 : e.addr = ad
      · simp only [e1, if_true]; exact ⟨this _, trivial⟩
      · simp only [e1, if_false]; exact ⟨this _, trivial⟩
  all_goals simp only [registerServer, unregisterServer, setServerType, setWeights, setStakingAmount,
    setAssignedEra, createCluster, updateCluster, removeCluster, dropRegistration, dropUpdate] at h
  all_goals frame_auto at h
  all_goals exact ⟨fun _ => Iff.rfl, rfl⟩

theorem step_keys (w : World) (o : Op) (ho : o.Ok c) (hq : ∀ r, Orders o r → ¬ TeeM.resizes r) :
    (∀ j, (step c w o).tee.data.get j = none ↔ w.tee.data.get j = none) ∧
      (step c w o).tee.pool = w.tee.pool := by
  cases step_tee w o ho with
  | quiet h1 h2 => rw [h1]; exact ⟨fun _ => Iff.rfl, rfl⟩
  | @call a x e _ h =>
    refine ⟨fun _ => by rw [(TeeM.call_accOp h).2.1], ?_⟩
    clear e
    generalize step c w o = w' at h ⊢
    cases x <;> simp only [TeeM.call] at h
    case unregister =>
      simp only [TeeM.unregister] at h
      split at h
      · simp only [TeeM.unregisterAssigned] at h; frame_auto at h; rfl
      · simp only [TeeM.dropRegistration] at h; frame_auto at h; rfl
    all_goals simp only [TeeM.register, TeeM.update, TeeM.dropUpdate, TeeM.withdraw, TeeM.submitReport,
      TeeM.claim, TeeM.bondExtra, TeeM.refundExcess] at h
    all_goals frame_auto at h
    all_goals rfl
  | root e hg hx h _ e' =>
    have := TeeM.root_keys h (hq _ ⟨_, _, e, hg, hx⟩)
    rw [e']; exact this
  | hook _ e =>
    rw [e]
    rcases TeeM.hook_eq (c := c) w with h | ⟨e, _, _, h⟩
    · rw [h]; exact ⟨fun _ => Iff.rfl, rfl⟩
    · rw [h]; exact ⟨fun _ => Iff.rfl, rfl⟩

theorem FMap.card_congr {K V W : Type} [DecidableEq K] {m : FMap K V} {n : FMap K W}
    (h : ∀ k, m.get k = none ↔ n.get k = none) : m.card = n.card := by
  have h1 : m.keys.Perm n.keys := by
    refine (List.perm_ext_iff_of_nodup m.nd n.nd).2 fun k => ?_
    show k ∈ m.keys ↔ k ∈ n.keys
    rw [← FMap.get_ne_none_iff_mem_keys, ← FMap.get_ne_none_iff_mem_keys, not_iff_not]; exact h k
  simpa [FMap.card, FMap.keys] using h1.length_eq

/-- In a period in which neither pool nor operators change, what is paid for an era nobody had claimed. -/
theorem run_paid {E : Era} (h0 : TeeM.paid E w.evs = []) (l : List Op)
    (hl : ∀ o ∈ l, o.Ok c) (hq : ∀ o ∈ l, ∀ r, Orders o r → ¬ TeeM.resizes r) :
    ∀ p ∈ TeeM.paid E (run c w l).evs,
      w.tee.data.get p.1 ≠ none ∧ 2 * w.tee.data.card * p.2 ≤ 2 * w.tee.pool + w.tee.data.card := by
  have key : ∀ (l : List Op) (v : World), (∀ o ∈ l, o.Ok c) →
      (∀ o ∈ l, ∀ r, Orders o r → ¬ TeeM.resizes r) →
      (∀ j, v.tee.data.get j = none ↔ w.tee.data.get j = none) → v.tee.pool = w.tee.pool →
      (∀ p ∈ TeeM.paid E v.evs,
        w.tee.data.get p.1 ≠ none ∧ 2 * w.tee.data.card * p.2 ≤ 2 * w.tee.pool + w.tee.data.card) →
      ∀ p ∈ TeeM.paid E (run c v l).evs,
        w.tee.data.get p.1 ≠ none ∧ 2 * w.tee.data.card * p.2 ≤ 2 * w.tee.pool + w.tee.data.card := by
    intro l
    induction l with
    | nil => intro v _ _ _ _ h; exact h
    | cons o t ih =>
      intro v hl hq hd hp h
      obtain ⟨k1, k2⟩ := step_keys v o (hl o (by simp)) (hq o (by simp))
      refine ih (step c v o) (fun x hx => hl x (by simp [hx])) (fun x hx => hq x (by simp [hx]))
        (fun j => (k1 j).trans (hd j)) (k2.trans hp) ?_
      rcases step_paid (c := c) v o E with e | ⟨a, _, hc, e⟩
      · rw [e]; exact h
      · rw [e]
        intro p hp'
        rcases List.mem_cons.1 hp' with rfl | hp'
        · obtain ⟨A, as, f, b, g1, g2, g3, g4, g5, g6, g7, g8, g9⟩ := TeeM.claim_ok hc
          have hne : w.tee.data.get a ≠ none := by
            intro e1; rw [(hd a).2 e1] at g7; simp at g7
          refine ⟨hne, ?_⟩
          have hcard := FMap.card_congr hd
          have h1 : v.tee.data.card ≠ 0 := by
            intro e1
            have : v.tee.data.keys = [] := by
              simpa [FMap.card, FMap.keys] using e1
            have h2 : a ∈ v.tee.data.keys := FMap.get_ne_none_iff_mem_keys.1 (by simp [g7])
            rw [this] at h2; simp at h2
          have h2 := TeeM.share_le v.tee h1
          rw [hcard, hp] at h2
          exact Nat.le_trans (Nat.mul_le_mul_left _ (TeeM.reward_le v.tee E a)) h2
        · exact h p hp'
  exact key l w hl hq (fun _ => Iff.rfl) rfl (by rw [h0]; simp)
