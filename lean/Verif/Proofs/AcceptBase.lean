import Verif.Props.AcceptSpec
import Verif.Props.Refuse
import Verif.Proofs.Cash
/-
Lemmas for C115: payments.
-/
namespace Spec.Accept
variable {ed v : Balance} {b b' : Bal} {s d : AccountId} {l : Live}

theorem fee_eq (a : AccountId) (v : Balance) : fee a v = ⟨a, none, v, decide (Live.keepAlive = .allowDeath)⟩ := rfl
theorem pays_eq (a y : AccountId) (v : Balance) :
    pays a y v = ⟨a, some y, v, decide (Live.keepAlive = .allowDeath)⟩ := rfl
theorem paysAll_eq (a y : AccountId) (v : Balance) :
    paysAll a y v = ⟨a, some y, v, decide (Live.allowDeath = .allowDeath)⟩ := rfl

theorem fee_can {p : Purse} : Due.Can ed p (fee s v) ↔ v = 0 ∨ (v + p.locked s ≤ p.free s ∧ v + ed ≤ p.free s) := by
  simp [Due.Can, Due.Idle, fee]

theorem leave_iff (hv : v ≤ b.freeOf s) : Bal.canLeave ed b s (b.freeOf s - v) l ↔
    v + Spec.locked b s ≤ b.freeOf s ∧ (v + ed ≤ b.freeOf s ∨ (decide (l = .allowDeath) = true ∧ Spec.locked b s = 0)) := by
  rw [Spec.locked_eq]
  unfold Bal.canLeave
  simp only [decide_eq_true_eq]
  constructor
  · rintro ⟨h1, h2⟩
    refine ⟨by omega, ?_⟩
    by_cases h : b.freeOf s - v < ed
    · exact .inr (h2 h)
    · exact .inl (by omega)
  · rintro ⟨h1, h2⟩
    refine ⟨by omega, fun h => ?_⟩
    rcases h2 with h2 | h2
    · omega
    · exact h2

theorem transfer_can : (∃ b', b.transfer ed s d v l = .ok b') ↔ Due.Can ed (purse b) ⟨s, some d, v, l = .allowDeath⟩ := by
  unfold Bal.transfer Due.Can Due.Idle
  by_cases h : v = 0 ∨ s = d
  · simp only [h, if_true]
    have : v = 0 ∨ d = s := by simpa [eq_comm] using h
    simp [this]
  · have h2 : ¬ (v = 0 ∨ d = s) := by simpa [eq_comm] using h
    simp only [h, if_false, Option.some.injEq, h2, false_or, purse, Exec.bind_ok, Exec.require_ok, Exec.pure_ok, Exec.exists_unit,
      forall_eq']
    constructor
    · rintro ⟨b', h1, h2, h3, _⟩
      exact ⟨((leave_iff h1).1 h2).1, ((leave_iff h1).1 h2).2, h3⟩
    · rintro ⟨h1, h2, h3⟩
      have h4 : v ≤ b.freeOf s := by omega
      exact ⟨_, h4, (leave_iff h4).2 ⟨h1, h2⟩, h3, rfl⟩

theorem purse_ext {p q : Purse} (h1 : ∀ x, p.free x = q.free x) (h2 : ∀ x, p.locked x = q.locked x) : p = q := by
  cases p; cases q
  simp only [Purse.mk.injEq]
  exact ⟨funext h1, funext h2⟩

theorem transfer_after (h : b.transfer ed s d v l = .ok b') :
    purse b' = Due.after ed (purse b) ⟨s, some d, v, l = .allowDeath⟩ := by
  have hl := Bal.transfer_locks h
  unfold Due.after Due.Idle
  rcases Bal.transfer_ok h with ⟨h1, rfl⟩ | ⟨h1, h2, h3, h4, h5, rfl⟩
  · have : v = 0 ∨ some d = some s := by simpa [eq_comm] using h1
    simp only [this, if_true]
  · have : ¬ (v = 0 ∨ some d = some s) := by simp; exact ⟨h1, fun e => h2 e.symm⟩
    simp only [this, if_false]
    refine purse_ext (fun x => ?_) (fun x => ?_)
    · simp only [purse, Bal.freeOf_setFree, Bal.freeOf_settle, Option.some.injEq]
      by_cases e : x = s
      · subst e; rw [if_neg h2, if_pos rfl, if_pos rfl]; congr
      · by_cases e2 : x = d
        · subst e2; rw [if_pos rfl, if_neg e, if_pos rfl]
        · rw [if_neg e2, if_neg e, if_neg e, if_neg fun h : d = x => e2 h.symm]
    · simp [purse, Spec.locked]

theorem withdraw_can : (∃ b', b.withdraw ed s v l = .ok b') ↔ Due.Can ed (purse b) ⟨s, none, v, l = .allowDeath⟩ := by
  unfold Bal.withdraw Due.Can Due.Idle
  by_cases h : v = 0
  · simp [h]
  · simp only [h, if_false, purse, Exec.bind_ok, Exec.require_ok, Exec.pure_ok, Exec.exists_unit,
      reduceCtorEq, false_implies, implies_true, and_true, false_or]
    constructor
    · rintro ⟨b', h1, h2, _⟩
      exact (leave_iff h1).1 h2
    · intro h1
      have h4 : v ≤ b.freeOf s := by omega
      exact ⟨_, h4, (leave_iff h4).2 h1, rfl⟩

theorem withdraw_after (h : b.withdraw ed s v l = .ok b') :
    purse b' = Due.after ed (purse b) ⟨s, none, v, l = .allowDeath⟩ := by
  unfold Due.after Due.Idle
  rcases Bal.withdraw_ok h with ⟨h1, rfl⟩ | ⟨h1, h2, h3, rfl⟩
  · simp [h1]
  · simp only [h1, reduceCtorEq, or_self, if_false]
    refine purse_ext (fun x => ?_) (fun x => ?_)
    · simp only [purse, Bal.freeOf_settle]
      by_cases e : x = s
      · rw [if_pos e, if_pos e]; congr
      · rw [if_neg e, if_neg e]
    · simp [purse, Spec.locked]

theorem payFee_can : (∃ b', b.payFee ed s v = .ok b') ↔ Due.Can ed (purse b) (fee s v) := by
  rw [fee_eq, ← withdraw_can]
  constructor
  · rintro ⟨b', h⟩
    obtain ⟨b1, h1, _⟩ := Bal.payFee_ok h
    exact ⟨b1, h1⟩
  · rintro ⟨b1, h1⟩
    refine ⟨b1.collect v, ?_⟩
    unfold Bal.payFee
    rw [h1]; rfl

theorem payFee_after (h : b.payFee ed s v = .ok b') : purse b' = Due.after ed (purse b) (fee s v) := by
  obtain ⟨b1, h1, rfl⟩ := Bal.payFee_ok h
  rw [fee_eq, ← withdraw_after h1]
  rfl

section
variable {P : Bal → Prop} {t : List Due}

theorem transfer_payable (hP : ∀ b', b.transfer ed s d v l = .ok b' → (P b' ↔ CanPayAll ed (purse b') t)) :
    (∃ b', b.transfer ed s d v l = .ok b' ∧ P b') ↔ CanPayAll ed (purse b) (⟨s, some d, v, l = .allowDeath⟩ :: t) := by
  unfold CanPayAll
  rw [← transfer_can]
  constructor
  · rintro ⟨b', h1, h2⟩
    exact ⟨⟨b', h1⟩, transfer_after h1 ▸ (hP b' h1).1 h2⟩
  · rintro ⟨⟨b', h1⟩, h2⟩
    exact ⟨b', h1, (hP b' h1).2 (transfer_after h1 ▸ h2)⟩

theorem withdraw_payable (hP : ∀ b', b.withdraw ed s v l = .ok b' → (P b' ↔ CanPayAll ed (purse b') t)) :
    (∃ b', b.withdraw ed s v l = .ok b' ∧ P b') ↔ CanPayAll ed (purse b) (⟨s, none, v, l = .allowDeath⟩ :: t) := by
  unfold CanPayAll
  rw [← withdraw_can]
  constructor
  · rintro ⟨b', h1, h2⟩
    exact ⟨⟨b', h1⟩, withdraw_after h1 ▸ (hP b' h1).1 h2⟩
  · rintro ⟨⟨b', h1⟩, h2⟩
    exact ⟨b', h1, (hP b' h1).2 (withdraw_after h1 ▸ h2)⟩

theorem payFee_payable (hP : ∀ b', b.payFee ed s v = .ok b' → (P b' ↔ CanPayAll ed (purse b') t)) :
    (∃ b', b.payFee ed s v = .ok b' ∧ P b') ↔ CanPayAll ed (purse b) (fee s v :: t) := by
  unfold CanPayAll
  rw [← payFee_can]
  constructor
  · rintro ⟨b', h1, h2⟩
    exact ⟨⟨b', h1⟩, payFee_after h1 ▸ (hP b' h1).1 h2⟩
  · rintro ⟨⟨b', h1⟩, h2⟩
    exact ⟨b', h1, (hP b' h1).2 (payFee_after h1 ▸ h2)⟩

end

theorem pays_cons {t : List Due} : CanPayAll ed (purse b) (pays s d v :: t) ↔
    ∃ b', b.transfer ed s d v .keepAlive = .ok b' ∧ CanPayAll ed (purse b') t := by
  rw [pays_eq]; exact (transfer_payable fun _ _ => Iff.rfl).symm

theorem paysAll_cons {t : List Due} : CanPayAll ed (purse b) (paysAll s d v :: t) ↔
    ∃ b', b.transfer ed s d v .allowDeath = .ok b' ∧ CanPayAll ed (purse b') t := by
  rw [paysAll_eq]; exact (transfer_payable fun _ _ => Iff.rfl).symm

theorem due_cons {t : List Due} : CanPayAll ed (purse b) (⟨s, some d, v, l = .allowDeath⟩ :: t) ↔
    ∃ b', b.transfer ed s d v l = .ok b' ∧ CanPayAll ed (purse b') t :=
  (transfer_payable fun _ _ => Iff.rfl).symm

theorem fee_cons {t : List Due} : CanPayAll ed (purse b) (fee s v :: t) ↔
    ∃ b', b.payFee ed s v = .ok b' ∧ CanPayAll ed (purse b') t :=
  (payFee_payable fun _ _ => Iff.rfl).symm

theorem can_nil {p : Purse} : CanPayAll ed p [] := trivial

theorem payFee_one : (∃ b', b.payFee ed s v = .ok b') ↔ CanPayAll ed (purse b) [fee s v] := by
  rw [payFee_can]; simp [CanPayAll]

theorem transfer_one : (∃ b', b.transfer ed s d v l = .ok b') ↔ CanPayAll ed (purse b) [⟨s, some d, v, l = .allowDeath⟩] := by
  rw [transfer_can]; simp [CanPayAll]

theorem ensure_iff (w : World) (a : AccountId) (v : Balance) (h : v ≤ w.bal.freeOf a) :
    Holds w a v ↔ w.bal.ensureCanWithdraw a v (w.bal.freeOf a - v) := by
  unfold Holds Bal.ensureCanWithdraw
  rw [Spec.locked_eq]
  omega

end Spec.Accept
