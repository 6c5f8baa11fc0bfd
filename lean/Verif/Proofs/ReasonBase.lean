import Verif.Props.ReasonSpec
import Verif.Proofs.AcceptBase
/-
Lemmas for C117: why payments fail, and tactics that take apart the error of a call.
-/
variable {ed v : Balance} {b b' : Bal} {a s d : AccountId} {l : Live} {e : String} {t : List Spec.Accept.Due}

/-- Turn `call … = .error (.e s)` into the disjunction of the checks that may have failed. -/
macro "inv_err" " at " h:ident : tactic =>
  `(tactic| (simp only [Exec.bind_err, Exec.require_err, Exec.getOr_err, Exec.expect_err, Exec.pure_err, Exec.mapErr_err,
      Exec.bind_ok, Exec.require_ok, Exec.getOr_ok, Exec.expect_ok, Exec.pure_ok, Exec.mapErr_ok, Exec.exists_unit,
      Err.e.injEq, reduceCtorEq, and_false, false_and, or_false, false_or, exists_false, exists_eq_left',
      Bool.not_eq_false, Bool.not_eq_true, not_not] at $h:ident))

/-- one goal for each check -/
macro "each" : tactic => `(tactic| casesm* _ ∨ _, _ ∧ _, ∃ _, _)

namespace Spec.Why
open Spec.Accept

theorem leave_err (h1 : v ≤ b.freeOf s) (h : ¬ Bal.canLeave ed b s (b.freeOf s - v) l) (y : Option AccountId) :
    Blame ed (purse b) ⟨s, y, v, l = .allowDeath⟩ "LiquidityRestrictions/KeepAlive" := by
  rw [leave_iff h1] at h
  refine .rest h1 ?_
  simp only [purse, decide_eq_true_eq] at *
  by_cases e : l = .allowDeath <;> simp only [e, true_and, forall_const, false_and, or_false, and_true, reduceCtorEq,
    false_implies] at * <;> omega

theorem transfer_err (h : b.transfer ed s d v l = .error (.e e)) :
    ¬ Due.Idle ⟨s, some d, v, l = .allowDeath⟩ ∧ Blame ed (purse b) ⟨s, some d, v, l = .allowDeath⟩ e := by
  unfold Bal.transfer at h
  by_cases h0 : v = 0 ∨ s = d
  · rw [if_pos h0] at h; cases h
  · rw [if_neg h0] at h
    refine ⟨fun hi => h0 ?_, ?_⟩
    · rcases hi with hi | hi
      · exact .inl hi
      · exact .inr (Option.some.inj hi).symm
    · inv_err at h
      rcases h with ⟨h1, rfl⟩ | ⟨h1, ⟨h2, rfl⟩ | ⟨h2, h3, rfl⟩⟩
      · exact .funds (by simpa [purse] using h1)
      · exact leave_err h1 h2 _
      · exact .payee d rfl (by simpa [purse] using h3)

theorem withdraw_err (h : b.withdraw ed s v l = .error (.e e)) :
    ¬ Due.Idle ⟨s, none, v, l = .allowDeath⟩ ∧ Blame ed (purse b) ⟨s, none, v, l = .allowDeath⟩ e := by
  unfold Bal.withdraw at h
  by_cases h0 : v = 0
  · rw [if_pos h0] at h; cases h
  · rw [if_neg h0] at h
    refine ⟨fun hi => h0 ?_, ?_⟩
    · rcases hi with hi | hi
      · exact hi
      · cases hi
    · inv_err at h
      rcases h with ⟨h1, rfl⟩ | ⟨h1, h2, rfl⟩
      · exact .funds (by simpa [purse] using h1)
      · exact leave_err h1 h2 _

theorem payFee_err (h : b.payFee ed s v = .error (.e e)) : Unpaid ed (purse b) (fee s v :: t) e := by
  unfold Bal.payFee at h
  inv_err at h
  rw [fee_eq]; exact .inl (withdraw_err h)

theorem payFee_next (h : b.payFee ed s v = .ok b') (h2 : Unpaid ed (purse b') t e) :
    Unpaid ed (purse b) (fee s v :: t) e :=
  .inr ⟨payFee_can.1 ⟨_, h⟩, payFee_after h ▸ h2⟩

theorem pays_err (h : b.transfer ed s d v .keepAlive = .error (.e e)) : Unpaid ed (purse b) (pays s d v :: t) e := by
  rw [pays_eq]; exact .inl (transfer_err h)

theorem paysAll_err (h : b.transfer ed s d v .allowDeath = .error (.e e)) :
    Unpaid ed (purse b) (paysAll s d v :: t) e := by
  rw [paysAll_eq]; exact .inl (transfer_err h)

theorem pays_next (h : b.transfer ed s d v .keepAlive = .ok b') (h2 : Unpaid ed (purse b') t e) :
    Unpaid ed (purse b) (pays s d v :: t) e := by
  rw [pays_eq]; exact .inr ⟨transfer_can.1 ⟨_, h⟩, transfer_after h ▸ h2⟩

theorem paysAll_next (h : b.transfer ed s d v .allowDeath = .ok b') (h2 : Unpaid ed (purse b') t e) :
    Unpaid ed (purse b) (paysAll s d v :: t) e := by
  rw [paysAll_eq]; exact .inr ⟨transfer_can.1 ⟨_, h⟩, transfer_after h ▸ h2⟩

/-- a payment that fails cannot be made -/
theorem transfer_cannot {x : Err} (h : b.transfer ed s d v l = .error x) :
    ¬ Due.Can ed (purse b) ⟨s, some d, v, l = .allowDeath⟩ := by
  rw [← transfer_can]
  rintro ⟨b', h2⟩
  rw [h] at h2; cases h2

/-- `Blame` is a reason: such a payment cannot be made. -/
theorem blame_cannot {p : Purse} {x : Due} (h : ¬ x.Idle) (hb : Blame ed p x e) : ¬ x.Can ed p := by
  rintro (hc | ⟨h1, h2, h3⟩)
  · exact h hc
  · cases hb with
    | funds g => omega
    | rest g g2 =>
      rcases g2 with g2 | ⟨g2, g3⟩
      · omega
      · rcases h2 with h2 | ⟨h4, h5⟩
        · omega
        · have := g3 h4; omega
    | payee y e1 g => have := h3 y e1; omega

/-- `Unpaid` is a reason: the payments cannot all be made. -/
theorem unpaid_cannot {p : Purse} {l : List Due} (h : Unpaid ed p l e) : ¬ CanPayAll ed p l := by
  induction l generalizing p with
  | nil => exact h.elim
  | cons x t ih =>
    rintro ⟨h1, h2⟩
    rcases h with ⟨g1, g2⟩ | ⟨_, g2⟩
    · exact blame_cannot g1 g2 h1
    · exact ih g2 h2

end Spec.Why

/-- Errors about an NFT that exists or not, is another's, or has the wrong flags. -/
macro "why" : tactic => `(tactic| first
  | exact .noNft rfl (by assumption)
  | exact .owner rfl ⟨_, by assumption, by assumption⟩
  | exact .bars rfl (by constructor) ⟨_, by assumption, by assumption⟩
  | exact .needs rfl (by constructor) ⟨_, by assumption, by assumption⟩)
