import Mathlib.Tactic.CasesM
/-
The error monad of extrinsics.  `Err` keeps the pallet error's name; a Rust panic
(`expect`, `unwrap`, out-of-range index) is the separate value `Err.panic`.
-/

/-- Outcome of a failing call: a dispatch error, or a panic. -/
inductive Err where
  | e (name : String)
  | panic (name : String)
deriving DecidableEq, Repr

/-- `ensure!(c, e)` -/
def require (c : Prop) [Decidable c] (e : String) : Except Err Unit :=
  if c then .ok () else .error (.e e)

/-- `o.ok_or(e)?` -/
def getOr {α : Type} (o : Option α) (e : String) : Except Err α :=
  match o with
  | some a => .ok a
  | none => .error (.e e)

/-- `o.expect(..)` -/
def expectSome {α : Type} (o : Option α) (e : String) : Except Err α :=
  match o with
  | some a => .ok a
  | none => .error (.panic e)

/-- `x.map_err(..)`: the name of the error is replaced, a panic stays a panic -/
def mapErr {α : Type} (f : String → String) : Except Err α → Except Err α
  | .ok a => .ok a
  | .error (.e s) => .error (.e (f s))
  | .error (.panic s) => .error (.panic s)

namespace Exec
variable {α β : Type}

theorem mapErr_ok {f : String → String} {x : Except Err α} {a : α} : mapErr f x = .ok a ↔ x = .ok a := by
  cases x with
  | ok b => simp [mapErr]
  | error e => cases e <;> simp [mapErr]

theorem mapErr_err {f : String → String} {x : Except Err α} {y : Err} :
    mapErr f x = .error y ↔
      (∃ s, x = .error (.e s) ∧ y = .e (f s)) ∨ ∃ s, x = .error (.panic s) ∧ y = .panic s := by
  cases x with
  | ok b => simp [mapErr]
  | error e => cases e <;> simp [mapErr, eq_comm]

theorem require_ok {c : Prop} [Decidable c] {e : String} {u : Unit} :
    require c e = .ok u ↔ c := by
  unfold require; split <;> simp_all

theorem require_err {c : Prop} [Decidable c] {e : String} {x : Err} :
    require c e = .error x ↔ ¬ c ∧ x = .e e := by
  unfold require; split <;> simp_all [eq_comm]

theorem getOr_ok {o : Option α} {e : String} {a : α} : getOr o e = .ok a ↔ o = some a := by
  unfold getOr; split <;> simp_all

theorem getOr_err {o : Option α} {e : String} {x : Err} :
    getOr o e = .error x ↔ o = none ∧ x = .e e := by
  unfold getOr; split <;> simp_all [eq_comm]

theorem expect_ok {o : Option α} {e : String} {a : α} : expectSome o e = .ok a ↔ o = some a := by
  unfold expectSome; split <;> simp_all

theorem expect_err {o : Option α} {e : String} {x : Err} :
    expectSome o e = .error x ↔ o = none ∧ x = .panic e := by
  unfold expectSome; split <;> simp_all [eq_comm]

theorem bind_ok {x : Except Err α} {f : α → Except Err β} {b : β} :
    (x >>= f) = .ok b ↔ ∃ a, x = .ok a ∧ f a = .ok b := by
  cases x with
  | error e => simp [bind, Except.bind]
  | ok a => simp [bind, Except.bind]

theorem bind_err {x : Except Err α} {f : α → Except Err β} {b : Err} :
    (x >>= f) = .error b ↔ x = .error b ∨ ∃ a, x = .ok a ∧ f a = .error b := by
  cases x with
  | error e => simp [bind, Except.bind]
  | ok a => simp [bind, Except.bind]

theorem pure_ok {a b : α} : (pure a : Except Err α) = .ok b ↔ a = b := by
  simp [pure, Except.pure]

theorem pure_err {a : α} {b : Err} : (pure a : Except Err α) = .error b ↔ False := by
  simp [pure, Except.pure]

theorem ok_inj {a b : α} : (Except.ok a : Except Err α) = .ok b ↔ a = b := by simp

theorem exists_unit {p : Unit → Prop} : (∃ u, p u) ↔ p () := ⟨fun ⟨_, h⟩ => h, fun h => ⟨_, h⟩⟩

end Exec

/-- Turn `call … = .ok w'` into the conjunction of its checks and the new state. -/
macro "inv_ok" " at " h:ident : tactic =>
  `(tactic| (simp only [Exec.bind_ok, Exec.require_ok, Exec.getOr_ok, Exec.expect_ok, Exec.pure_ok,
      Exec.mapErr_ok, Exec.ok_inj, Exec.exists_unit, ← exists_and_left, ← exists_and_right, and_assoc] at $h:ident))
