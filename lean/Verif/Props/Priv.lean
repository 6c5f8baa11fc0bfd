import Verif.Proofs.Priv
/-
Specification: calls by root or by the committee, perhaps inside mandates.
-/
namespace Spec

/-- the call that is executed in the end, inside all mandates -/
def innermost : Call → Call
  | .mandate x => innermost x
  | x => x

/-- operation `o` happened in world `w` and emitted the event `e` -/
def emits (c : Cfg) (w : World) (o : Op) (e : Ev) : Prop :=
  ∃ new, (step c w o).evs = new ++ w.evs ∧ e ∈ new

end Spec

theorem innermost_eq (x : Call) : Spec.innermost x = x.core := by
  induction x with
  | mandate x ih => exact ih
  | _ => rfl

theorem emits_count {c : Cfg} {w : World} {o : Op} {e : Ev} (h : Spec.emits c w o e) :
    w.evs.count e < (step c w o).evs.count e := by
  obtain ⟨m, h1, h2⟩ := h
  have := List.count_pos_iff.2 h2
  rw [h1, List.count_append]; omega
