import Verif.Proofs.AcceptBase
/-
Lemmas for C116: payments stay possible when fees fall.
-/
variable {c : Cfg} {w w' : World} {a : AccountId}
set_option maxRecDepth 10000
open Spec

namespace Spec.Accept

/-- the same payment, or a fee that has become smaller -/
def Smaller (d d' : Due) : Prop := d'.payer = d.payer ∧ d'.payee = d.payee ∧ d'.mayEmpty = d.mayEmpty ∧
  d'.amount ≤ d.amount ∧ (d.payee ≠ none → d'.amount = d.amount)

/-- no account has less, and the same is locked -/
def Fuller (p p' : Purse) : Prop := (∀ x, p.free x ≤ p'.free x) ∧ p'.locked = p.locked

theorem Smaller.refl (d : Due) : Smaller d d := ⟨rfl, rfl, rfl, Nat.le_refl _, fun _ => rfl⟩

theorem Smaller.fee {x v v' : Nat} (h : v' ≤ v) : Smaller (fee x v) (fee x v') :=
  ⟨rfl, rfl, rfl, h, fun h => absurd rfl h⟩

theorem smaller_refl (l : List Due) : List.Forall₂ Smaller l l := by
  induction l with
  | nil => exact .nil
  | cons d t ih => exact .cons (.refl d) ih

theorem smaller_can {ed : Balance} {p p' : Purse} {d d' : Due} (hs : Smaller d d') (hp : Fuller p p')
    (h : d.Can ed p) : d'.Can ed p' ∧ Fuller (d.after ed p) (d'.after ed p') := by
  obtain ⟨_, _, v, _⟩ := d
  obtain ⟨payer, payee, v', m⟩ := d'
  obtain ⟨rfl, rfl, rfl, hv, he⟩ := hs
  simp only at hv he
  obtain ⟨hf, hl⟩ := hp
  have hfp := hf payer
  have hlp : p'.locked payer = p.locked payer := by rw [hl]
  constructor
  · unfold Due.Can Due.Idle at *
    simp only at h ⊢
    rcases h with (h | h) | ⟨h1, h2, h3⟩
    · exact .inl (.inl (by omega))
    · exact .inl (.inr h)
    · refine .inr ⟨by omega, ?_, fun y hy => ?_⟩
      · rcases h2 with h2 | h2
        · exact .inl (by omega)
        · exact .inr ⟨h2.1, by omega⟩
      · have := h3 y hy
        have := hf y
        have := he (by rw [hy]; simp)
        omega
  · unfold Due.after
    by_cases i1 : Due.Idle ⟨payer, payee, v, m⟩
    · have i2 : Due.Idle ⟨payer, payee, v', m⟩ := by
        unfold Due.Idle at *
        simp only at i1 ⊢
        rcases i1 with i1 | i1
        · exact .inl (by omega)
        · exact .inr i1
      simp only [i1, i2, if_true]
      exact ⟨hf, hl⟩
    · simp only [i1, if_false]
      by_cases i2 : Due.Idle ⟨payer, payee, v', m⟩
      · simp only [i2, if_true]
        refine ⟨fun x => ?_, hl⟩
        have hn : payee = none := by
          unfold Due.Idle at *
          simp only at i1 i2
          by_contra hne
          rw [he hne] at i2
          exact i1 i2
        have := hf x
        simp only [hn]
        by_cases e : x = payer
        · subst e
          rw [if_pos rfl]
          split <;> omega
        · rw [if_neg e]; simpa using this
      · simp only [i2, if_false]
        refine ⟨fun x => ?_, hl⟩
        have := hf x
        by_cases e : x = payer
        · subst e
          simp only [if_true]
          split <;> split <;> omega
        · simp only [e, if_false]
          by_cases e2 : payee = some x
          · have := he (by rw [e2]; simp)
            simp only [e2, if_true]; omega
          · simp only [e2, if_false]; exact this

theorem smaller_all {ed : Balance} {l l' : List Due} (hs : List.Forall₂ Smaller l l') :
    ∀ {p p' : Purse}, Fuller p p' → CanPayAll ed p l → CanPayAll ed p' l' := by
  induction hs with
  | nil => intro _ _ _ _; trivial
  | cons hd _ ih =>
    intro p p' hp h
    obtain ⟨h1, h2⟩ := smaller_can hd hp h.1
    exact ⟨h1, ih h2 h.2⟩

/-- the conditions of a signed call other than payments do not depend on fees, and no payment grows when one falls -/
theorem lower_accepts {r x : Call} (hl : LowersFee w r) (h : Accepts c w (.signed a) x) :
    Accepts c (_root_.step c w (.call .root r)) (.signed a) x := by
  obtain ⟨h1, h2, h3, h4⟩ := h
  have hp : Fuller (purse w.bal) (purse (_root_.step c w (.call .root r)).bal) := by
    rcases r with _ | _ | _ | _ | _ | _ | _ | _ | (_ | _ | _ | _ | k | _) | (_ | _ | _ | _ | _ | _) | _
    all_goals try exact hl.elim
    all_goals try exact ⟨fun _ => Nat.le_refl _, rfl⟩
    cases k <;> exact ⟨fun _ => Nat.le_refl _, rfl⟩
  refine ⟨?_, ?_, ?_, smaller_all ?_ hp h4⟩
  · clear h2 h3 h4 hp
    rcases r with _ | _ | _ | _ | _ | _ | _ | _ | (_ | _ | _ | _ | k | _) | (_ | _ | _ | _ | _ | _) | _
    all_goals try exact hl.elim
    case root.trFee => cases k <;> rcases x with x | x | x | x | x | x | x | x | x | x | x <;>
      first | exact h1 | (cases x <;> exact h1)
    all_goals
      rcases x with x | x | x | x | x | x | x | x | x | x | x <;> first | exact h1 | (cases x <;> exact h1)
  · clear h1 h3 h4 hp
    rcases r with _ | _ | _ | _ | _ | _ | _ | _ | (_ | _ | _ | _ | k | _) | (_ | _ | _ | _ | _ | _) | _
    all_goals try exact hl.elim
    case root.trFee => cases k <;> rcases x with x | x | x | x | x | x | x | x | x | x | x <;>
      first | exact h2 | (cases x <;> exact h2)
    all_goals
      rcases x with x | x | x | x | x | x | x | x | x | x | x <;> first | exact h2 | (cases x <;> exact h2)
  · clear h1 h2 h4 hp
    rcases r with _ | _ | _ | _ | _ | _ | _ | _ | (_ | _ | _ | _ | k | _) | (_ | _ | _ | _ | _ | _) | _
    all_goals try exact hl.elim
    case root.trFee => cases k <;> rcases x with x | x | x | x | x | x | x | x | x | x | x <;>
      first | exact h3 | (cases x <;> exact h3)
    all_goals
      rcases x with x | x | x | x | x | x | x | x | x | x | x <;> first | exact h3 | (cases x <;> exact h3)
  · clear h1 h2 h3 h4 hp
    rcases r with _ | _ | _ | _ | _ | _ | _ | _ | (y | y | y | y | ⟨k, y⟩ | _) | (_ | _ | _ | _ | y | _) | _
    all_goals try exact hl.elim
    case root.trFee =>
      cases k <;> rcases x with x | x | x | x | x | x | x | x | x | x | x <;> cases x
      all_goals first
        | exact smaller_refl _
        | (rename_i p _; cases p <;> first | exact smaller_refl _ | exact .cons (.fee hl) .nil)
    all_goals
      rcases x with x | x | x | x | x | x | x | x | x | x | x <;> try cases x
    all_goals first
      | exact smaller_refl _
      | exact .cons (.fee hl) (smaller_refl _)
      | exact .cons (.refl _) (.cons (.fee hl) .nil)

end Spec.Accept
