import Verif.Props.FaultSpec
/-
Which errors can be met: by cases over the reasons of C117.
-/
open Spec Spec.Accept Spec.Why Spec.Fault
set_option maxRecDepth 10000

variable {c : Cfg} {w : World} {a : AccountId}

theorem blame_common {ed p d s} (h : Blame ed p d s) : s ∈ common := by
  cases h <;> simp [common]

theorem unpaid_common {ed s} : ∀ {l : List Due} {p}, Unpaid ed p l s → s ∈ common
  | [], _, h => h.elim
  | _ :: _, _, h => h.elim (fun h => blame_common h.2) fun h => unpaid_common h.2

/-- a declared error that can be met, or a common one -/
def Known (p : Pallet) (s : String) : Prop := (s ∈ declared p ∧ s ∉ idle p) ∨ s ∈ common

theorem Known.own {p s} (h : (s ∈ declared p ∧ s ∉ idle p)) : Known p s := .inl h

theorem Known.all {p s} (h : s ∈ common) : Known p s := .inr h

macro "known" : tactic => `(tactic| first
  | exact Known.own (by decide +kernel)
  | exact Known.all (by decide +kernel))

theorem nft_known {x s} (h : Why.Nft c w a x s) : Known .nft s := by cases h <;> known
theorem mkt_known {x s} (h : Why.Mkt c w a x s) : Known .marketplace s := by cases h <;> known
theorem auc_known {x s} (h : Why.Auc c w a x s) : Known .auction s := by cases h <;> known

theorem start_known {r k s} (h : Start c w r k s) : Known .rent s := by
  cases h with
  | give h => cases h <;> known
  | _ => known

theorem rent_known {x s} (h : Why.Rent c w a x s) : Known .rent s := by
  cases h with
  | start h => obtain ⟨k, _, h⟩ := h; exact start_known h
  | accept h => obtain ⟨k, _, h⟩ := h; exact start_known h
  | give h => obtain ⟨k, _, h⟩ := h; cases h <;> known
  | _ => known

theorem tr_known {x s} (he : Encodable c (.tr x)) (h : Why.Tr c w a x s) : Known .transmission s := by
  cases h with
  | @long n r p k l t h1 h2 =>
    cases p <;> simp [consents] at h1
    all_goals
      obtain ⟨rfl, rfl⟩ := h1
      simp only [Encodable] at he
      omega
  | _ => known

theorem tee_known {x s} (h : Why.Tee c w a x s) : Known .tee s := by cases h <;> known
theorem br_known {x s} (h : Why.Br c w a x s) : Known .bridge s := by cases h <;> known
theorem root_known {x s} (h : Why.Root c w x s) : Known .tee s := by cases h <;> known

theorem committee_known {x s} (he : Encodable c (.ext x)) (h : Why.Committee c w x s) : Known .bridge s := by
  cases h with
  | range h => simp only [Encodable] at he; omega
  | _ => known

theorem reason_known {x s p} (he : Encodable c x) (hp : palletOf x = some p) (h : Why.Reason c w a x s) : Known p s := by
  cases h with
  | noNft h => revert h hp; unfold about palletOf; rcases x with (x|x|x|x|x|x|x|⟨x, _, _⟩|x|x|x) <;> cases x <;> simp <;> (rintro rfl; intros; known)
  | owner h => revert h hp; unfold ownerOnly palletOf ownerError; rcases x with (x|x|x|x|x|x|x|⟨x, _, _⟩|x|x|x) <;> cases x <;> simp <;> (rintro rfl; intros; known)
  | bars _ h => cases h <;> (cases hp; known)
  | needs _ h => cases h <;> (cases hp; known)
  | bound _ h => cases h <;> (cases hp; known)
  | pay h => exact .inr (unpaid_common h)
  | nft h => cases hp; exact nft_known h
  | mkt h => cases hp; exact mkt_known h
  | auc h => cases hp; exact auc_known h
  | rent h => cases hp; exact rent_known h
  | tr h => cases hp; exact tr_known he h
  | tee h => cases hp; exact tee_known h
  | br h => cases hp; exact br_known h

theorem states_known {x o s p} (he : Encodable c x) (hp : palletOf x = some p) (h : States c w o x s) : Known p s := by
  cases h with
  | origin => exact .inr (by simp [common])
  | signed h => exact reason_known he hp h
  | root h => cases hp; exact root_known h
  | byRoot h =>
    have := committee_known he h
    rename_i y
    cases y <;> first | (cases hp; exact this) | (cases h)
  | byCommittee h =>
    have := committee_known he h
    rename_i y
    cases y <;> first | (cases hp; exact this) | (cases h)
