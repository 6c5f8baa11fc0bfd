import Verif.Proofs.TeeStake
/-
Every staking lock is covered by the account's free balance.
-/
variable {c : Cfg} {w w' : World} {a : AccountId}

namespace Bal
variable {ed : Balance} {b b' : Bal}

/-- nobody has less than their staking lock -/
def Covered (b : Bal) : Prop := ∀ a, (b.tee.get a).getD 0 ≤ b.freeOf a

theorem Covered.settle {x l} (h : b.Covered) (hc : canLeave ed b a x l) : (b.settle ed a x).Covered := by
  intro j
  rw [settle_tee, freeOf_settle]
  split
  · subst_vars
    have h1 := hc.1
    have h2 := hc.2
    unfold frozen at h1 h2
    split
    · have := (h2 (by assumption)).2; omega
    · omega
  · exact h j

theorem Covered.mono (h : b.Covered) (h1 : ∀ j, b.freeOf j ≤ b'.freeOf j) (h2 : b'.tee = b.tee) :
    b'.Covered := by
  intro j; rw [h2]; exact Nat.le_trans (h j) (h1 j)

theorem Covered.withdraw {v l} (h : b.Covered) (hw : b.withdraw ed a v l = .ok b') : b'.Covered := by
  rcases withdraw_ok hw with ⟨rfl, rfl⟩ | ⟨h1, h2, h3, rfl⟩
  · exact h
  · exact h.settle h3

theorem Covered.transfer {s d v l} (h : b.Covered) (hw : b.transfer ed s d v l = .ok b') :
    b'.Covered := by
  rcases transfer_ok hw with ⟨_, rfl⟩ | ⟨h1, h2, h3, h4, h5, rfl⟩
  · exact h
  · refine (h.settle h4).mono ?_ rfl
    intro j
    rw [freeOf_setFree]
    by_cases e : j = d
    · subst e; rw [freeOf_settle, if_neg (fun e => h2 e.symm), if_pos rfl]; omega
    · rw [if_neg e]; exact Nat.le_refl _

theorem Covered.payFee {v} (h : b.Covered) (hw : b.payFee ed a v = .ok b') : b'.Covered := by
  obtain ⟨b1, h1, rfl⟩ := payFee_ok hw
  exact (h.withdraw h1 : b1.Covered)

theorem Covered.mint {v} (h : b.Covered) : (b.mint ed a v).Covered :=
  h.mono (fun j => (mint_mono (S := fun _ => False) b a v).free j (by simp))
    (mint_mono (S := fun _ => False) b a v).tee

end Bal

theorem Pays.covered {ed S} {b b' : Bal} (h : Pays ed S b b') (hb : b.Covered) : b'.Covered := by
  induction h with
  | refl => exact hb
  | tail _ h ih =>
    cases h with
    | transfer _ h => exact ih.transfer h
    | fee _ h => exact ih.payFee h

theorem TeeM.call_covered {x : TeeM.Call} (h : TeeM.call c w a x = .ok w') (hs : SInv w)
    (hb : w.bal.Covered) : w'.bal.Covered := by
  have hr : ∀ op, (w.bal.removeLock op).Covered := by
    intro op j
    show ((w.bal.tee.erase op).get j).getD 0 ≤ w.bal.freeOf j
    simp only [FMap.get_erase]; split
    · simp
    · exact hb j
  have hl : ∀ x, x ≤ w.bal.freeOf a → (w.bal.setLock a x).Covered := by
    intro x hx
    unfold Bal.setLock
    split
    · exact hb
    · intro j
      show ((w.bal.tee.insert a x).get j).getD 0 ≤ w.bal.freeOf j
      simp only [FMap.get_insert]; split
      · subst_vars; exact hx
      · exact hb j
  cases x <;> simp only [call] at h
  case register =>
    simp only [register] at h; inv_ok at h
    obtain ⟨h1, h2, h3, h4, h5, h6, h7, h8, rfl⟩ := h
    exact hl _ h7
  case unregister =>
    simp only [unregister] at h
    split at h
    · simp only [unregisterAssigned] at h; frame_auto at h; exact hb
    · simp only [dropRegistration] at h; frame_auto at h; exact hr a
  case withdraw => simp only [withdraw] at h; frame_auto at h; exact hr a
  case claim =>
    simp only [claim] at h; inv_ok at h
    obtain ⟨_, _, _, b, _, _, _, _, _, _, _, h1, rfl⟩ := h
    exact hb.transfer h1
  case bondExtra =>
    simp only [bondExtra] at h; inv_ok at h
    obtain ⟨s, h1, h2, h3, h4, rfl⟩ := h
    refine hl _ ?_
    have := (hs.led a s h1).2
    unfold lockOf at this
    rcases h4 with h4 | h4
    · omega
    · unfold Bal.frozen at h4; omega
  case refundExcess =>
    simp only [refundExcess] at h; inv_ok at h
    obtain ⟨s, h1, h2, rfl⟩ := h
    refine hl _ ?_
    have := (hs.led a s h1).2
    have := hb a
    unfold lockOf at *
    omega
  all_goals simp only [update, dropUpdate, submitReport] at h
  all_goals frame_auto at h
  all_goals exact hb

theorem Reach.covered (h : Reach c w) : w.bal.Covered := by
  induction h with
  | init h => intro a; simp [h.bal.tee]
  | @step w o hr ho ih =>
    have h := step_side w o ho
    generalize _root_.step c w o = w' at h ⊢
    cases h with
    | tee ha h => exact TeeM.call_covered h hr.sinv ih
    | br ha h =>
      rename_i x
      cases x <;> simp only [BrM.call] at h
      case vote k t =>
        simp only [BrM.voteFor] at h; inv_ok at h
        obtain ⟨y, _, _, _, rfl⟩ := h
        cases y.2
        · exact ih
        · exact ih.mint
      case deposit v r d =>
        simp only [BrM.deposit] at h; inv_ok at h
        obtain ⟨b1, b2, _, _, h1, h2, rfl⟩ := h
        exact ((ih.payFee h1).withdraw h2 : b2.Covered)
    | teeRoot hg hx h hl =>
      rcases TeeM.root_bal h with e | ⟨op, _, e⟩
      · show Bal.Covered _; dsimp only; rw [e]; exact ih
      · show Bal.Covered _; dsimp only; rw [e]
        intro j
        show ((w.bal.tee.erase op).get j).getD 0 ≤ w.bal.freeOf j
        simp only [FMap.get_erase]; split
        · simp
        · exact ih j
    | root hg hx hn h h1 h2 h3 h4 h5 h6 h7 hl =>
      show Bal.Covered _; dsimp only; rw [h4]; exact ih
    | ext hg hx h hl =>
      have e := BrM.ext_frame h
      rename_i r w1 l
      have e : w1.bal = w.bal := fr% World.bal e
      show Bal.Covered _; dsimp only; rw [e]; exact ih
    | hookTee =>
      have e := TeeM.hook_frame (c := c) w
      have e : (TeeM.hook c w).bal = w.bal := fr% World.bal e
      rw [e]; exact ih
    | tick => exact ih
    | era he => exact ih
    | txFee hp h =>
      simp only [RewM.txFee] at h; inv_ok at h
      obtain ⟨b, h1, rfl⟩ := h
      rename_i p f t au
      have h2 : (b.burn (f + t)).Covered := (ih.withdraw h1 : b.Covered)
      cases au
      · exact h2
      · exact h2.mint
    | eraPayout =>
      simp only [RewM.eraPayout]
      split
      · rename_i b h1; exact (ih.withdraw h1 : b.Covered)
      · exact ih
    | mint => exact ih.mint
    | lock => exact ih
    | other h1 h2 h3 h4 h5 h6 => exact h6.covered ih
