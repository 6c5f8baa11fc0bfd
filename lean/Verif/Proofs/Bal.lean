import Verif.Model.Balances
import Mathlib.Tactic.Common
/-
Lemmas about balances: what each primitive does to every account, and that books always balance.
-/
namespace Bal
variable {ed : Balance} {b b' : Bal} {a x s d : AccountId} {v : Balance} {l : Live}

/-- sum of all free balances -/
def total (b : Bal) : Balance := b.free.sumBy fun _ v => v

/-- Books balance: no account below the existential deposit; issuance is what accounts and the fee
collector hold. -/
structure WF (ed : Balance) (b : Bal) : Prop where
  ed : ∀ a v, b.free.get a = some v → ed ≤ v
  sum : b.issuance = b.total + b.collected
  max : b.issuance ≤ U128MAX

theorem freeOf_setFree (b : Bal) (a x : AccountId) (v : Balance) :
    (b.setFree a v).freeOf x = if x = a then v else b.freeOf x := by
  unfold freeOf setFree
  by_cases h : v = 0 <;> by_cases e : x = a <;> simp [h, e, FMap.get_erase, FMap.get_insert]

theorem total_setFree (b : Bal) (a : AccountId) (v : Balance) :
    (b.setFree a v).total + b.freeOf a = b.total + v := by
  unfold total setFree freeOf
  have := FMap.sumBy_split (fun _ v => v) b.free a
  by_cases h : v = 0
  · simp only [h, if_true]
    cases e : b.free.get a <;> simp [e] at this ⊢ <;> omega
  · simp only [h, if_false, FMap.sumBy_insert]
    cases e : b.free.get a <;> simp [e] at this ⊢ <;> omega

theorem freeOf_le_total (b : Bal) (a : AccountId) : b.freeOf a ≤ b.total := by
  have := total_setFree b a 0; omega

theorem freeOf_add_le_total (b : Bal) {a x : AccountId} (h : a ≠ x) :
    b.freeOf a + b.freeOf x ≤ b.total := by
  have h1 := total_setFree b a 0
  have h2 := freeOf_le_total (b.setFree a 0) x
  rw [freeOf_setFree, if_neg (Ne.symm h)] at h2
  omega

@[simp] theorem setFree_tee : (b.setFree a v).tee = b.tee := rfl
@[simp] theorem setFree_other : (b.setFree a v).other = b.other := rfl
@[simp] theorem setFree_issuance : (b.setFree a v).issuance = b.issuance := rfl
@[simp] theorem setFree_collected : (b.setFree a v).collected = b.collected := rfl

theorem setFree_ed (h : ∀ a v, b.free.get a = some v → ed ≤ v) (hv : v = 0 ∨ ed ≤ v) :
    ∀ x y, (b.setFree a v).free.get x = some y → ed ≤ y := by
  intro x y
  unfold setFree
  by_cases e : v = 0
  · simp only [e, if_true, FMap.get_erase]
    split
    · simp
    · exact h x y
  · simp only [e, if_false, FMap.get_insert]
    split
    · intro h; simp at h; omega
    · exact h x y

theorem freeOf_settle (b : Bal) (a x : AccountId) (v : Balance) :
    (b.settle ed a v).freeOf x = if x = a then (if v < ed then 0 else v) else b.freeOf x := by
  unfold settle
  split
  · show (b.setFree a 0).freeOf x = _
    rw [freeOf_setFree]
  · rw [freeOf_setFree]

@[simp] theorem settle_tee : (b.settle ed a v).tee = b.tee := by unfold settle; split <;> rfl
@[simp] theorem settle_other : (b.settle ed a v).other = b.other := by unfold settle; split <;> rfl
@[simp] theorem settle_collected : (b.settle ed a v).collected = b.collected := by
  unfold settle; split <;> rfl

theorem settle_ed (h : ∀ a v, b.free.get a = some v → ed ≤ v) :
    ∀ x y, (b.settle ed a v).free.get x = some y → ed ≤ y := by
  unfold settle
  split
  · exact setFree_ed (v := 0) h (Or.inl rfl)
  · exact setFree_ed h (Or.inr (by omega))

/-- dust lost when leaving `v` on an account -/
def dust (ed v : Balance) : Balance := if v < ed then v else 0

theorem total_settle (b : Bal) (a : AccountId) (v : Balance) :
    (b.settle ed a v).total + b.freeOf a + dust ed v = b.total + v := by
  unfold settle dust
  split
  · have := total_setFree b a 0
    have e : ({ b.setFree a 0 with issuance := b.issuance - v } : Bal).total = (b.setFree a 0).total := rfl
    rw [e]; omega
  · have := total_setFree b a v; omega

theorem settle_issuance : (b.settle ed a v).issuance = b.issuance - dust ed v := by
  unfold settle dust; split <;> simp

/-- everything about a successful transfer -/
theorem transfer_ok (h : b.transfer ed s d v l = .ok b') :
    ((v = 0 ∨ s = d) ∧ b' = b) ∨
    (v ≠ 0 ∧ s ≠ d ∧ v ≤ b.freeOf s ∧ canLeave ed b s (b.freeOf s - v) l ∧ ed ≤ b.freeOf d + v ∧
      b' = (b.settle ed s (b.freeOf s - v)).setFree d (b.freeOf d + v)) := by
  unfold transfer at h
  split at h
  · rename_i hz
    simp only [Except.ok.injEq] at h
    exact Or.inl ⟨hz, h.symm⟩
  · rename_i hz
    inv_ok at h
    obtain ⟨h1, h2, h3, rfl⟩ := h
    simp only [not_or] at hz
    exact Or.inr ⟨hz.1, hz.2, h1, h2, h3, rfl⟩

/-- free balance of every account after a successful transfer -/
theorem transfer_free (h : b.transfer ed s d v l = .ok b') (hsd : s ≠ d) (x : AccountId) :
    b'.freeOf x = if x = d then b.freeOf d + v
      else if x = s then (if v = 0 then b.freeOf s else if b.freeOf s - v < ed then 0
        else b.freeOf s - v)
      else b.freeOf x := by
  rcases transfer_ok h with ⟨h1, rfl⟩ | ⟨h1, h2, h3, h4, h5, rfl⟩
  · rcases h1 with rfl | h1
    · by_cases e : x = d
      · subst e; simp
      · by_cases e' : x = s
        · subst e'; simp [e]
        · simp [e, e']
    · exact absurd h1 hsd
  · rw [freeOf_setFree, freeOf_settle]
    simp only [h1, if_false]

theorem transfer_self (h : b.transfer ed s s v l = .ok b') : b' = b := by
  rcases transfer_ok h with ⟨_, h⟩ | ⟨_, h, _⟩
  · exact h
  · exact absurd rfl h

theorem transfer_le (h : b.transfer ed s d v l = .ok b') (hsd : s ≠ d) : v ≤ b.freeOf s := by
  rcases transfer_ok h with ⟨h1, _⟩ | ⟨_, _, h3, _⟩
  · rcases h1 with rfl | h1
    · exact Nat.zero_le _
    · exact absurd h1 hsd
  · exact h3

theorem transfer_locks (h : b.transfer ed s d v l = .ok b') :
    b'.tee = b.tee ∧ b'.other = b.other ∧ b'.collected = b.collected := by
  rcases transfer_ok h with ⟨_, rfl⟩ | ⟨_, _, _, _, _, rfl⟩ <;> simp

/-- A transfer that keeps the payer alive loses nothing. -/
theorem transfer_keep (h : b.transfer ed s d v .keepAlive = .ok b') (x : AccountId) (hsd : s ≠ d) :
    b'.freeOf x = if x = d then b.freeOf d + v
      else if x = s then b.freeOf s - v else b.freeOf x := by
  rw [transfer_free h hsd]
  rcases transfer_ok h with ⟨h1, rfl⟩ | ⟨h1, h2, h3, h4, h5, rfl⟩
  · rcases h1 with rfl | h1
    · simp
    · exact absurd h1 hsd
  · have : ¬ (b.freeOf s - v < ed) := by
      intro hlt; have := h4.2 hlt; simp at this
    simp [h1, this]

/-- change of issuance by a successful transfer: at most dust is lost -/
theorem transfer_issuance (h : b.transfer ed s d v l = .ok b') :
    b'.issuance = b.issuance ∨
      (v ≠ 0 ∧ s ≠ d ∧ l = .allowDeath ∧ b.freeOf s - v < ed ∧
        b'.issuance = b.issuance - (b.freeOf s - v)) := by
  rcases transfer_ok h with ⟨_, rfl⟩ | ⟨h1, h2, h3, h4, h5, rfl⟩
  · exact Or.inl rfl
  · rw [setFree_issuance, settle_issuance]
    unfold dust
    split
    · rename_i hlt; exact Or.inr ⟨h1, h2, (h4.2 hlt).1, hlt, rfl⟩
    · exact Or.inl (by simp)

theorem transfer_wf (hw : b.WF ed) (h : b.transfer ed s d v l = .ok b') : b'.WF ed := by
  rcases transfer_ok h with ⟨_, rfl⟩ | ⟨h1, h2, h3, h4, h5, rfl⟩
  · exact hw
  · obtain ⟨e1, e2, e3⟩ := hw
    have t1 := total_settle (ed := ed) b s (b.freeOf s - v)
    have t2 := total_setFree (b.settle ed s (b.freeOf s - v)) d (b.freeOf d + v)
    rw [freeOf_settle, if_neg (Ne.symm h2)] at t2
    have t3 := freeOf_add_le_total b h2
    refine ⟨setFree_ed (settle_ed e1) (Or.inr h5), ?_, ?_⟩
    · rw [setFree_issuance, settle_issuance, setFree_collected, settle_collected]
      omega
    · rw [setFree_issuance, settle_issuance]; omega

/-- `Mono S b b'`: only accounts in `S` may have lost free balance; no lock changed. -/
structure Mono (S : AccountId → Prop) (b b' : Bal) : Prop where
  free : ∀ x, ¬ S x → b.freeOf x ≤ b'.freeOf x
  tee : b'.tee = b.tee
  other : b'.other = b.other

theorem Mono.refl {S} (b : Bal) : Mono S b b := ⟨fun _ _ => Nat.le_refl _, rfl, rfl⟩

theorem Mono.trans {S} {b1 b2 b3 : Bal} (h1 : Mono S b1 b2) (h2 : Mono S b2 b3) : Mono S b1 b3 :=
  ⟨fun x hx => Nat.le_trans (h1.free x hx) (h2.free x hx), h2.tee.trans h1.tee,
    h2.other.trans h1.other⟩

theorem Mono.weaken {S T : AccountId → Prop} {b b' : Bal} (h : Mono S b b') (hst : ∀ x, S x → T x) :
    Mono T b b' := ⟨fun x hx => h.free x fun hs => hx (hst x hs), h.tee, h.other⟩

theorem transfer_mono (h : b.transfer ed s d v l = .ok b') : Mono (· = s) b b' := by
  by_cases hsd : s = d
  · subst hsd; rw [transfer_self h]; exact .refl b
  · refine ⟨fun x hx => ?_, (transfer_locks h).1, (transfer_locks h).2.1⟩
    rw [transfer_free h hsd]
    simp only [hx, if_false]
    split
    · subst_vars; omega
    · omega

theorem withdraw_ok (h : b.withdraw ed a v l = .ok b') :
    (v = 0 ∧ b' = b) ∨ (v ≠ 0 ∧ v ≤ b.freeOf a ∧ canLeave ed b a (b.freeOf a - v) l ∧
      b' = b.settle ed a (b.freeOf a - v)) := by
  unfold withdraw at h
  split at h
  · simp only [Except.ok.injEq] at h; exact Or.inl ⟨by assumption, h.symm⟩
  · inv_ok at h
    obtain ⟨h1, h2, rfl⟩ := h
    exact Or.inr ⟨by assumption, h1, h2, rfl⟩

theorem withdraw_free (h : b.withdraw ed a v l = .ok b') (x : AccountId) :
    b'.freeOf x = if x = a then (if v = 0 then b.freeOf a else if b.freeOf a - v < ed then 0
        else b.freeOf a - v) else b.freeOf x := by
  rcases withdraw_ok h with ⟨rfl, rfl⟩ | ⟨h1, h2, h3, rfl⟩
  · by_cases e : x = a <;> simp [e]
  · rw [freeOf_settle]; simp [h1]

theorem withdraw_le (h : b.withdraw ed a v l = .ok b') : v ≤ b.freeOf a := by
  rcases withdraw_ok h with ⟨rfl, rfl⟩ | ⟨h1, h2, h3, rfl⟩
  · exact Nat.zero_le _
  · exact h2

theorem withdraw_mono (h : b.withdraw ed a v l = .ok b') : Mono (· = a) b b' := by
  refine ⟨fun x hx => ?_, ?_, ?_⟩
  · rw [withdraw_free h]; simp [hx]
  all_goals rcases withdraw_ok h with ⟨rfl, rfl⟩ | ⟨h1, h2, h3, rfl⟩ <;> simp

/-- withdrawing and then accounting the amount as collected or burned keeps the books balanced -/
theorem withdraw_total (hw : b.WF ed) (h : b.withdraw ed a v l = .ok b') :
    (∀ a v, b'.free.get a = some v → ed ≤ v) ∧ b'.issuance = b'.total + v + b'.collected ∧
      b'.issuance ≤ U128MAX ∧ b'.collected = b.collected := by
  rcases withdraw_ok h with ⟨rfl, rfl⟩ | ⟨h1, h2, h3, rfl⟩
  · exact ⟨hw.ed, by have := hw.sum; omega, hw.max, rfl⟩
  · have t1 := total_settle (ed := ed) b a (b.freeOf a - v)
    have t2 := freeOf_le_total b a
    have t3 := hw.sum
    have t4 := hw.max
    refine ⟨settle_ed hw.ed, ?_, ?_, settle_collected⟩
    · rw [settle_issuance, settle_collected]; omega
    · rw [settle_issuance]; omega

theorem payFee_ok (h : b.payFee ed a v = .ok b') :
    ∃ b1, b.withdraw ed a v .keepAlive = .ok b1 ∧ b' = b1.collect v := by
  unfold payFee at h
  inv_ok at h
  obtain ⟨b1, h1, rfl⟩ := h
  exact ⟨b1, h1, rfl⟩

theorem payFee_free (h : b.payFee ed a v = .ok b') (x : AccountId) :
    b'.freeOf x = if x = a then b.freeOf a - v else b.freeOf x := by
  obtain ⟨b1, h1, rfl⟩ := payFee_ok h
  show b1.freeOf x = _
  rw [withdraw_free h1]
  rcases withdraw_ok h1 with ⟨rfl, rfl⟩ | ⟨h0, h2, h3, rfl⟩
  · simp
  · have : ¬ (b.freeOf a - v < ed) := by intro hlt; have := h3.2 hlt; simp at this
    simp [h0, this]

theorem payFee_le (h : b.payFee ed a v = .ok b') : v ≤ b.freeOf a := by
  obtain ⟨b1, h1, rfl⟩ := payFee_ok h; exact withdraw_le h1

theorem payFee_issuance (h : b.payFee ed a v = .ok b') :
    b'.issuance = b.issuance ∧ b'.collected = b.collected + v := by
  obtain ⟨b1, h1, rfl⟩ := payFee_ok h
  rcases withdraw_ok h1 with ⟨rfl, rfl⟩ | ⟨h1, h2, h3, rfl⟩
  · simp [collect]
  · have : ¬ (b.freeOf a - v < ed) := by intro hlt; have := h3.2 hlt; simp at this
    simp [collect, settle_issuance, dust, this]

theorem payFee_mono (h : b.payFee ed a v = .ok b') : Mono (· = a) b b' := by
  obtain ⟨b1, h1, rfl⟩ := payFee_ok h
  have := withdraw_mono h1
  exact ⟨this.free, this.tee, this.other⟩

theorem payFee_wf (hw : b.WF ed) (h : b.payFee ed a v = .ok b') : b'.WF ed := by
  obtain ⟨b1, h1, rfl⟩ := payFee_ok h
  obtain ⟨t1, t2, t3, t4⟩ := withdraw_total hw h1
  have e : (b1.collect v).total = b1.total := rfl
  refine ⟨t1, ?_, t3⟩
  show b1.issuance = _
  rw [e]; simp [collect]; omega

theorem burn_wf (hw : b.WF ed) (h : b.withdraw ed a v l = .ok b') : (b'.burn v).WF ed := by
  obtain ⟨t1, t2, t3, t4⟩ := withdraw_total hw h
  have e : (b'.burn v).total = b'.total := rfl
  refine ⟨t1, ?_, ?_⟩
  · rw [e]; simp [burn]; omega
  · simp [burn]; omega

theorem mint_free (b : Bal) (a : AccountId) (v : Balance) (x : AccountId) :
    (b.mint ed a v).freeOf x =
      if x = a then
        (if b.freeOf a = 0 ∧ min v (U128MAX - b.issuance) < ed then 0
         else b.freeOf a + min v (U128MAX - b.issuance))
      else b.freeOf x := by
  unfold mint
  simp only
  generalize min v (U128MAX - b.issuance) = y
  split
  · rename_i h
    by_cases e : x = a
    · subst e
      simp only [if_true]
      rcases h with rfl | h
      · split <;> simp_all
      · rw [if_pos h]; exact h.1
    · simp [e]
  · rename_i h
    simp only [not_or, not_and] at h
    show (b.setFree a (b.freeOf a + y)).freeOf x = _
    rw [freeOf_setFree]
    by_cases e : x = a
    · simp only [e, if_true]
      rw [if_neg (by rintro ⟨h1, h2⟩; exact h.2 h1 h2)]
    · simp [e]

theorem mint_mono {S} (b : Bal) (a : AccountId) (v : Balance) : Mono S b (b.mint ed a v) := by
  refine ⟨fun x _ => ?_, ?_, ?_⟩
  · rw [mint_free]
    split
    · subst_vars; split <;> omega
    · omega
  all_goals unfold mint; simp only; split <;> rfl

theorem mint_issuance (b : Bal) (a : AccountId) (v : Balance) :
    b.issuance ≤ (b.mint ed a v).issuance ∧ (b.mint ed a v).issuance ≤ b.issuance + v ∧
      (b.mint ed a v).collected = b.collected := by
  unfold mint; simp only
  split
  · simp
  · simp; omega

theorem mint_wf (hw : b.WF ed) : (b.mint ed a v).WF ed := by
  unfold mint; simp only
  split
  · exact hw
  · rename_i h
    simp only [not_or, not_and] at h
    have t := total_setFree b a (b.freeOf a + min v (U128MAX - b.issuance))
    have t2 := hw.sum
    have t3 := hw.max
    refine ⟨?_, ?_, ?_⟩
    · refine setFree_ed hw.ed (Or.inr ?_)
      by_cases e : b.freeOf a = 0
      · have := h.2 e; omega
      · have : ed ≤ b.freeOf a := by
          unfold freeOf at e ⊢
          cases hg : b.free.get a with
          | none => simp [hg] at e
          | some y => simpa [hg] using hw.ed a y hg
        omega
    · show b.issuance + _ = (b.setFree a _).total + b.collected
      omega
    · show b.issuance + _ ≤ _
      omega

/-- an account holds nothing or at least the existential deposit -/
theorem WF.zero_or (hw : b.WF ed) (a : AccountId) : b.freeOf a = 0 ∨ ed ≤ b.freeOf a := by
  unfold freeOf
  cases hg : b.free.get a with
  | none => simp
  | some y => right; simpa [hg] using hw.ed a y hg

theorem frozen_mono {S} (h : Mono S b b') (a : AccountId) : b'.frozen a = b.frozen a := by
  unfold frozen; rw [h.tee, h.other]

/-- A payment out of an unlocked account that leaves enough for the remaining obligations `o`
succeeds and leaves at least `o`. -/
theorem transfer_solvent {o : Balance} (hf : b.frozen s = 0) (hv : v + o ≤ b.freeOf s)
    (ho : o = 0 ∨ ed ≤ o) (hd : v = 0 ∨ ed ≤ b.freeOf d + v) (hsd : s ≠ d) :
    ∃ b', b.transfer ed s d v .allowDeath = .ok b' ∧ o ≤ b'.freeOf s := by
  by_cases hz : v = 0
  · refine ⟨b, by simp [transfer, hz], by omega⟩
  · have hok : b.transfer ed s d v .allowDeath =
        .ok ((b.settle ed s (b.freeOf s - v)).setFree d (b.freeOf d + v)) := by
      unfold transfer
      rw [if_neg (by simp [hz, hsd])]
      have h1 : v ≤ b.freeOf s := by omega
      have h2 : canLeave ed b s (b.freeOf s - v) .allowDeath := by simp [canLeave, hf]
      have h3 : ed ≤ b.freeOf d + v := hd.resolve_left hz
      simp [require, h1, h2, h3, bind, Except.bind, pure, Except.pure]
    refine ⟨_, hok, ?_⟩
    rw [transfer_free hok hsd]
    simp only [hsd, if_false, if_true, hz]
    split <;> omega

/-- What is left covers `o` if it did before the payment. -/
theorem transfer_left {o : Balance} (h : b.transfer ed s d v l = .ok b') (hv : v + o ≤ b.freeOf s)
    (ho : o = 0 ∨ ed ≤ o) : o ≤ b'.freeOf s := by
  by_cases hsd : s = d
  · subst hsd; rw [transfer_self h]; omega
  · rw [transfer_free h hsd]
    simp only [hsd, if_false, if_true]
    split
    · omega
    · split <;> omega

end Bal
