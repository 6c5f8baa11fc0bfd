import Verif.Proofs.Bal
/-
When payments succeed.
-/
namespace Bal
variable {ed v u : Balance} {b b' : Bal} {s d a : AccountId}

/-- a payment that keeps the payer alive and does not touch locked tokens goes through -/
theorem transfer_pays (hv : v + max ed (b.frozen s) ≤ b.freeOf s)
    (hd : v = 0 ∨ s = d ∨ ed ≤ b.freeOf d + v) : ∃ b', b.transfer ed s d v .keepAlive = .ok b' := by
  by_cases hz : v = 0 ∨ s = d
  · exact ⟨b, by simp [transfer, hz]⟩
  · have h1 : v ≤ b.freeOf s := by omega
    have h2 : canLeave ed b s (b.freeOf s - v) .keepAlive := ⟨by omega, fun h => by omega⟩
    have h3 : ed ≤ b.freeOf d + v := by grind
    simp only [transfer, if_neg hz, require, h1, h2, h3, if_true, bind, Except.bind, pure, Except.pure]
    exact ⟨_, rfl⟩

/-- and if so, without regard to whether the payer may die -/
theorem transfer_pays_any (l : Live) (hv : v + max ed (b.frozen s) ≤ b.freeOf s)
    (hd : v = 0 ∨ s = d ∨ ed ≤ b.freeOf d + v) :
    ∃ b', b.transfer ed s d v l = .ok b' ∧ b.transfer ed s d v .keepAlive = .ok b' := by
  by_cases hz : v = 0 ∨ s = d
  · exact ⟨b, by simp [transfer, hz]⟩
  · have h1 : v ≤ b.freeOf s := by omega
    have h2 (l) : canLeave ed b s (b.freeOf s - v) l := ⟨by omega, fun h => by omega⟩
    have h3 : ed ≤ b.freeOf d + v := by grind
    simp only [transfer, if_neg hz, require, h1, h2, h3, if_true, bind, Except.bind, pure, Except.pure]
    exact ⟨_, rfl, rfl⟩

/-- what a payer has left for further payments -/
theorem transfer_left_pays (hv : v + u + max ed (b.frozen s) ≤ b.freeOf s)
    (h : b.transfer ed s d v .keepAlive = .ok b') : u + max ed (b'.frozen s) ≤ b'.freeOf s := by
  rw [frozen_mono (transfer_mono h)]
  by_cases hsd : s = d
  · subst hsd; rw [transfer_self h]; omega
  · rw [transfer_keep h s hsd]
    simp only [hsd, if_false, if_true]
    omega

/-- who can be paid can still be paid after others were -/
theorem transfer_keeps_payable {l : Live} (h : b.transfer ed s d v l = .ok b')
    (ha : u = 0 ∨ s = a ∨ ed ≤ b.freeOf a + u) : u = 0 ∨ s = a ∨ ed ≤ b'.freeOf a + u := by
  by_cases e : s = a
  · exact Or.inr (Or.inl e)
  · have := (transfer_mono h).free a (Ne.symm e)
    omega

/-- the fee can be paid -/
theorem payFee_pays (hv : v + max ed (b.frozen a) ≤ b.freeOf a) :
    ∃ b', b.payFee ed a v = .ok b' := by
  by_cases hz : v = 0
  · exact ⟨b.collect v, by simp [payFee, withdraw, hz, bind, Except.bind, pure, Except.pure]⟩
  · have h1 : v ≤ b.freeOf a := by omega
    have h2 : canLeave ed b a (b.freeOf a - v) .keepAlive := ⟨by omega, fun h => by omega⟩
    simp only [payFee, withdraw, if_neg hz, require, h1, h2, if_true, bind, Except.bind, pure,
      Except.pure]
    exact ⟨_, rfl⟩

/-- what is left after a fee -/
theorem payFee_left (hv : v + u + max ed (b.frozen a) ≤ b.freeOf a) (h : b.payFee ed a v = .ok b') :
    u + max ed (b'.frozen a) ≤ b'.freeOf a := by
  rw [frozen_mono (payFee_mono h), payFee_free h, if_pos rfl]
  omega

/-- payments out of an unlocked account that keeps an existential deposit succeed -/
theorem transfer_pot {o : Balance} (hf : b.frozen s = 0) (hv : v + o ≤ b.freeOf s) (ho : ed ≤ o)
    (hd : v = 0 ∨ s = d ∨ ed ≤ b.freeOf d + v) :
    ∃ b', b.transfer ed s d v .allowDeath = .ok b' ∧ o ≤ b'.freeOf s ∧ b'.frozen s = 0 := by
  by_cases hsd : s = d
  · exact ⟨b, by simp [transfer, hsd], by omega, hf⟩
  · obtain ⟨b', h1, h2⟩ := transfer_solvent (ed := ed) hf hv (Or.inr ho) (by tauto) hsd
    exact ⟨b', h1, h2, by rw [frozen_mono (transfer_mono h1), hf]⟩

/-- three payments in a row by a payer who stays alive -/
theorem three_pays {v1 v2 v3 : Balance} {d1 d2 d3 : AccountId}
    (hv : v1 + v2 + v3 + max ed (b.frozen s) ≤ b.freeOf s)
    (h1 : v1 = 0 ∨ s = d1 ∨ ed ≤ b.freeOf d1 + v1) (h2 : v2 = 0 ∨ s = d2 ∨ ed ≤ b.freeOf d2 + v2)
    (h3 : v3 = 0 ∨ s = d3 ∨ ed ≤ b.freeOf d3 + v3) :
    ∃ b1 b2 b3, b.transfer ed s d1 v1 .keepAlive = .ok b1 ∧ b1.transfer ed s d2 v2 .keepAlive = .ok b2 ∧
      b2.transfer ed s d3 v3 .keepAlive = .ok b3 := by
  obtain ⟨b1, t1⟩ := transfer_pays (by omega) h1
  have l1 := transfer_left_pays (u := v2 + v3) (by omega) t1
  obtain ⟨b2, t2⟩ := transfer_pays (b := b1) (v := v2) (by omega) (transfer_keeps_payable t1 h2)
  have l2 := transfer_left_pays (u := v3) l1 t2
  obtain ⟨b3, t3⟩ := transfer_pays l2 (transfer_keeps_payable t2 (transfer_keeps_payable t1 h3))
  exact ⟨b1, b2, b3, t1, t2, t3⟩

/-- three payments in a row out of an unlocked account that keeps an existential deposit -/
theorem three_pot {v1 v2 v3 : Balance} {d1 d2 d3 : AccountId} (hf : b.frozen s = 0)
    (hv : v1 + v2 + v3 + ed ≤ b.freeOf s)
    (h1 : v1 = 0 ∨ s = d1 ∨ ed ≤ b.freeOf d1 + v1) (h2 : v2 = 0 ∨ s = d2 ∨ ed ≤ b.freeOf d2 + v2)
    (h3 : v3 = 0 ∨ s = d3 ∨ ed ≤ b.freeOf d3 + v3) :
    ∃ b1 b2 b3, b.transfer ed s d1 v1 .allowDeath = .ok b1 ∧ b1.transfer ed s d2 v2 .allowDeath = .ok b2 ∧
      b2.transfer ed s d3 v3 .allowDeath = .ok b3 := by
  obtain ⟨b1, t1, l1, f1⟩ := transfer_pot (o := v2 + v3 + ed) hf (by omega) (by omega) h1
  obtain ⟨b2, t2, l2, f2⟩ := transfer_pot (o := v3 + ed) (v := v2) f1 (by omega) (by omega)
    (transfer_keeps_payable t1 h2)
  obtain ⟨b3, t3, _⟩ := transfer_pot (o := ed) (v := v3) f2 (by omega) (by omega)
    (transfer_keeps_payable t2 (transfer_keeps_payable t1 h3))
  exact ⟨b1, b2, b3, t1, t2, t3⟩

end Bal
