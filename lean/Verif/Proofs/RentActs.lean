import Verif.Proofs.RentHook
/-
The rent pallet's block hook as a sequence of settlements and renewals.
-/
namespace RentM
variable {c : Cfg} {w w' : World}

/-- One action of the hook on one due contract. -/
inductive RentAct (c : Cfg) (w : World) : World → Prop where
  | finish {n b k w1} : RInv c w → BalInv c w.bal →
      (n, b) ∈ w.rent.fixedQ ∨ ((n, b) ∈ w.rent.subQ ∧ handleSub c w n = (w, none)) ∨
        (n, b) ∈ w.rent.availQ →
      b ≤ w.now → w.rent.contracts.get n = some k → handleFinished c n w = (w1, .ok ()) →
      RentAct c w (drop w1 n)
  | renew {n b k r fee bal} : RInv c w → BalInv c w.bal → (n, b) ∈ w.rent.subQ → b ≤ w.now →
      w.rent.contracts.get n = some k → k.rentee = some r → k.rentFee = .tokens fee →
      termsChanged k.duration = false → hasEnded k w.now = false →
      w.bal.transfer c.ed r k.renter fee .keepAlive = .ok bal →
      RentAct c w { w with
        bal := bal
        rent := { w.rent with
          subQ := Queue.ins n (w.now + period k.duration) (w.rent.subQ.remove n) } }

abbrev RentActs (c : Cfg) := Relation.ReflTransGen (RentAct c)

theorem RentAct.now (h : RentAct c w w') : w'.now = w.now := by
  cases h with
  | @finish n _ _ w1 _ _ _ _ _ h =>
    have := handleFinished_now (c := c) w n
    rw [h] at this; exact this
  | renew => rfl

theorem RentActs.now (h : RentActs c w w') : w'.now = w.now := by
  induction h with
  | refl => rfl
  | tail _ h ih => exact h.now.trans ih

theorem popF_act {n b t S A} (h : RInv c (setQ w ((n, b) :: t) S A)) (hb : BalInv c w.bal)
    (hn : b ≤ w.now) :
    RentAct c (setQ w ((n, b) :: t) S A) (setQ (handleFinished c n w).1 t S A) := by
  obtain ⟨k, s, d, hk, hr, _, hd, _⟩ := h.q.inF n b (List.mem_cons_self ..)
  obtain ⟨w1, h1⟩ := h.finish_succeeds hb hk
  have h2 := RentAct.finish h hb (Or.inl (List.mem_cons_self ..)) hn hk h1
  rw [handleFinished_comm] at h1
  simp only [Prod.mk.injEq] at h1
  obtain ⟨rfl, _⟩ := h1
  have nS := Queue.remove_of_not_mem (h.q.notS hk (Or.inr ⟨d, hd⟩))
  have nA := Queue.remove_of_not_mem (h.q.notA hk hr)
  unfold drop at h2
  simp only [setQ] at h2 nS nA ⊢
  rw [nS, nA] at h2
  simpa [Queue.remove] using h2

theorem popA_act {n b t F S} (h : RInv c (setQ w F S ((n, b) :: t))) (hb : BalInv c w.bal)
    (hn : b ≤ w.now) :
    RentAct c (setQ w F S ((n, b) :: t)) (setQ (handleFinished c n w).1 F S t) := by
  obtain ⟨k, hk, hr, _⟩ := h.q.inA n b (List.mem_cons_self ..)
  obtain ⟨w1, h1⟩ := h.finish_succeeds hb hk
  have h2 := RentAct.finish h hb (Or.inr (Or.inr (List.mem_cons_self ..))) hn hk h1
  rw [handleFinished_comm] at h1
  simp only [Prod.mk.injEq] at h1
  obtain ⟨rfl, _⟩ := h1
  have nS := Queue.remove_of_not_mem (h.q.notS hk (Or.inl hr))
  have nF := Queue.remove_of_not_mem (h.q.notF hk (Or.inl hr))
  unfold drop at h2
  simp only [setQ] at h2 nS nF ⊢
  rw [nS, nF] at h2
  simpa [Queue.remove] using h2

theorem stepS_act {n b t F A} (h : RInv c (setQ w F ((n, b) :: t) A)) (hb : BalInv c w.bal)
    (hn : b ≤ w.now) :
    RentAct c (setQ w F ((n, b) :: t) A) (setQ (subOne c w n t).1 F (subOne c w n t).2 A) := by
  unfold subOne
  split
  · rename_i w1 b1 e
    obtain ⟨k, r, fee, bal, hk, hr, hf, ht, he, hbl, rfl, rfl⟩ := handleSub_some e
    have hlen := h.q.len
    have hi : Queue.insert c.rentLimit t n (w.now + period k.duration) =
        some (Queue.ins n (w.now + period k.duration) t) := by
      refine Queue.insert_of_lt ?_
      simp only [setQ, List.length_cons] at hlen; omega
    rw [hi]
    have := RentAct.renew h hb (List.mem_cons_self ..) hn hk hr hf ht he hbl
    simpa [Queue.remove, setQ, World.putBal] using this
  · rename_i w1 e
    have e0 := handleSub_none e
    subst e0
    obtain ⟨k, s, d, hk, hr, _, hd, _⟩ := h.q.inS n b (List.mem_cons_self ..)
    obtain ⟨w2, h1⟩ := h.finish_succeeds hb hk
    have hs : handleSub c (setQ w1 F ((n, b) :: t) A) n = (setQ w1 F ((n, b) :: t) A, none) := by
      rw [handleSub_comm, e]
    have h2 := RentAct.finish h hb (Or.inr (Or.inl ⟨List.mem_cons_self .., hs⟩)) hn hk h1
    rw [handleFinished_comm] at h1
    simp only [Prod.mk.injEq] at h1
    obtain ⟨rfl, _⟩ := h1
    have nF := Queue.remove_of_not_mem (h.q.notF hk (Or.inr ⟨d, hd⟩))
    have nA := Queue.remove_of_not_mem (h.q.notA hk hr)
    unfold drop at h2
    simp only [setQ] at h2 nF nA ⊢
    rw [nF, nA] at h2
    simpa [Queue.remove] using h2

theorem loopF_acts (q : Queue) (w : World) (i : Nat) {S A} (h : RInv c (setQ w q S A))
    (hb : BalInv c w.bal) :
    RentActs c (setQ w q S A) (setQ (finishLoop c w q i).1 (finishLoop c w q i).2.1 S A) := by
  induction q generalizing w i with
  | nil => exact .refl
  | cons x t ih =>
    obtain ⟨n, b⟩ := x
    simp only [finishLoop]
    split
    · rename_i hn
      have h1 := (popF (off := fun _ _ => True) h hb).1
      have h2 := popF_act h hb hn
      split
      · exact .single h2
      · exact .head h2 (ih _ (i + 1) h1 (handleFinished_bal w n hb))
    · exact .refl

theorem loopA_acts (q : Queue) (w : World) (i : Nat) {F S} (h : RInv c (setQ w F S q))
    (hb : BalInv c w.bal) :
    RentActs c (setQ w F S q) (setQ (finishLoop c w q i).1 F S (finishLoop c w q i).2.1) := by
  induction q generalizing w i with
  | nil => exact .refl
  | cons x t ih =>
    obtain ⟨n, b⟩ := x
    simp only [finishLoop]
    split
    · rename_i hn
      have h1 := (popA (off := fun _ _ => True) h hb).1
      have h2 := popA_act h hb hn
      split
      · exact .single h2
      · exact .head h2 (ih _ (i + 1) h1 (handleFinished_bal w n hb))
    · exact .refl

theorem loopS_acts (fuel : Nat) (w : World) (q : Queue) (i : Nat) {F A}
    (h : RInv c (setQ w F q A)) (hb : BalInv c w.bal) :
    RentActs c (setQ w F q A) (setQ (subLoop c w q i fuel).1 F (subLoop c w q i fuel).2.1 A) := by
  induction fuel generalizing w q i with
  | zero => exact .refl
  | succ f ih =>
    unfold subLoop
    split
    · exact .refl
    · rename_i n b t
      split
      · rename_i hn
        obtain ⟨h1, h2, h3, h4⟩ := stepS (off := fun _ _ => True) h hb
        have h5 := stepS_act h hb hn
        dsimp only
        split
        · exact .single h5
        · exact .head h5 (ih _ _ (i + 1) h1 h2)
      · exact .refl

/-- The hook is a sequence of actions on due contracts. -/
theorem RInv.hook_acts (h : RInv c w) (hb : BalInv c w.bal) : RentActs c w (RentM.hook c w) := by
  have he := hook_eq (c := c) w
  dsimp only at he
  rw [he]
  have f1 := (loopF (off := fun _ _ => True) w.rent.fixedQ w 0 (S := w.rent.subQ)
    (A := w.rent.availQ) h hb).1
  have fb := hb.pays (finishLoop_pays w.rent.fixedQ w 0)
  have F := loopF_acts w.rent.fixedQ w 0 (S := w.rent.subQ) (A := w.rent.availQ) h hb
  obtain ⟨s1, s2, _, _⟩ := loopS (off := fun _ _ => True)
    (max 1 (c.rentActions - (finishLoop c w w.rent.fixedQ 0).2.2)) _ w.rent.subQ
    (finishLoop c w w.rent.fixedQ 0).2.2 f1 fb
  have S := loopS_acts (max 1 (c.rentActions - (finishLoop c w w.rent.fixedQ 0).2.2)) _ w.rent.subQ
    (finishLoop c w w.rent.fixedQ 0).2.2 f1 fb
  have A := loopA_acts w.rent.availQ _
    (subLoop c (finishLoop c w w.rent.fixedQ 0).1 w.rent.subQ (finishLoop c w w.rent.fixedQ 0).2.2
      (max 1 (c.rentActions - (finishLoop c w w.rent.fixedQ 0).2.2))).2.2 s1 s2
  exact (F.trans S).trans A

end RentM
