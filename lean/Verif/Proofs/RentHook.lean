import Verif.Proofs.RentInv
/-
The rent pallet's block hook keeps the pallet's invariant and never fails to settle a contract.
-/
namespace RentM
variable {c : Cfg} {w w' : World} {a : AccountId} {off : AccountId → AccountId → Prop}

/-- the world with other queues: the hook works on copies -/
def setQ (w : World) (F S A : Queue) : World :=
  { w with rent := { w.rent with fixedQ := F, subQ := S, availQ := A } }

/-- an action that neither reads nor writes the queues -/
def Comm (f : Act) : Prop := ∀ w F S A, f (setQ w F S A) = (setQ (f w).1 F S A, (f w).2)

theorem Comm.pay {s d v l} : Comm (payAct c s d v l) := by
  intro w F S A
  unfold payAct
  show (match w.bal.transfer c.ed s d v l with | .ok b => _ | .error e => _) = _
  split <;> simp_all [setQ, World.putBal]

theorem Comm.skip : Comm Act.skip := fun _ _ _ _ => rfl

theorem Comm.chown {m x} : Comm (chownOpt m x) := by
  intro w F S A
  cases m with
  | none => rfl
  | some m =>
    simp only [chownOpt, chownAct]
    show (match w.nfts.get m with | some d => _ | none => _) = _
    split <;> simp_all [setQ, World.putNft]

theorem Comm.seq {f g : Act} (hf : Comm f) (hg : Comm g) : Comm (f.seq g) := by
  intro w F S A
  unfold Act.seq
  rw [hf w F S A]
  rcases h : f w with ⟨w1, e⟩
  cases e with
  | error e => rfl
  | ok u => exact hg w1 F S A

theorem handleFinished_comm {n} : Comm (handleFinished c n) := by
  intro w F S A
  unfold handleFinished
  have e1 : (setQ w F S A).rent.contracts = w.rent.contracts := rfl
  have e2 : (setQ w F S A).nfts = w.nfts := rfl
  rw [e1, e2]
  cases w.rent.contracts.get n with
  | none => rfl
  | some k =>
    cases w.nfts.get n with
    | none => rfl
    | some d =>
      refine Comm.seq .pay (.seq ?_ (.seq .chown (.seq ?_ ?_))) w F S A
      · cases k.rentee with
        | none => exact .skip
        | some r => exact .pay
      · cases k.rentee with
        | none => exact .skip
        | some r => exact .chown
      · intro w F S A; rfl

theorem handleSub_comm (w : World) (n : NFTId) (F S A : Queue) :
    handleSub c (setQ w F S A) n = (setQ (handleSub c w n).1 F S A, (handleSub c w n).2) := by
  unfold handleSub
  have e1 : (setQ w F S A).rent.contracts = w.rent.contracts := rfl
  rw [e1]
  cases w.rent.contracts.get n with
  | none => rfl
  | some k =>
    cases hr : k.rentee with
    | none => simp [hr]
    | some r =>
      cases hf : k.rentFee with
      | nft m => simp [hr, hf]
      | tokens fee =>
        simp only [hr, hf]
        have e3 : (setQ w F S A).now = w.now := rfl
        have e4 : (setQ w F S A).bal = w.bal := rfl
        rw [e3, e4]
        split
        · rfl
        · cases w.bal.transfer c.ed r k.renter fee .keepAlive <;> rfl

theorem RInv.setBal (h : RInv c w) {b : Bal} (hb : w.bal.freeOf c.rentPot ≤ b.freeOf c.rentPot) :
    RInv c (w.putBal b) := by
  refine ⟨h.q, ?_, Nat.le_trans h.solv hb⟩
  exact h.dep.frame rfl (fun m hm => hm) (fun n k d _ hd => ⟨d, hd, rfl, rfl⟩)

/-- settle the contract at the head of the queue of fixed rentals -/
theorem popF {n b t S A} (h : RInv c (setQ w ((n, b) :: t) S A)) (hb : BalInv c w.bal) :
    RInv c (setQ (handleFinished c n w).1 t S A) ∧
    (∀ i, SliceRel c w.now off .hookRent (slice w i) (slice (handleFinished c n w).1 i)) := by
  obtain ⟨k, s, d, hk, hr, _, hd, _⟩ := h.q.inF n b (List.mem_cons_self ..)
  obtain ⟨w1, h1⟩ := h.finish_succeeds hb hk
  have h2 := h.finished h1
  have h3 := finished_slice (off := off) (kd := .hookRent) h1 (h.dep.ok n) (Or.inl rfl)
  rw [handleFinished_comm] at h1
  simp only [Prod.mk.injEq] at h1
  obtain ⟨rfl, _⟩ := h1
  refine ⟨?_, h3⟩
  have nS := Queue.remove_of_not_mem (h.q.notS hk (Or.inr ⟨d, hd⟩))
  have nA := Queue.remove_of_not_mem (h.q.notA hk hr)
  unfold drop at h2
  simp only [setQ] at h2 nS nA ⊢
  rw [nS, nA] at h2
  simpa [Queue.remove] using h2

/-- settle the contract at the head of the queue of available contracts -/
theorem popA {n b t F S} (h : RInv c (setQ w F S ((n, b) :: t))) (hb : BalInv c w.bal) :
    RInv c (setQ (handleFinished c n w).1 F S t) ∧
    (∀ i, SliceRel c w.now off .hookRent (slice w i) (slice (handleFinished c n w).1 i)) := by
  obtain ⟨k, hk, hr, _⟩ := h.q.inA n b (List.mem_cons_self ..)
  obtain ⟨w1, h1⟩ := h.finish_succeeds hb hk
  have h2 := h.finished h1
  have h3 := finished_slice (off := off) (kd := .hookRent) h1 (h.dep.ok n) (Or.inl rfl)
  rw [handleFinished_comm] at h1
  simp only [Prod.mk.injEq] at h1
  obtain ⟨rfl, _⟩ := h1
  refine ⟨?_, h3⟩
  have nS := Queue.remove_of_not_mem (h.q.notS hk (Or.inl hr))
  have nF := Queue.remove_of_not_mem (h.q.notF hk (Or.inl hr))
  unfold drop at h2
  simp only [setQ] at h2 nS nF ⊢
  rw [nS, nF] at h2
  simpa [Queue.remove] using h2

/-- settle the subscription at the head of its queue -/
theorem popS {n b t F A} (h : RInv c (setQ w F ((n, b) :: t) A)) (hb : BalInv c w.bal) :
    RInv c (setQ (handleFinished c n w).1 F t A) ∧
    (∀ i, SliceRel c w.now off .hookRent (slice w i) (slice (handleFinished c n w).1 i)) := by
  obtain ⟨k, s, d, hk, hr, _, hd, _⟩ := h.q.inS n b (List.mem_cons_self ..)
  obtain ⟨w1, h1⟩ := h.finish_succeeds hb hk
  have h2 := h.finished h1
  have h3 := finished_slice (off := off) (kd := .hookRent) h1 (h.dep.ok n) (Or.inl rfl)
  rw [handleFinished_comm] at h1
  simp only [Prod.mk.injEq] at h1
  obtain ⟨rfl, _⟩ := h1
  refine ⟨?_, h3⟩
  have nF := Queue.remove_of_not_mem (h.q.notF hk (Or.inr ⟨d, hd⟩))
  have nA := Queue.remove_of_not_mem (h.q.notA hk hr)
  unfold drop at h2
  simp only [setQ] at h2 nF nA ⊢
  rw [nF, nA] at h2
  simpa [Queue.remove] using h2

theorem handleFinished_bal (w : World) (n : NFTId) (hb : BalInv c w.bal) :
    BalInv c (handleFinished c n w).1.bal := hb.pays (handleFinished_pays w n)

theorem handleFinished_now (w : World) (n : NFTId) : (handleFinished c n w).1.now = w.now :=
  (congrArg World.now (show _ = _ from handleFinished_frame (c := c) w n) : _)

theorem finishLoop_now (q : Queue) (w : World) (i : Nat) : (finishLoop c w q i).1.now = w.now :=
  (congrArg World.now (show _ = _ from finishLoop_frame (c := c) q w i) : _)

/-- the loop over fixed rentals -/
theorem loopF (q : Queue) (w : World) (i : Nat) {S A} (h : RInv c (setQ w q S A))
    (hb : BalInv c w.bal) :
    RInv c (setQ (finishLoop c w q i).1 (finishLoop c w q i).2.1 S A) ∧
    (∀ j, SliceRel c w.now off .hookRent (slice w j) (slice (finishLoop c w q i).1 j)) := by
  induction q generalizing w i with
  | nil => exact ⟨h, fun _ => .refl⟩
  | cons x t ih =>
    obtain ⟨n, b⟩ := x
    simp only [finishLoop]
    split
    · obtain ⟨h1, h2⟩ := popF (off := off) h hb
      split
      · exact ⟨h1, h2⟩
      · obtain ⟨h3, h4⟩ := ih _ (i + 1) h1 (handleFinished_bal w n hb)
        rw [handleFinished_now] at h4
        exact ⟨h3, fun j => (h2 j).trans (h4 j)⟩
    · exact ⟨h, fun _ => .refl⟩

/-- the loop over available contracts -/
theorem loopA (q : Queue) (w : World) (i : Nat) {F S} (h : RInv c (setQ w F S q))
    (hb : BalInv c w.bal) :
    RInv c (setQ (finishLoop c w q i).1 F S (finishLoop c w q i).2.1) ∧
    (∀ j, SliceRel c w.now off .hookRent (slice w j) (slice (finishLoop c w q i).1 j)) := by
  induction q generalizing w i with
  | nil => exact ⟨h, fun _ => .refl⟩
  | cons x t ih =>
    obtain ⟨n, b⟩ := x
    simp only [finishLoop]
    split
    · obtain ⟨h1, h2⟩ := popA (off := off) h hb
      split
      · exact ⟨h1, h2⟩
      · obtain ⟨h3, h4⟩ := ih _ (i + 1) h1 (handleFinished_bal w n hb)
        rw [handleFinished_now] at h4
        exact ⟨h3, fun j => (h2 j).trans (h4 j)⟩
    · exact ⟨h, fun _ => .refl⟩

/-- What a renewal does. -/
theorem handleSub_some {n b} (h : handleSub c w n = (w', some b)) :
    ∃ k r fee bal, w.rent.contracts.get n = some k ∧ k.rentee = some r ∧ k.rentFee = .tokens fee ∧
      termsChanged k.duration = false ∧ hasEnded k w.now = false ∧
      w.bal.transfer c.ed r k.renter fee .keepAlive = .ok bal ∧ b = w.now + period k.duration ∧
      w' = w.putBal bal := by
  unfold handleSub at h
  split at h
  · simp at h
  · rename_i k hk
    split at h
    · rename_i r fee hr hf
      split at h
      · simp at h
      · rename_i hc
        split at h
        · simp at h
        · rename_i bal hbal
          simp only [Prod.mk.injEq, Option.some.injEq] at h
          simp only [not_or, Bool.not_eq_true] at hc
          exact ⟨k, r, fee, bal, hk, hr, hf, hc.1, hc.2, hbal, h.2.symm, h.1.symm⟩
    · simp at h

theorem handleSub_none {n} (h : handleSub c w n = (w', none)) : w' = w := by
  unfold handleSub at h
  split at h
  · simp at h; exact h.symm
  · split at h
    · split at h
      · simp at h; exact h.symm
      · split at h
        · simp at h; exact h.symm
        · simp at h
    · simp at h; exact h.symm

theorem stepS {n b t F A} (h : RInv c (setQ w F ((n, b) :: t) A)) (hb : BalInv c w.bal) :
    RInv c (setQ (subOne c w n t).1 F (subOne c w n t).2 A) ∧ BalInv c (subOne c w n t).1.bal ∧
    (subOne c w n t).1.now = w.now ∧
    (∀ i, SliceRel c w.now off .hookRent (slice w i) (slice (subOne c w n t).1 i)) := by
  have hbal : BalInv c (subOne c w n t).1.bal := hb.pays (subOne_pays w n t)
  have hnow : (subOne c w n t).1.now = w.now :=
    (congrArg World.now (show _ = _ from subOne_frame (c := c) w n t) : _)
  refine ⟨?_, hbal, hnow, ?_⟩
  · unfold subOne
    split
    · rename_i w1 b1 e
      obtain ⟨k, r, fee, bal, hk, hr, hf, ht, he, hbl, rfl, rfl⟩ := handleSub_some e
      have hlen := h.q.len
      have hpos := (h.q.con n k hk).period.1
      have hp := (h.parties hk).2 r hr
      have hi : Queue.insert c.rentLimit t n (w.now + period k.duration) =
          some (Queue.ins n (w.now + period k.duration) t) := by
        refine Queue.insert_of_lt ?_
        simp only [setQ, List.length_cons] at hlen; omega
      rw [hi]
      have hq := h.q.renew (n := n) (x := b) (t := t) (b := w.now + period k.duration) rfl
        (by show w.now < _; omega)
      have h1 : RInv c (setQ w F (Queue.ins n (w.now + period k.duration) t) A) := by
        refine ⟨hq, ?_, h.solv⟩
        exact h.dep.frame rfl (fun m hm => hm) (fun n k d _ hd => ⟨d, hd, rfl, rfl⟩)
      exact h1.setBal ((Bal.transfer_mono hbl).free _ hp)
    · rename_i w1 e
      rw [handleSub_none e]
      exact (popS (off := fun _ _ => True) h hb).1
  · intro i
    unfold subOne
    split
    · rename_i w1 b1 e
      obtain ⟨k, r, fee, bal, hk, hr, hf, ht, he, hbl, rfl, rfl⟩ := handleSub_some e
      exact .refl
    · rename_i w1 e
      rw [handleSub_none e]
      exact (popS h hb).2 i

theorem loopS (fuel : Nat) (w : World) (q : Queue) (i : Nat) {F A} (h : RInv c (setQ w F q A))
    (hb : BalInv c w.bal) :
    RInv c (setQ (subLoop c w q i fuel).1 F (subLoop c w q i fuel).2.1 A) ∧
    BalInv c (subLoop c w q i fuel).1.bal ∧ (subLoop c w q i fuel).1.now = w.now ∧
    (∀ j, SliceRel c w.now off .hookRent (slice w j) (slice (subLoop c w q i fuel).1 j)) := by
  induction fuel generalizing w q i with
  | zero => exact ⟨h, hb, rfl, fun _ => .refl⟩
  | succ f ih =>
    unfold subLoop
    split
    · exact ⟨h, hb, rfl, fun _ => .refl⟩
    · rename_i n b t
      split
      · obtain ⟨h1, h2, h3, h4⟩ := stepS (off := off) h hb
        dsimp only
        split
        · exact ⟨h1, h2, h3, h4⟩
        · obtain ⟨j1, j2, j3, j4⟩ := ih _ _ (i + 1) h1 h2
          rw [h3] at j3 j4
          exact ⟨j1, j2, j3, fun j => (h4 j).trans (j4 j)⟩
      · exact ⟨h, hb, rfl, fun _ => .refl⟩

theorem finishLoop_count (q : Queue) (w : World) (i : Nat) :
    i ≤ (finishLoop c w q i).2.2 ∧
    ((finishLoop c w q i).2.2 = i → finishLoop c w q i = (w, q, i)) := by
  induction q generalizing w i with
  | nil => simp [finishLoop]
  | cons x t ih =>
    obtain ⟨n, b⟩ := x
    simp only [finishLoop]
    split
    · split
      · simp
      · have := (ih (handleFinished c n w).1 (i + 1)).1
        refine ⟨by omega, fun h => by omega⟩
    · simp

theorem subLoop_count (fuel : Nat) (w : World) (q : Queue) (i : Nat) :
    i ≤ (subLoop c w q i fuel).2.2 ∧
    ((subLoop c w q i fuel).2.2 = i → subLoop c w q i fuel = (w, q, i)) := by
  induction fuel generalizing w q i with
  | zero => simp [subLoop]
  | succ f ih =>
    unfold subLoop
    split
    · simp
    · split
      · dsimp only
        split
        · simp
        · rename_i n b t _ _
          have := (ih (subOne c w n t).1 (subOne c w n t).2 (i + 1)).1
          refine ⟨by omega, fun h => by omega⟩
      · simp

/-- The hook's queues are written back iff something happened, which makes no difference. -/
theorem hook_eq (w : World) :
    let f := finishLoop c w w.rent.fixedQ 0
    let s := subLoop c f.1 w.rent.subQ f.2.2 (max 1 (c.rentActions - f.2.2))
    let x := finishLoop c s.1 w.rent.availQ s.2.2
    hook c w = setQ x.1 f.2.1 s.2.1 x.2.1 := by
  intro f s x
  unfold hook
  by_cases h : 0 < x.2.2
  · simp only [f, s, x] at h
    simp only [h, if_true]
    rfl
  · have cx := finishLoop_count (c := c) w.rent.availQ s.1 s.2.2
    have cs := subLoop_count (c := c) (max 1 (c.rentActions - f.2.2)) f.1 w.rent.subQ f.2.2
    have cf := finishLoop_count (c := c) w.rent.fixedQ w 0
    have hx0 : x.2.2 = 0 := by omega
    have hs0 : s.2.2 = 0 := by
      have := cx.1; simp only [x] at hx0; omega
    have hf0 : f.2.2 = 0 := by
      have := cs.1; simp only [s] at hs0; omega
    have ef : f = (w, w.rent.fixedQ, 0) := cf.2 hf0
    have es : s = (f.1, w.rent.subQ, f.2.2) := cs.2 (by simp only [s] at hs0; omega)
    have ex : x = (s.1, w.rent.availQ, s.2.2) := cx.2 (by simp only [x] at hx0; omega)
    simp only [f, s, x] at h
    simp only [h, if_false]
    show x.1 = setQ x.1 f.2.1 s.2.1 x.2.1
    rw [ex, es, ef]
    rfl

/-- The hook keeps the invariant; every NFT makes only hook transitions. -/
theorem RInv.hook (h : RInv c w) (hb : BalInv c w.bal) :
    RInv c (RentM.hook c w) ∧
    (∀ i, SliceRel c w.now off .hookRent (slice w i) (slice (RentM.hook c w) i)) := by
  have he := hook_eq (c := c) w
  dsimp only at he
  rw [he]
  obtain ⟨f1, f2⟩ := loopF (off := off) w.rent.fixedQ w 0 (S := w.rent.subQ) (A := w.rent.availQ) h hb
  have fb := hb.pays (finishLoop_pays w.rent.fixedQ w 0)
  have fn := finishLoop_now (c := c) w.rent.fixedQ w 0
  obtain ⟨s1, s2, s3, s4⟩ := loopS (off := off)
    (max 1 (c.rentActions - (finishLoop c w w.rent.fixedQ 0).2.2)) _ w.rent.subQ
    (finishLoop c w w.rent.fixedQ 0).2.2 f1 fb
  obtain ⟨a1, a2⟩ := loopA (off := off) w.rent.availQ _
    (subLoop c (finishLoop c w w.rent.fixedQ 0).1 w.rent.subQ (finishLoop c w w.rent.fixedQ 0).2.2
      (max 1 (c.rentActions - (finishLoop c w w.rent.fixedQ 0).2.2))).2.2 s1 s2
  rw [s3, fn] at a2
  rw [fn] at s4
  exact ⟨a1, fun i => ((f2 i).trans (s4 i)).trans (a2 i)⟩

end RentM
