import Verif.Proofs.RentStep
import Verif.Proofs.Due
import Verif.Proofs.Lift
/-
Progress of the rent pallet's three queues.
-/
variable {c : Cfg} {w w' : World} {a : AccountId}

/-- dropping from a queue without duplicates -/
theorem Queue.At.drop {q : Queue} (hq : q.WF) {n b i} (h : q.At n b i) (j : Nat) :
    (i < j ∧ n ∉ Queue.ids (q.drop j)) ∨ (j ≤ i ∧ Queue.At (q.drop j) n b (i - j)) := by
  have hi := Queue.At.iff.1 h
  by_cases hij : i < j
  · left
    refine ⟨hij, fun hm => ?_⟩
    have hnd := hq.nd
    obtain ⟨pre, post, rfl, hl⟩ := h
    have e : (pre ++ (n, b) :: post).drop j = post.drop (j - i - 1) := by
      have : j = pre.length + (1 + (j - i - 1)) := by omega
      conv_lhs => rw [this]
      rw [List.drop_append, List.drop_eq_nil_of_le (by omega)]
      have : pre.length + (1 + (j - i - 1)) - pre.length = (j - i - 1) + 1 := by omega
      rw [this]; simp
    rw [e] at hm
    have : n ∈ Queue.ids post := by
      obtain ⟨e, he⟩ := Queue.mem_ids.1 hm
      exact Queue.mem_ids.2 ⟨e, List.mem_of_mem_drop he⟩
    simp only [Queue.ids, List.map_append, List.map_cons, List.nodup_append, List.nodup_cons] at hnd
    exact hnd.2.1.1 this
  · right
    refine ⟨by omega, Queue.At.iff.2 ?_⟩
    rw [List.getElem?_drop]
    have : j + (i - j) = i := by omega
    rw [this]; exact hi

namespace RentM

theorem finishLoop_drop (q : Queue) (w : World) (i : Nat) :
    ∃ j, (finishLoop c w q i).2.1 = q.drop j ∧
      ∀ p x, q.Pairwise (fun x y => x.2 ≤ y.2) → q[p]? = some x → x.2 ≤ w.now →
        p < max 1 (c.rentActions - i) → p < j := by
  induction q generalizing w i with
  | nil => exact ⟨0, rfl, by simp⟩
  | cons y t ih =>
    obtain ⟨n, e⟩ := y
    simp only [finishLoop]
    split
    · rename_i he
      have hnow : (handleFinished c n w).1.now = w.now := handleFinished_now w n
      split
      · exact ⟨1, by simp, fun p x _ _ _ hlt => by omega⟩
      · obtain ⟨j, h1, h3⟩ := ih (handleFinished c n w).1 (i + 1)
        refine ⟨j + 1, by simpa using h1, ?_⟩
        intro p x hs hp hx hlt
        cases p with
        | zero => omega
        | succ p =>
          have := h3 p x (List.pairwise_cons.1 hs).2 (by simpa using hp) (by rw [hnow]; exact hx)
            (by omega)
          omega
    · rename_i he
      refine ⟨0, rfl, fun p x hs hp hx _ => ?_⟩
      exfalso
      cases p with
      | zero => simp at hp; subst hp; exact he hx
      | succ p =>
        have h1 := (List.pairwise_cons.1 hs).1 x (List.mem_of_getElem? (by simpa using hp))
        exact he (Nat.le_trans h1 hx)

/-- a due entry of a popped queue is taken or moves up -/
theorem finishLoop_at {q : Queue} (hq : q.WF) {n b i k} (h : q.At n b i) (hb : b ≤ w.now) :
    n ∉ Queue.ids (finishLoop c w q k).2.1 ∨
    (max 1 (c.rentActions - k) ≤ i ∧ ∃ j, j ≤ i - max 1 (c.rentActions - k) ∧
      Queue.At (finishLoop c w q k).2.1 n b j) := by
  obtain ⟨j, h1, h3⟩ := finishLoop_drop (c := c) q w k
  rw [h1]
  rcases h.drop hq j with ⟨_, h2⟩ | ⟨h2, h4⟩
  · exact Or.inl h2
  · have hK : max 1 (c.rentActions - k) ≤ j := by
      by_contra hlt
      have hi := Queue.At.iff.1 h
      by_cases e : i < max 1 (c.rentActions - k)
      · have := h3 i _ hq.sorted hi hb e; omega
      · have hj : j < q.length := by
          have := (List.getElem?_eq_some_iff.1 hi).1; omega
        have hle : (q[j]).2 ≤ w.now := by
          rcases Nat.eq_or_lt_of_le h2 with rfl | hlt'
          · have := (List.getElem?_eq_some_iff.1 hi).2; rw [this]; exact hb
          · have hi' := (List.getElem?_eq_some_iff.1 hi)
            have := List.pairwise_iff_getElem.1 hq.sorted j i hj hi'.1 hlt'
            rw [hi'.2] at this
            exact Nat.le_trans this hb
        have := h3 j _ hq.sorted (List.getElem?_eq_getElem hj) hle (by omega)
        omega
    exact Or.inr ⟨by omega, i - j, by omega, h4⟩

theorem subOne_now (w : World) (n : NFTId) (t : Queue) : (subOne c w n t).1.now = w.now := by
  unfold subOne
  split
  · rename_i w1 b1 e
    obtain ⟨_, _, _, _, _, _, _, _, _, _, _, rfl⟩ := handleSub_some e
    rfl
  · rename_i w1 e
    rw [handleSub_none e, handleFinished_now]

theorem subLoop_now (fuel : Nat) (w : World) (q : Queue) (k : Nat) :
    (subLoop c w q k fuel).1.now = w.now := by
  induction fuel generalizing w q k with
  | zero => rfl
  | succ f ih =>
    unfold subLoop
    split
    · rfl
    · split
      · dsimp only
        split
        · exact subOne_now ..
        · rw [ih, subOne_now]
      · rfl

/-- the queue after one step of the subscription loop -/
theorem subOne_queue (w : World) (n : NFTId) (t : Queue) :
    (subOne c w n t).2 = t ∨ ∃ k, w.rent.contracts.get n = some k ∧
      (subOne c w n t).2 = Queue.ins n (w.now + period k.duration) t := by
  unfold subOne
  split
  · rename_i w1 b1 e
    obtain ⟨k, _, _, _, hk, _, _, _, _, _, rfl, _⟩ := handleSub_some e
    dsimp only
    cases hi : Queue.insert c.rentLimit t n (w.now + period k.duration) with
    | none => exact Or.inl rfl
    | some q =>
      obtain ⟨_, rfl⟩ := Queue.insert_some hi
      exact Or.inr ⟨k, hk, rfl⟩
  · exact Or.inl rfl

/-- entries for later blocks are not touched -/
theorem subLoop_later (fuel : Nat) (w : World) (q : Queue) (i : Nat) {F A}
    (h : RInv c (setQ w F q A)) (hb : BalInv c w.bal) {n} (hl : ∀ e, (n, e) ∈ q → w.now < e) :
    ∀ e, (n, e) ∈ (subLoop c w q i fuel).2.1 → w.now < e := by
  induction fuel generalizing w q i with
  | zero => exact hl
  | succ f ih =>
    unfold subLoop
    split
    · simp
    · rename_i m b t
      split
      · rename_i hn
        obtain ⟨h1, h2, h3, h4⟩ := stepS (off := fun _ _ => True) h hb
        have hmn : m ≠ n := by
          rintro rfl
          have := hl b (List.mem_cons_self ..); omega
        have hl' : ∀ e, (n, e) ∈ (subOne c w m t).2 → w.now < e := by
          intro e he
          rcases subOne_queue (c := c) w m t with e1 | ⟨k, _, e1⟩
          · rw [e1] at he; exact hl e (List.mem_cons_of_mem _ he)
          · rw [e1] at he
            rcases Queue.mem_ins.1 he with he | he
            · simp only [Prod.mk.injEq] at he; exact absurd he.1.symm hmn
            · exact hl e (List.mem_cons_of_mem _ he)
        dsimp only
        split
        · exact hl'
        · have := ih (subOne c w m t).1 (subOne c w m t).2 (i + 1) h1 h2
            (by rw [subOne_now]; exact hl')
          rw [subOne_now] at this; exact this
      · exact hl

/-- a due entry is handled, or keeps its place or moves up -/
theorem subLoop_keep (fuel : Nat) (w : World) (q : Queue) (k : Nat) {F A}
    (h : RInv c (setQ w F q A)) (hbal : BalInv c w.bal) {n b i} (hi : q.At n b i) (hb : b ≤ w.now) :
    (∀ e, (n, e) ∈ (subLoop c w q k fuel).2.1 → w.now < e) ∨
    ∃ j, j + min 1 fuel ≤ i ∧ Queue.At (subLoop c w q k fuel).2.1 n b j := by
  induction fuel generalizing w q k i with
  | zero => exact Or.inr ⟨i, by omega, hi⟩
  | succ f ih =>
    have hwf : q.WF := h.q.wfS
    unfold subLoop
    split
    · have := hi.mem; simp at this
    · rename_i m e t
      have he : e ≤ w.now := by
        rcases List.mem_cons.1 hi.mem with h1 | h1
        · simp only [Prod.mk.injEq] at h1; omega
        · have := (List.pairwise_cons.1 hwf.sorted).1 _ h1; exact Nat.le_trans this hb
      rw [if_pos he]
      obtain ⟨h1, h2, h3, h4⟩ := stepS (off := fun _ _ => True) h hbal
      by_cases hm : m = n
      · subst hm
        left
        obtain ⟨k0, _, _, hk0, _⟩ := h.q.inS m e (List.mem_cons_self ..)
        have hpos := (h.q.con m k0 hk0).period.1
        have hnt : m ∉ Queue.ids t := hwf.head
        have hl' : ∀ e, (m, e) ∈ (subOne c w m t).2 → w.now < e := by
          intro e he
          rcases subOne_queue (c := c) w m t with e1 | ⟨k1, hk1, e1⟩
          · rw [e1] at he; exact absurd (Queue.mem_ids.2 ⟨e, he⟩) hnt
          · rw [e1] at he
            rcases Queue.mem_ins.1 he with he | he
            · simp only [Prod.mk.injEq] at he
              have : k1 = k0 := by
                have : w.rent.contracts.get m = some k0 := hk0
                rw [hk1] at this; simpa using this
              subst this; omega
            · exact absurd (Queue.mem_ids.2 ⟨e, he⟩) hnt
        dsimp only
        split
        · exact hl'
        · have := subLoop_later f (subOne c w m t).1 (subOne c w m t).2 (k + 1) h1 h2
            (by rw [subOne_now]; exact hl')
          rw [subOne_now] at this; exact this
      · have hpos : 0 < i ∧ Queue.At t n b (i - 1) := by
          have hg := Queue.At.iff.1 hi
          cases i with
          | zero => simp at hg; exact absurd hg.1 hm
          | succ i => exact ⟨by omega, Queue.At.iff.2 (by simpa using hg)⟩
        have hA : Queue.At (subOne c w m t).2 n b (i - 1) := by
          rcases subOne_queue (c := c) w m t with e1 | ⟨k1, hk1, e1⟩
          · rw [e1]; exact hpos.2
          · rw [e1]; exact hpos.2.ins hwf.tail (by omega)
        dsimp only
        split
        · exact Or.inr ⟨i - 1, by omega, hA⟩
        · have := ih (subOne c w m t).1 (subOne c w m t).2 (k + 1) h1 h2 hA
            (by rw [subOne_now]; exact hb)
          rw [subOne_now] at this
          rcases this with h5 | ⟨j, h5, h6⟩
          · exact Or.inl h5
          · exact Or.inr ⟨j, by omega, h6⟩

theorem hook_fixedQ (w : World) : (hook c w).rent.fixedQ = (finishLoop c w w.rent.fixedQ 0).2.1 := by
  have := hook_eq (c := c) w
  dsimp only at this
  rw [this]; rfl

theorem hook_availQ (w : World) : ∃ w1 k, w1.now = w.now ∧
    (hook c w).rent.availQ = (finishLoop c w1 w.rent.availQ k).2.1 := by
  have := hook_eq (c := c) w
  dsimp only at this
  rw [this]
  refine ⟨_, _, ?_, rfl⟩
  rw [subLoop_now, finishLoop_now]

/-- A due fixed rental is taken, or moves up by at least the number of actions per block. -/
theorem hook_fixed_at (hq : Queue.WF w.rent.fixedQ) {n b i} (h : Queue.At w.rent.fixedQ n b i)
    (hb : b ≤ w.now) :
    n ∉ Queue.ids (hook c w).rent.fixedQ ∨
    (max 1 c.rentActions ≤ i ∧ ∃ j, j ≤ i - max 1 c.rentActions ∧
      Queue.At (hook c w).rent.fixedQ n b j) := by
  rw [hook_fixedQ]; exact finishLoop_at hq h hb

/-- A due unused contract is taken, or moves up by at least one. -/
theorem hook_avail_at (hq : Queue.WF w.rent.availQ) {n b i} (h : Queue.At w.rent.availQ n b i)
    (hb : b ≤ w.now) :
    n ∉ Queue.ids (hook c w).rent.availQ ∨
    (1 ≤ i ∧ ∃ j, j ≤ i - 1 ∧ Queue.At (hook c w).rent.availQ n b j) := by
  obtain ⟨w1, k, h1, h2⟩ := hook_availQ (c := c) w
  rw [h2]
  rcases finishLoop_at (c := c) (k := k) (w := w1) hq h (by rw [h1]; exact hb) with h | ⟨h3, j, h4, h5⟩
  · exact Or.inl h
  · exact Or.inr ⟨by omega, j, by omega, h5⟩

/-- A due subscription is handled, or moves up by at least one. -/
theorem hook_sub_at (h : RInv c w) (hbal : BalInv c w.bal) {n b i} (hi : Queue.At w.rent.subQ n b i)
    (hb : b ≤ w.now) :
    (∀ e, (n, e) ∈ (hook c w).rent.subQ → w.now < e) ∨
    (1 ≤ i ∧ ∃ j, j ≤ i - 1 ∧ Queue.At (hook c w).rent.subQ n b j) := by
  have he := hook_eq (c := c) w
  dsimp only at he
  rw [he]
  have f1 := (loopF (off := fun _ _ => True) w.rent.fixedQ w 0 (S := w.rent.subQ)
    (A := w.rent.availQ) h hbal).1
  have fb := hbal.pays (finishLoop_pays w.rent.fixedQ w 0)
  have fn := finishLoop_now (c := c) w.rent.fixedQ w 0
  have := subLoop_keep (max 1 (c.rentActions - (finishLoop c w w.rent.fixedQ 0).2.2)) _ w.rent.subQ
    (finishLoop c w w.rent.fixedQ 0).2.2 f1 fb hi (by rw [fn]; exact hb)
  rw [fn] at this
  rcases this with h1 | ⟨j, h1, h2⟩
  · exact Or.inl h1
  · exact Or.inr ⟨by omega, j, by omega, h2⟩

end RentM

/-- Every other operation keeps a due entry of the fixed queue in its place or moves it up. -/
theorem step_fixed_at (hc : c.Ok) (hr : Reach c w) (o : Op) (ho : o.Ok c) {n b i}
    (h : Queue.At w.rent.fixedQ n b i) (hb : b ≤ w.now) (h0 : o ≠ .hookRent)
    (h1 : ∀ a, o ≠ .call (.signed a) (.rent (.revoke n))) :
    ∃ j, j ≤ i ∧ Queue.At (step c w o).rent.fixedQ n b j := by
  have hi := (hr.inv hc).rent
  rcases step_rent_case hc hr o ho with ⟨a, x, rfl, _, hd⟩ | ⟨rfl, _⟩ | e
  · generalize step c w _ = w' at hd ⊢
    cases hd with
    | create h2 =>
      obtain ⟨_, _, _, _, _, _, _, _, _, _, _, _, _, _, _, _, _, _, _, _, _, rfl⟩ := RentM.create_ok h2
      exact ⟨i, Nat.le_refl _, h⟩
    | cancel => exact ⟨i, Nat.le_refl _, h⟩
    | @revoke m _ h2 =>
      have hne : m ≠ n := by rintro rfl; exact h1 a rfl
      obtain ⟨k, r, d, b0, b1, b2, hk, _, _, _, _, _, _, _, _, rfl⟩ := RentM.revoke_ok h2
      simp only [RentM.removeKind]
      cases k.duration with
      | fixed => exact h.remove hne
      | sub => exact ⟨i, Nat.le_refl _, h⟩
    | @start m k r _ _ hk hs h2 =>
      obtain ⟨b1, b2, q, _, _, _, _, hq, rfl⟩ := h2.out
      simp only [RentM.insertKind] at hq
      cases hdu : k.duration with
      | fixed d =>
        simp only [hdu, Option.map_eq_some_iff] at hq
        obtain ⟨q', hq', rfl⟩ := hq
        obtain ⟨_, rfl⟩ := Queue.insert_some hq'
        exact ⟨i, Nat.le_refl _, h.ins hi.q.wfF (by omega)⟩
      | sub =>
        simp only [hdu, Option.map_eq_some_iff] at hq
        obtain ⟨q', hq', rfl⟩ := hq
        exact ⟨i, Nat.le_refl _, h⟩
    | makeOffer => exact ⟨i, Nat.le_refl _, h⟩
    | retractOffer => exact ⟨i, Nat.le_refl _, h⟩
    | changeTerms => exact ⟨i, Nat.le_refl _, h⟩
    | acceptTerms => exact ⟨i, Nat.le_refl _, h⟩
  · exact absurd rfl h0
  · rw [e]; exact ⟨i, Nat.le_refl _, h⟩

/-- Every other operation keeps a due entry of the queue of unused contracts in its place or moves it
up. -/
theorem step_avail_at (hc : c.Ok) (hr : Reach c w) (o : Op) (ho : o.Ok c) {n b i}
    (h : Queue.At w.rent.availQ n b i) (hb : b ≤ w.now) (h0 : o ≠ .hookRent)
    (h1 : ∀ a, o ≠ .call (.signed a) (.rent (.cancel n)))
    (h2 : ∀ a b, o ≠ .call (.signed a) (.rent (.rent n b)))
    (h3 : ∀ a r, o ≠ .call (.signed a) (.rent (.acceptOffer n r))) :
    ∃ j, j ≤ i ∧ Queue.At (step c w o).rent.availQ n b j := by
  have hi := (hr.inv hc).rent
  rcases step_rent_case hc hr o ho with ⟨a, x, rfl, _, hd⟩ | ⟨rfl, _⟩ | e
  · generalize step c w _ = w' at hd ⊢
    cases hd with
    | create hx =>
      obtain ⟨_, _, _, _, _, _, _, _, _, _, _, _, _, _, _, _, _, _, _, _, hq, rfl⟩ := RentM.create_ok hx
      obtain ⟨_, rfl⟩ := Queue.insert_some hq
      exact ⟨i, Nat.le_refl _, h.ins hi.q.wfA (by omega)⟩
    | @cancel m =>
      have hne : m ≠ n := by rintro rfl; exact h1 a rfl
      exact h.remove hne
    | @revoke m _ hx =>
      obtain ⟨k, r, d, b0, b1, b2, hk, _, _, _, _, _, _, _, _, rfl⟩ := RentM.revoke_ok hx
      simp only [RentM.removeKind]
      cases k.duration <;> exact ⟨i, Nat.le_refl _, h⟩
    | @start m k r _ _ hk hs hx =>
      obtain ⟨b1, b2, q, _, _, _, _, hq, rfl⟩ := hx.out
      have hne : m ≠ n := by
        rintro rfl
        rcases hs with ⟨rfl, _⟩ | ⟨rfl, _⟩
        · exact h2 _ _ rfl
        · exact h3 _ _ rfl
      have := RentM.insertKind_ok hq
      simp only
      rw [this]
      exact h.remove hne
    | makeOffer => exact ⟨i, Nat.le_refl _, h⟩
    | retractOffer => exact ⟨i, Nat.le_refl _, h⟩
    | changeTerms => exact ⟨i, Nat.le_refl _, h⟩
    | acceptTerms => exact ⟨i, Nat.le_refl _, h⟩
  · exact absurd rfl h0
  · rw [e]; exact ⟨i, Nat.le_refl _, h⟩

/-- Every other operation keeps a due entry of the subscription queue in its place or moves it up. -/
theorem step_sub_at (hc : c.Ok) (hr : Reach c w) (o : Op) (ho : o.Ok c) {n b i}
    (h : Queue.At w.rent.subQ n b i) (hb : b ≤ w.now) (h0 : o ≠ .hookRent)
    (h1 : ∀ a, o ≠ .call (.signed a) (.rent (.revoke n))) :
    ∃ j, j ≤ i ∧ Queue.At (step c w o).rent.subQ n b j := by
  have hi := (hr.inv hc).rent
  rcases step_rent_case hc hr o ho with ⟨a, x, rfl, _, hd⟩ | ⟨rfl, _⟩ | e
  · generalize step c w _ = w' at hd ⊢
    cases hd with
    | create h2 =>
      obtain ⟨_, _, _, _, _, _, _, _, _, _, _, _, _, _, _, _, _, _, _, _, _, rfl⟩ := RentM.create_ok h2
      exact ⟨i, Nat.le_refl _, h⟩
    | cancel => exact ⟨i, Nat.le_refl _, h⟩
    | @revoke m _ h2 =>
      have hne : m ≠ n := by rintro rfl; exact h1 a rfl
      obtain ⟨k, r, d, b0, b1, b2, hk, _, _, _, _, _, _, _, _, rfl⟩ := RentM.revoke_ok h2
      simp only [RentM.removeKind]
      cases k.duration with
      | sub => exact h.remove hne
      | fixed => exact ⟨i, Nat.le_refl _, h⟩
    | @start m k r _ _ hk hs h2 =>
      obtain ⟨b1, b2, q, _, _, _, _, hq, rfl⟩ := h2.out
      simp only [RentM.insertKind] at hq
      cases hdu : k.duration with
      | sub d =>
        simp only [hdu, Option.map_eq_some_iff] at hq
        obtain ⟨q', hq', rfl⟩ := hq
        obtain ⟨_, rfl⟩ := Queue.insert_some hq'
        exact ⟨i, Nat.le_refl _, h.ins hi.q.wfS (by omega)⟩
      | fixed =>
        simp only [hdu, Option.map_eq_some_iff] at hq
        obtain ⟨q', hq', rfl⟩ := hq
        exact ⟨i, Nat.le_refl _, h⟩
    | makeOffer => exact ⟨i, Nat.le_refl _, h⟩
    | retractOffer => exact ⟨i, Nat.le_refl _, h⟩
    | changeTerms => exact ⟨i, Nat.le_refl _, h⟩
    | acceptTerms => exact ⟨i, Nat.le_refl _, h⟩
  · exact absurd rfl h0
  · rw [e]; exact ⟨i, Nat.le_refl _, h⟩
