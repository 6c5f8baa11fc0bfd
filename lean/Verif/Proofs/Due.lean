import Verif.Proofs.Queues
/-
Due entries and positions in sorted queues.
-/
namespace Queue

/-- the due entries at the front, at most `k` -/
def due (now : Block) : Nat → Queue → Queue
  | 0, _ => []
  | _ + 1, [] => []
  | k + 1, (n, b) :: t => if b ≤ now then (n, b) :: due now k t else []

theorem due_nil (now k) : due now k [] = [] := by cases k <;> rfl

theorem mem_due {now k} {q : Queue} {x} (h : x ∈ due now k q) : x ∈ q ∧ x.2 ≤ now := by
  induction q generalizing k with
  | nil => rw [due_nil] at h; simp at h
  | cons y t ih =>
    obtain ⟨m, z⟩ := y
    cases k with
    | zero => simp [due] at h
    | succ k =>
      simp only [due] at h
      split at h
      · rcases List.mem_cons.1 h with rfl | h
        · exact ⟨List.mem_cons_self .., by assumption⟩
        · exact ⟨List.mem_cons_of_mem _ (ih h).1, (ih h).2⟩
      · simp at h

theorem due_length_le {now k} {q : Queue} : (due now k q).length ≤ k := by
  induction q generalizing k with
  | nil => rw [due_nil]; simp
  | cons y t ih =>
    obtain ⟨m, z⟩ := y
    cases k with
    | zero => simp [due]
    | succ k =>
      simp only [due]
      split
      · simpa using ih
      · simp

/-- an entry at position `i` -/
def At (q : Queue) (n : NFTId) (b : Block) (i : Nat) : Prop :=
  ∃ pre post, q = pre ++ (n, b) :: post ∧ pre.length = i

theorem At.mem {q : Queue} {n b i} (h : q.At n b i) : (n, b) ∈ q := by
  obtain ⟨pre, post, rfl, _⟩ := h; simp

theorem exists_at {q : Queue} {n b} (h : (n, b) ∈ q) : ∃ i, q.At n b i := by
  obtain ⟨s, t, rfl⟩ := List.append_of_mem h
  exact ⟨s.length, s, t, rfl, rfl⟩

theorem At.iff {q : Queue} {n b i} : q.At n b i ↔ q[i]? = some (n, b) := by
  constructor
  · rintro ⟨pre, post, rfl, rfl⟩; simp
  · intro h
    obtain ⟨hi, he⟩ := List.getElem?_eq_some_iff.1 h
    refine ⟨q.take i, q.drop (i + 1), ?_, by simp; omega⟩
    rw [← he]
    simp

theorem At.sorted {q : Queue} (hq : q.WF) {n b i} (h : q.At n b i) :
    ∃ pre post, q = pre ++ (n, b) :: post ∧ pre.length = i ∧ ∀ x ∈ pre, x.2 ≤ b ∧ x.1 ≠ n := by
  obtain ⟨pre, post, rfl, hl⟩ := h
  refine ⟨pre, post, rfl, hl, fun x hx => ?_⟩
  have h1 := hq.sorted
  rw [List.pairwise_append] at h1
  have h2 := hq.nd
  simp only [ids, List.map_append, List.map_cons] at h2
  rw [List.nodup_append] at h2
  exact ⟨h1.2.2 x hx (n, b) (by simp), h2.2.2 x.1 (List.mem_map_of_mem hx) n (by simp)⟩

theorem ins_append {m e} (pre post : Queue) (h : ∀ x ∈ pre, x.2 ≤ e) :
    ins m e (pre ++ post) = pre ++ ins m e post := by
  induction pre with
  | nil => rfl
  | cons y t ih =>
    obtain ⟨k, z⟩ := y
    simp only [List.cons_append, ins]
    have := h (k, z) (by simp)
    simp only at this
    rw [if_neg (by omega), ih (fun x hx => h x (by simp [hx]))]

/-- later entries go behind -/
theorem At.ins {q : Queue} (hq : q.WF) {n b i m e} (h : q.At n b i) (he : b ≤ e) :
    (Queue.ins m e q).At n b i := by
  obtain ⟨pre, post, rfl, hl, hp⟩ := h.sorted hq
  refine ⟨pre, Queue.ins m e post, ?_, hl⟩
  have : pre ++ (n, b) :: post = (pre ++ [(n, b)]) ++ post := by simp
  rw [this, ins_append]
  · simp
  · intro x hx
    rcases List.mem_append.1 hx with hx | hx
    · have := (hp x hx).1; omega
    · simp at hx; subst hx; exact he

theorem remove_append {m} (pre post : Queue) :
    remove m (pre ++ post) = if m ∈ ids pre then remove m pre ++ post else pre ++ remove m post := by
  induction pre with
  | nil => simp [ids]
  | cons y t ih =>
    obtain ⟨k, z⟩ := y
    simp only [List.cons_append, remove]
    split
    · rename_i h; subst h; simp [ids]
    · rename_i h
      rw [ih]
      have : m ∈ ids ((k, z) :: t) ↔ m ∈ ids t := by
        simp only [ids, List.map_cons, List.mem_cons]
        constructor
        · rintro (rfl | h') <;> [exact absurd rfl h; exact h']
        · exact Or.inr
      by_cases hm : m ∈ ids t
      · rw [if_pos hm, if_pos (this.2 hm)]; rfl
      · rw [if_neg hm, if_neg (fun h' => hm (this.1 h'))]

/-- removing another entry does not move it back -/
theorem At.remove {q : Queue} {n b i m} (h : q.At n b i) (hm : m ≠ n) :
    ∃ j, j ≤ i ∧ (Queue.remove m q).At n b j := by
  obtain ⟨pre, post, rfl, hl⟩ := h
  rw [remove_append]
  split
  · exact ⟨_, by rw [← hl]; exact length_remove_le, _, _, rfl, rfl⟩
  · refine ⟨i, Nat.le_refl _, pre, Queue.remove m post, ?_, hl⟩
    simp [Queue.remove, hm.symm]

/-- a due entry among the first `k` is served; otherwise it moves up by `k` -/
theorem At.due {q : Queue} (hq : q.WF) {n b i now k} (h : q.At n b i) (hb : b ≤ now) :
    (i < k ∧ (n, b) ∈ Queue.due now k q) ∨
    (k ≤ i ∧ (n, b) ∉ Queue.due now k q ∧ (Queue.due now k q).length = k ∧
      Queue.At (q.drop (Queue.due now k q).length) n b (i - k)) := by
  induction k generalizing q i with
  | zero => right; exact ⟨Nat.zero_le _, by simp [Queue.due], by simp [Queue.due], by simpa [Queue.due] using h⟩
  | succ k ih =>
    obtain ⟨pre, post, rfl, hl, hp⟩ := h.sorted hq
    cases pre with
    | nil =>
      simp only [List.length_nil] at hl; subst hl
      left
      refine ⟨by omega, ?_⟩
      simp [Queue.due, hb]
    | cons y t =>
      obtain ⟨m, z⟩ := y
      have hz := hp (m, z) (by simp)
      simp only at hz
      simp only [List.length_cons] at hl
      simp only [List.cons_append, Queue.due]
      rw [if_pos (by omega)]
      have hq' : WF (t ++ (n, b) :: post) := WF.tail (x := (m, z)) hq
      have hA : At (t ++ (n, b) :: post) n b t.length := ⟨t, post, rfl, rfl⟩
      rcases ih hq' hA with ⟨h1, h2⟩ | ⟨h1, h2, h3, h4⟩
      · left; exact ⟨by omega, List.mem_cons_of_mem _ h2⟩
      · right
        refine ⟨by omega, ?_, by simp [h3], ?_⟩
        · intro hm
          rcases List.mem_cons.1 hm with hm | hm
          · simp only [Prod.mk.injEq] at hm; exact hz.2 hm.1.symm
          · exact h2 hm
        · simp only [List.length_cons, List.drop_succ_cons]
          have : i - (k + 1) = t.length - k := by omega
          rw [this]; exact h4

end Queue
