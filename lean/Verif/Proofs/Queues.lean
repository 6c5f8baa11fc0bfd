import Verif.Model.Types
import Mathlib.Tactic.Common
/-
Sorted queues without repeated ids.
-/
namespace Queue

/-- ids waiting in a queue -/
def ids (q : Queue) : List NFTId := q.map Prod.fst

/-- no id twice, earliest block first -/
structure WF (q : Queue) : Prop where
  nd : q.ids.Nodup
  sorted : q.Pairwise fun x y => x.2 ≤ y.2

theorem WF.nil : WF [] := ⟨by simp [ids], by simp⟩

theorem mem_ids {q : Queue} {n : NFTId} : n ∈ q.ids ↔ ∃ b, (n, b) ∈ q := by
  simp [ids]

theorem mem_ins {n b} {q : Queue} {x} : x ∈ ins n b q ↔ x = (n, b) ∨ x ∈ q := by
  induction q with
  | nil => simp [ins]
  | cons y t ih =>
    obtain ⟨m, z⟩ := y
    simp only [ins]
    split
    · simp
    · simp only [List.mem_cons, ih]; grind

theorem length_ins {n b} {q : Queue} : (ins n b q).length = q.length + 1 := by
  induction q with
  | nil => simp [ins]
  | cons y t ih =>
    obtain ⟨m, z⟩ := y
    simp only [ins]
    split
    · simp
    · simp [ih]

theorem mem_ids_ins {n b} {q : Queue} {m} : m ∈ (ins n b q).ids ↔ m = n ∨ m ∈ q.ids := by
  simp only [mem_ids, mem_ins]
  constructor
  · rintro ⟨x, h | h⟩
    · simp at h; exact Or.inl h.1
    · exact Or.inr ⟨x, h⟩
  · rintro (rfl | ⟨x, h⟩)
    · exact ⟨b, Or.inl rfl⟩
    · exact ⟨x, Or.inr h⟩

theorem WF.ins {n b} {q : Queue} (h : q.WF) (hn : n ∉ q.ids) : (Queue.ins n b q).WF := by
  induction q with
  | nil => simp [Queue.ins]; exact ⟨by simp [ids], by simp⟩
  | cons y t ih =>
    obtain ⟨m, z⟩ := y
    have hnd : m ∉ ids t ∧ (ids t).Nodup := by have := h.nd; simpa [ids] using this
    have hs := List.pairwise_cons.1 h.sorted
    have hn' : n ≠ m ∧ n ∉ ids t := by simpa [ids] using hn
    simp only [Queue.ins]
    split
    · rename_i hz
      refine ⟨?_, ?_⟩
      · have := h.nd
        simp only [ids, List.map_cons, List.nodup_cons] at this ⊢
        exact ⟨by simpa [ids] using hn, this⟩
      · refine List.pairwise_cons.2 ⟨?_, h.sorted⟩
        intro x hx
        rcases List.mem_cons.1 hx with rfl | hx
        · show b ≤ z; omega
        · have := hs.1 x hx; show b ≤ x.2; simp only at this; omega
    · rename_i hz
      obtain ⟨i1, i2⟩ := ih ⟨hnd.2, hs.2⟩ hn'.2
      refine ⟨?_, ?_⟩
      · show (m :: ids (Queue.ins n b t)).Nodup
        refine List.nodup_cons.2 ⟨?_, i1⟩
        rw [mem_ids_ins]
        rintro (h | h)
        · exact hn'.1 h.symm
        · exact hnd.1 h
      · refine List.pairwise_cons.2 ⟨?_, i2⟩
        intro x hx
        rcases mem_ins.1 hx with rfl | hx
        · show z ≤ b; omega
        · exact hs.1 x hx

theorem remove_sublist {n} {q : Queue} : (q.remove n).Sublist q := by
  induction q with
  | nil => simp [remove]
  | cons y t ih =>
    obtain ⟨m, z⟩ := y
    simp only [remove]
    split
    · exact List.sublist_cons_self _ _
    · exact ih.cons_cons _

theorem WF.sub {q q' : Queue} (h : q.WF) (hs : q'.Sublist q) : q'.WF :=
  ⟨h.nd.sublist (hs.map _), h.sorted.sublist hs⟩

theorem WF.remove {n} {q : Queue} (h : q.WF) : (q.remove n).WF := h.sub remove_sublist

theorem length_remove_le {n} {q : Queue} : (q.remove n).length ≤ q.length :=
  remove_sublist.length_le

theorem length_remove {n} {q : Queue} (h : n ∈ q.ids) : (q.remove n).length + 1 = q.length := by
  induction q with
  | nil => simp [ids] at h
  | cons y t ih =>
    obtain ⟨m, z⟩ := y
    simp only [Queue.remove]
    split
    · simp
    · rename_i hm
      have : n ∈ ids t := by
        simp only [ids, List.map_cons, List.mem_cons] at h
        rcases h with h | h
        · exact absurd h.symm hm
        · exact h
      simp [ih this]

theorem remove_of_not_mem {n} {q : Queue} (h : n ∉ q.ids) : q.remove n = q := by
  induction q with
  | nil => rfl
  | cons y t ih =>
    obtain ⟨m, z⟩ := y
    have : n ≠ m ∧ n ∉ ids t := by simpa [ids] using h
    simp [Queue.remove, Ne.symm this.1, ih this.2]

theorem mem_remove {n} {q : Queue} (h : q.WF) {x} : x ∈ q.remove n ↔ x ∈ q ∧ x.1 ≠ n := by
  induction q with
  | nil => simp [Queue.remove]
  | cons y t ih =>
    obtain ⟨m, z⟩ := y
    have hnd : m ∉ ids t ∧ (ids t).Nodup := by have := h.nd; simpa [ids] using this
    have ih := ih ⟨hnd.2, (List.pairwise_cons.1 h.sorted).2⟩
    simp only [Queue.remove]
    split
    · rename_i hm
      subst hm
      constructor
      · intro hx
        refine ⟨List.mem_cons_of_mem _ hx, ?_⟩
        rintro rfl
        exact hnd.1 (List.mem_map_of_mem hx)
      · rintro ⟨h1, h2⟩
        rcases List.mem_cons.1 h1 with rfl | h1
        · exact absurd rfl h2
        · exact h1
    · rename_i hm
      simp only [List.mem_cons, ih]
      grind

theorem mem_ids_remove {n m} {q : Queue} (h : q.WF) : m ∈ (q.remove n).ids ↔ m ∈ q.ids ∧ m ≠ n := by
  simp only [mem_ids, mem_remove h]
  grind

theorem WF.unique {q : Queue} (h : q.WF) {n b b'} (h1 : (n, b) ∈ q) (h2 : (n, b') ∈ q) : b = b' := by
  induction q with
  | nil => simp at h1
  | cons y t ih =>
    obtain ⟨m, z⟩ := y
    have hnd : m ∉ ids t ∧ (ids t).Nodup := by have := h.nd; simpa [ids] using this
    have ih := ih ⟨hnd.2, (List.pairwise_cons.1 h.sorted).2⟩
    have k : ∀ x, (m, x) ∉ t := fun x hx => hnd.1 (mem_ids.2 ⟨x, hx⟩)
    simp only [List.mem_cons, Prod.mk.injEq] at h1 h2
    grind

theorem WF.tail {x} {q : Queue} (h : WF (x :: q)) : WF q := h.sub (List.sublist_cons_self _ _)

theorem WF.head {n b} {q : Queue} (h : WF ((n, b) :: q)) : n ∉ q.ids := by
  have := h.nd; simp only [ids, List.map_cons, List.nodup_cons] at this; exact this.1

theorem find_none {n} {q : Queue} : q.find n = none ↔ n ∉ q.ids := by
  induction q with
  | nil => simp [find, ids]
  | cons y t ih =>
    obtain ⟨m, z⟩ := y
    simp only [find]
    split
    · simp_all [ids]
    · rename_i hm
      rw [ih]; simp [ids, Ne.symm hm]

theorem find_some_mem {n b} {q : Queue} (h : q.find n = some b) : (n, b) ∈ q := by
  induction q with
  | nil => simp [find] at h
  | cons y t ih =>
    obtain ⟨m, z⟩ := y
    simp only [find] at h
    split at h
    · rename_i e; subst e; simp at h; subst h; simp
    · exact List.mem_cons_of_mem _ (ih h)

theorem WF.find {n b} {q : Queue} (h : q.WF) : q.find n = some b ↔ (n, b) ∈ q := by
  constructor
  · exact find_some_mem
  · intro hm
    cases hf : q.find n with
    | none => exact absurd (mem_ids.2 ⟨b, hm⟩) (find_none.1 hf)
    | some b' => rw [h.unique hm (find_some_mem hf)]

theorem insert_some {lim n b} {q q' : Queue} (h : Queue.insert lim q n b = some q') :
    q.length < lim ∧ q' = Queue.ins n b q := by
  unfold Queue.insert at h
  split at h
  · rename_i hl; simp at h; exact ⟨hl, h.symm⟩
  · simp at h

theorem insert_of_lt {lim n b} {q : Queue} (h : q.length < lim) :
    Queue.insert lim q n b = some (Queue.ins n b q) := by
  simp [Queue.insert, h]

theorem update_ok {lim n b} {q q' : Queue} (h : q.update lim n b = .ok q') :
    (n ∉ q.ids ∧ q' = q) ∨ (n ∈ q.ids ∧ q' = Queue.ins n b (q.remove n)) := by
  unfold update at h
  split at h
  · rename_i hh
    simp only [Exec.expect_ok] at h
    have hm : n ∈ q.ids := by
      by_contra hc
      rw [← find_none] at hc
      simp [has, hc] at hh
    exact Or.inr ⟨hm, (insert_some h).2⟩
  · rename_i hh
    simp only [Except.ok.injEq] at h
    refine Or.inl ⟨?_, h.symm⟩
    rw [← find_none]
    simpa [has] using hh

/-- updating never panics: the removed entry left room -/
theorem update_no_panic {lim n b} {q : Queue} (hl : q.length ≤ lim) :
    ∃ q', q.update lim n b = .ok q' := by
  unfold update
  split
  · rename_i hh
    have hm : n ∈ q.ids := by
      by_contra hc
      rw [← find_none] at hc
      simp [has, hc] at hh
    have := length_remove hm
    rw [insert_of_lt (by omega)]
    exact ⟨_, rfl⟩
  · exact ⟨_, rfl⟩

end Queue
