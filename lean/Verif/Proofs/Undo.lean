import Verif.Proofs.AucInv
import Verif.Proofs.RentInv
/-
Lemmas for C93: single entries put in and taken out again.
-/
variable {c : Cfg} {w w' : World} {a : AccountId}

theorem Queue.remove_ins {q : Queue} {n : NFTId} (b : Block) (h : n ∉ q.ids) : (q.ins n b).remove n = q := by
  induction q with
  | nil => simp [Queue.ins, Queue.remove]
  | cons y t ih =>
    obtain ⟨m, x⟩ := y
    have : n ≠ m ∧ n ∉ Queue.ids t := by simpa [Queue.ids] using h
    simp only [Queue.ins]
    split
    · simp [Queue.remove]
    · simp [Queue.remove, Ne.symm this.1, ih this.2]

theorem Queue.remove_insert {q q' : Queue} {n l : Nat} {b : Block} (h : Queue.insert l q n b = some q') (hn : n ∉ q.ids) :
    q'.remove n = q := by
  simp only [Queue.insert] at h
  split at h
  · simp at h; rw [← h, Queue.remove_ins _ hn]
  · simp at h
/-- a payment and its return -/
theorem Bal.transfer_back {ed v : Balance} {s d : AccountId} {b b1 b2 : Bal} (hw : b.WF ed) (hsd : s ≠ d)
    (h1 : b.transfer ed s d v .keepAlive = .ok b1) (h2 : b1.transfer ed d s v .allowDeath = .ok b2) :
    ∀ x, b2.freeOf x = b.freeOf x ∧ b2.frozen x = b.frozen x := by
  intro x
  refine ⟨?_, by rw [Bal.frozen_mono (Bal.transfer_mono h2), Bal.frozen_mono (Bal.transfer_mono h1)]⟩
  have f1 := Bal.transfer_keep h1 s hsd
  have f2 := Bal.transfer_keep h1 d hsd
  have f3 := Bal.transfer_keep h1 x hsd
  have hle := Bal.transfer_le h1 hsd
  have z := hw.zero_or d
  rw [Bal.transfer_free h2 (Ne.symm hsd) x]
  simp only [if_true, if_neg hsd] at f1 f2
  by_cases e : x = s
  · subst e; simp only [if_true]; omega
  · by_cases e' : x = d
    · subst e'; simp only [if_neg e, if_true]
      split
      · omega
      · split <;> omega
    · simp only [if_neg e, if_neg e'] at f3 ⊢; exact f3

theorem RentM.depositRenterNft_back {o : Option NFTId} {v : World} (h : depositRenterNft c w a o = .ok v) :
    ∃ X, v = { w with nfts := X } ∧ (∀ k, (cho X o a).get k = w.nfts.get k) := by
  cases o with
  | none =>
    simp only [depositRenterNft, pure, Except.pure, Except.ok.injEq] at h
    exact ⟨w.nfts, h.symm, fun _ => rfl⟩
  | some m =>
    simp only [depositRenterNft] at h; inv_ok at h
    obtain ⟨x, hx, ho, _, rfl⟩ := h
    refine ⟨_, rfl, fun k => ?_⟩
    rw [get_cho]
    by_cases e : m = k
    · subst e; simp [hx, ← ho]
    · have : k ≠ m := fun h => e h.symm
      simp [e, FMap.get_insert, this]
theorem AucM.findBid_absent {l : List (AccountId × Balance)} (h : ∀ v, (a, v) ∉ l) : findBid a l = none := by
  induction l with
  | nil => rfl
  | cons x t ih =>
    obtain ⟨b, u⟩ := x
    have : b ≠ a := by rintro rfl; exact h u (by simp)
    simp [findBid, this]
    exact ih fun v hv => h v (List.mem_cons_of_mem _ hv)

theorem AucM.removeBid_none {l : List (AccountId × Balance)} (h : ∀ v, (a, v) ∉ l) : removeBid a l = l := by
  induction l with
  | nil => rfl
  | cons x t ih =>
    obtain ⟨b, u⟩ := x
    have : b ≠ a := by rintro rfl; exact h u (by simp)
    simp [removeBid, this]
    exact ih fun v hv => h v (List.mem_cons_of_mem _ hv)

theorem AucM.findBid_new {l : List (AccountId × Balance)} {v : Balance} (h : ∀ v, (a, v) ∉ l) :
    findBid a (l ++ [(a, v)]) = some v := by
  induction l with
  | nil => simp [findBid]
  | cons x t ih =>
    obtain ⟨b, u⟩ := x
    have : b ≠ a := by rintro rfl; exact h u (by simp)
    simp [findBid, this]
    exact ih fun v hv => h v (List.mem_cons_of_mem _ hv)

theorem AucM.removeBid_new {l : List (AccountId × Balance)} {v : Balance} (h : ∀ v, (a, v) ∉ l) :
    removeBid a (l ++ [(a, v)]) = l := by
  induction l with
  | nil => simp [removeBid]
  | cons x t ih =>
    obtain ⟨b, u⟩ := x
    have : b ≠ a := by rintro rfl; exact h u (by simp)
    simp [removeBid, this]
    exact ih fun v hv => h v (List.mem_cons_of_mem _ hv)
