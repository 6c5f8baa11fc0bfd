import Verif.Proofs.SliceNft
/-
The transmission pallet's calls and hook as slice transitions.
-/
variable {c : Cfg} {w w' : World} {a : AccountId} {off : AccountId → AccountId → Prop}

namespace TrM

theorem set_slice {n r p k} (h : set c w a n r p k = .ok w') (i : NFTId) :
    SliceRel c w.now off (.signed .tr a) (slice w i) (slice w' i) := by
  unfold set at h
  inv_ok at h
  obtain ⟨d, q, b, h0, hd, ho, h1, h2, h3, h4, h5, h6, h7, h8, _, _, _, _, _, _, _, _, _, rfl⟩ := h
  slice_at i n
  exact .one (.trSet (r := r) (p := p) (k := k) hd ho h1 h2 h3 h4 h5 h6 h7 h8) (by slice_eq)

theorem remove_slice {n} (h : remove w a n = .ok w') (i : NFTId) :
    SliceRel c w.now off (.signed .tr a) (slice w i) (slice w' i) := by
  unfold remove at h
  inv_ok at h
  obtain ⟨d, t, hd, ho, h1, ht, h2, rfl⟩ := h
  rcases eq_or_ne i n with rfl | hi
  · refine .one (.trRemove hd ho h1 ht h2) ?_
    ext1 <;> simp [slice, World.putNft]
    all_goals cases t.protocol <;> simp [cleanup, kind, consentData]
  · refine .of_eq ?_
    ext1 <;> simp [slice, World.putNft, FMap.get_insert, hi] <;>
    cases t.protocol <;> simp [cleanup, kind, FMap.get_erase, hi]

theorem reset_slice {n b} (h : resetTimer c w a n b = .ok w') (i : NFTId) :
    SliceRel c w.now off (.signed .tr a) (slice w i) (slice w' i) := by
  unfold resetTimer at h
  inv_ok at h
  obtain ⟨d, t, q, hd, ho, h1, ht, h2, h3, h4, h5, rfl⟩ := h
  slice_at i n
  exact .one (.trReset hd ho ht h2 h3) (by slice_eq)

theorem transmit_ok {n} (h : transmit w n = .ok w') :
    ∃ t d, w.tr.trans.get n = some t ∧ w.nfts.get n = some d ∧
      w' = { w with
        nfts := w.nfts.insert n { d with owner := t.recipient, st := { d.st with transmission := false } }
        tr := { w.tr with trans := w.tr.trans.erase n } } := by
  unfold transmit at h
  inv_ok at h
  obtain ⟨t, d, ht, hd, rfl⟩ := h
  exact ⟨t, d, ht, hd, rfl⟩

/-- What a successful `add_consent` does. -/
theorem addConsent_ok {n} (h : addConsent c w a n = .ok w') :
    ∃ d t x, w.nfts.get n = some d ∧ d.st.transmission = true ∧ w.tr.trans.get n = some t ∧
      consentData t.protocol = some x ∧
      (kind t.protocol = .onConsentAtBlock → w.tr.queue.find n = none) ∧
      a ∈ x.1 ∧ a ∉ (w.tr.consents.get n).getD [] ∧
      ((w.tr.consents.get n).getD []).length < c.trConsents ∧
      ((((w.tr.consents.get n).getD []).length + 1 < x.2 ∧
        w' = { w with
          tr := { w.tr with consents := w.tr.consents.insert n ((w.tr.consents.get n).getD [] ++ [a]) }
          evs := .consentAdded n a :: w.evs }) ∨
       (x.2 ≤ ((w.tr.consents.get n).getD []).length + 1 ∧
        (∀ e, endBlock t.protocol = some e → e ≤ w.now) ∧
        w' = { w with
          nfts := w.nfts.insert n
            { d with owner := t.recipient, st := { d.st with transmission := false } }
          tr := { w.tr with trans := w.tr.trans.erase n, consents := w.tr.consents.erase n }
          evs := .transmitted n :: .consentAdded n a :: w.evs }) ∨
       (x.2 ≤ ((w.tr.consents.get n).getD []).length + 1 ∧
        ∃ e q, endBlock t.protocol = some e ∧ w.now < e ∧
          w.tr.queue.length + 1 ≤ c.trLimit ∧ Queue.insert c.trLimit w.tr.queue n e = some q ∧
        w' = { w with
          tr := { w.tr with queue := q, consents := w.tr.consents.erase n }
          evs := .consentAdded n a :: w.evs })) := by
  unfold addConsent at h
  inv_ok at h
  obtain ⟨d, t, x, hd, h1, ht, hx, h2, h3, h4, h5, h⟩ := h
  refine ⟨d, t, x, hd, h1, ht, hx, h2, h3, h4, h5, ?_⟩
  unfold consentEffect at h
  split at h
  · rename_i hlt
    inv_ok at h
    subst h
    exact Or.inl ⟨by simpa using hlt, rfl⟩
  · rename_i hlt
    have hlt : x.2 ≤ ((w.tr.consents.get n).getD []).length + 1 := by simpa using hlt
    split at h
    · rename_i e he
      split at h
      · rename_i hle
        inv_ok at h
        obtain ⟨w1, h6, rfl⟩ := h
        obtain ⟨t', d', ht', hd', rfl⟩ := transmit_ok h6
        obtain rfl : t = t' := Option.some.inj (ht.symm.trans ht')
        obtain rfl : d = d' := Option.some.inj (hd.symm.trans hd')
        refine Or.inr (Or.inl ⟨hlt, ?_, rfl⟩)
        rintro e' he'
        obtain rfl : e = e' := Option.some.inj (he.symm.trans he')
        exact hle
      · rename_i hle
        simp only [enqueue] at h
        inv_ok at h
        obtain ⟨q, h6, h7, rfl⟩ := h
        exact Or.inr (Or.inr ⟨hlt, e, q, he, Nat.lt_of_not_le hle, h6, h7, rfl⟩)
    · rename_i he
      inv_ok at h
      obtain ⟨w1, h6, rfl⟩ := h
      obtain ⟨t', d', ht', hd', rfl⟩ := transmit_ok h6
      obtain rfl : t = t' := Option.some.inj (ht.symm.trans ht')
      obtain rfl : d = d' := Option.some.inj (hd.symm.trans hd')
      exact Or.inr (Or.inl ⟨hlt, by simp [he], rfl⟩)

theorem consent_slice {n} (h : addConsent c w a n = .ok w') (i : NFTId) :
    SliceRel c w.now off (.signed .tr a) (slice w i) (slice w' i) := by
  obtain ⟨d, t, x, hd, h1, ht, hx, h2, h3, h4, h5, h⟩ := addConsent_ok h
  rcases h with ⟨h6, rfl⟩ | ⟨h6, _, rfl⟩ | ⟨h6, e, q, _, _, _, _, rfl⟩
  · slice_at i n
    refine .one (.trConsent (l := (w.tr.consents.get i).getD [] ++ [a]) hd h1 ht hx h3 (by simpa using h6)) ?_
    ext1 <;> simp [slice]
  · slice_at i n
    exact .one (.trConsentTransmit hd h1 ht hx h3) (by ext1 <;> simp [slice])
  · slice_at i n
    exact .one (.trReached hd h1 ht hx h3) (by ext1 <;> simp [slice])

theorem call_slice {x : Call} (h : call c w a x = .ok w') (i : NFTId) :
    SliceRel c w.now off (.signed .tr a) (slice w i) (slice w' i) := by
  cases x with
  | set => exact set_slice h i
  | remove => exact remove_slice h i
  | resetTimer => exact reset_slice h i
  | addConsent => exact consent_slice h i

theorem hookOne_slice (n : NFTId) (hc : w.tr.consents.get n = none) (i : NFTId) :
    SliceRel c w.now off .hookTr (slice w i) (slice (hookOne w n).1 i) := by
  unfold hookOne
  split
  · rename_i w1 h
    obtain ⟨t, d, ht, hd, rfl⟩ := transmit_ok h
    slice_at i n
    exact .one (.trHook hd ht hc) (by ext1 <;> simp [slice, World.ev])
  · exact .of_eq rfl

theorem hookOne_frame (n : NFTId) : (hookOne w n).1.now = w.now ∧
    (hookOne w n).1.tr.consents = w.tr.consents ∧ (hookOne w n).1.tr.queue = w.tr.queue := by
  unfold hookOne
  split
  · rename_i w1 h
    obtain ⟨t, d, ht, hd, rfl⟩ := transmit_ok h
    simp [World.ev]
  · simp [World.ev]

theorem hookLoop_slice (q : Queue) (w : World) (j : Nat)
    (hc : ∀ x ∈ q, w.tr.consents.get x.1 = none) (i : NFTId) :
    SliceRel c w.now off .hookTr (slice w i) (slice (hookLoop c w q j).1 i) := by
  induction q generalizing w j with
  | nil => exact .refl
  | cons x t ih =>
    obtain ⟨n, b⟩ := x
    simp only [hookLoop]
    have h := hookOne_slice (c := c) (off := off) n (hc (n, b) (by simp)) i
    obtain ⟨f1, f2, f3⟩ := hookOne_frame (w := w) n
    split
    · have ih' := fun j => ih (hookOne w n).1 j (by rw [f2]; intro x hx; exact hc x (by simp [hx]))
      generalize (if (hookOne w n).2 = true then j + 1 else j) = j'
      split
      · exact h
      · exact h.trans (f1 ▸ ih' _)
    · exact .refl

theorem hook_slice (w : World) (hc : ∀ x ∈ w.tr.queue, w.tr.consents.get x.1 = none) (i : NFTId) :
    SliceRel c w.now off .hookTr (slice w i) (slice (hook c w) i) := by
  have h := hookLoop_slice (c := c) (off := off) w.tr.queue w 0 hc i
  unfold hook
  simp only
  split
  · exact h
  · exact h

end TrM
