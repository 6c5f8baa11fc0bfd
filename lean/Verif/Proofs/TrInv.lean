import Verif.Proofs.Queues
import Verif.Proofs.SliceTr
import Verif.Proofs.Good
/-
The invariant of the transmission pallet.
-/
namespace TrM
variable {c : Cfg} {w w' : World} {a : AccountId}

structure TrInv (c : Cfg) (t : TrSt) : Prop where
  wf : Queue.WF t.queue
  len : t.queue.length ≤ c.trLimit
  /-- what is queued is due to be transmitted at that block -/
  inQ : ∀ n b, (n, b) ∈ t.queue → ∃ x, t.trans.get n = some x ∧ endBlock x.protocol = some b ∧
    t.consents.get n = none
  /-- protocols with a date and without consent are queued -/
  mem : ∀ n x b, t.trans.get n = some x → blockToQueue x.protocol = some b → (n, b) ∈ t.queue
  /-- consents belong to a protocol, are distinct, allowed and not yet enough -/
  cons : ∀ n l, t.consents.get n = some l → ∃ x y, t.trans.get n = some x ∧
    consentData x.protocol = some y ∧ l.Nodup ∧ (∀ a ∈ l, a ∈ y.1) ∧ l.length < y.2
  proto : ∀ n x y, t.trans.get n = some x → consentData x.protocol = some y →
    y.1.Nodup ∧ 0 < y.2 ∧ y.2 ≤ y.1.length ∧ y.1.length ≤ c.trConsents

theorem TrInv.absent {t : TrSt} (h : TrInv c t) {n} (hn : t.trans.get n = none) :
    n ∉ Queue.ids t.queue ∧ t.consents.get n = none := by
  constructor
  · intro hm
    obtain ⟨b, hb⟩ := Queue.mem_ids.1 hm
    obtain ⟨x, hx, _⟩ := h.inQ n b hb
    rw [hn] at hx; simp at hx
  · cases e : t.consents.get n with
    | none => rfl
    | some l => obtain ⟨x, y, hx, _⟩ := h.cons n l e; rw [hn] at hx; simp at hx

theorem blockToQueue_cases (p : Protocol) :
    (blockToQueue p = none ∧ ∃ y, consentData p = some y) ∨
    (∃ b, blockToQueue p = some b ∧ endBlock p = some b ∧ consentData p = none) := by
  cases p <;> simp [blockToQueue, endBlock, consentData]

theorem TrInv.transmitted {t : TrSt} (h : TrInv c t) {n} {q : Queue} {f : FMap NFTId (List AccountId)}
    (hq : q.Sublist t.queue) (hn : n ∉ Queue.ids q) (ho : ∀ m b, m ≠ n → (m, b) ∈ t.queue → (m, b) ∈ q)
    (hf : ∀ m, m ≠ n → f.get m = t.consents.get m) (hfn : f.get n = none) :
    TrInv c { t with queue := q, trans := t.trans.erase n, consents := f } := by
  constructor
  · exact h.wf.sub hq
  · exact Nat.le_trans hq.length_le h.len
  · intro m b hm
    have hmn : m ≠ n := by rintro rfl; exact hn (Queue.mem_ids.2 ⟨b, hm⟩)
    obtain ⟨x, h1, h2, h3⟩ := h.inQ m b (hq.subset hm)
    exact ⟨x, by simpa [FMap.get_erase, hmn] using h1, h2, by show f.get m = none; rw [hf m hmn]; exact h3⟩
  · intro m x b hx hb
    simp only [FMap.get_erase] at hx
    split at hx
    · simp at hx
    · rename_i hmn
      exact ho m b hmn (h.mem m x b hx hb)
  · intro m l hl
    have hl : f.get m = some l := hl
    have hmn : m ≠ n := by rintro rfl; rw [hfn] at hl; simp at hl
    rw [hf m hmn] at hl
    obtain ⟨x, y, h1, h2⟩ := h.cons m l hl
    exact ⟨x, y, by simpa [FMap.get_erase, hmn] using h1, h2⟩
  · intro m x y hx
    simp only [FMap.get_erase] at hx
    split at hx
    · simp at hx
    · exact h.proto m x y hx

theorem TrInv.set (h : TrInv c w.tr) (hg : ∀ n, Good c (slice w n)) {n r p k}
    (hx : TrM.set c w a n r p k = .ok w') : TrInv c w'.tr := by
  unfold TrM.set at hx
  inv_ok at hx
  obtain ⟨d, q, b, h0, hd, ho, h1, h2, h3, h4, h5, h6, h7, h8, k1, k2, k3, k4, k5, k6, k7, hq, _, rfl⟩ := hx
  have hn : w.tr.trans.get n = none := by
    have := (hg n).nft d hd
    by_contra hc
    have := this.trans.2 hc
    simp [h8] at this
  obtain ⟨a1, a2⟩ := h.absent hn
  have hq' : (blockToQueue p = none ∧ q = w.tr.queue) ∨
      (∃ e, blockToQueue p = some e ∧ w.tr.queue.length < c.trLimit ∧ q = Queue.ins n e w.tr.queue) := by
    cases e : blockToQueue p with
    | none => simp only [e, enqueue] at hq; inv_ok at hq; exact Or.inl ⟨rfl, hq.symm⟩
    | some b =>
      simp only [e, enqueue] at hq
      inv_ok at hq
      obtain ⟨_, hq⟩ := hq
      exact Or.inr ⟨b, rfl, Queue.insert_some hq⟩
  simp only [World.ev, World.putNft, World.putBal]
  constructor
  · rcases hq' with ⟨_, rfl⟩ | ⟨e, _, _, rfl⟩
    · exact h.wf
    · exact h.wf.ins a1
  · rcases hq' with ⟨_, rfl⟩ | ⟨e, _, hl, rfl⟩
    · exact h.len
    · simp only [Queue.length_ins]; omega
  · intro m b hm
    have key : (m, b) ∈ w.tr.queue ∨ (m = n ∧ blockToQueue p = some b) := by
      rcases hq' with ⟨_, rfl⟩ | ⟨e, he, hl, rfl⟩
      · exact Or.inl hm
      · rcases Queue.mem_ins.1 hm with hm | hm
        · simp only [Prod.mk.injEq] at hm; obtain ⟨rfl, rfl⟩ := hm; exact Or.inr ⟨rfl, he⟩
        · exact Or.inl hm
    rcases key with hm1 | ⟨rfl, he⟩
    · have : m ≠ n := by rintro rfl; exact a1 (Queue.mem_ids.2 ⟨b, hm1⟩)
      simpa [FMap.get_insert, this] using h.inQ m b hm1
    · refine ⟨_, FMap.get_insert_self _ _ _, ?_, a2⟩
      rcases blockToQueue_cases p with ⟨e, _⟩ | ⟨e, e1, e2, _⟩
      · rw [e] at he; simp at he
      · rw [he] at e1; simp at e1; subst e1; exact e2
  · intro m x b hx hb
    simp only [FMap.get_insert] at hx
    split at hx
    · rename_i hmn
      simp only [Option.some.injEq] at hx; subst hx hmn
      rcases hq' with ⟨e, rfl⟩ | ⟨e, he, hl, rfl⟩
      · rw [e] at hb; simp at hb
      · rw [he] at hb; simp at hb; subst hb
        exact Queue.mem_ins.2 (Or.inl rfl)
    · have := h.mem m x b hx hb
      rcases hq' with ⟨_, rfl⟩ | ⟨e, he, hl, rfl⟩
      · exact this
      · exact Queue.mem_ins.2 (Or.inr this)
  · intro m l hl
    have hmn : m ≠ n := by rintro rfl; simp [a2] at hl
    simpa [FMap.get_insert, hmn] using h.cons m l hl
  · intro m x y hx hy
    simp only [FMap.get_insert] at hx
    split at hx
    · rename_i hmn
      simp only [Option.some.injEq] at hx; subst hx hmn
      exact ⟨k4 y hy, k5 y hy, k7 y hy, k3 y hy⟩
    · exact h.proto m x y hx hy

theorem TrInv.remove (h : TrInv c w.tr) {n} (hx : TrM.remove w a n = .ok w') : TrInv c w'.tr := by
  unfold TrM.remove at hx
  inv_ok at hx
  obtain ⟨d, t, hd, ho, h1, ht, h2, rfl⟩ := hx
  simp only [World.putNft]
  have hq : ∀ m b, m ≠ n → (m, b) ∈ w.tr.queue → (m, b) ∈ Queue.remove n w.tr.queue := fun m b hm hb =>
    (Queue.mem_remove h.wf).2 ⟨hb, hm⟩
  have hn : n ∉ Queue.ids (Queue.remove n w.tr.queue) := fun hh => ((Queue.mem_ids_remove h.wf).1 hh).2 rfl
  have hc : consentData t.protocol = none → w.tr.consents.get n = none := by
    intro e
    cases e' : w.tr.consents.get n with
    | none => rfl
    | some l =>
      obtain ⟨x, y, hx, hy, _⟩ := h.cons n l e'
      rw [ht] at hx; simp at hx; subst hx; rw [e] at hy; simp at hy
  have he : ∀ m, m ≠ n → (w.tr.consents.erase n).get m = w.tr.consents.get m := fun m hm => by
    simp [FMap.get_erase, hm]
  have hqn : blockToQueue t.protocol = none → endBlock t.protocol = none → n ∉ Queue.ids w.tr.queue := by
    intro _ e2 hm
    obtain ⟨b, hb⟩ := Queue.mem_ids.1 hm
    obtain ⟨x, hx, hy, _⟩ := h.inQ n b hb
    rw [ht] at hx; simp at hx; subst hx; rw [e2] at hy; simp at hy
  cases hp : t.protocol with
  | atBlock b =>
    exact h.transmitted Queue.remove_sublist hn hq (fun _ _ => rfl) (hc (by rw [hp]; rfl))
  | atBlockWithReset b =>
    exact h.transmitted Queue.remove_sublist hn hq (fun _ _ => rfl) (hc (by rw [hp]; rfl))
  | onConsent l k =>
    exact h.transmitted (List.Sublist.refl _) (hqn (by rw [hp]; rfl) (by rw [hp]; rfl))
      (fun _ _ _ hh => hh) he (FMap.get_erase_self _ _)
  | onConsentAtBlock l k b =>
    exact h.transmitted Queue.remove_sublist hn hq he (FMap.get_erase_self _ _)

theorem TrInv.reset (h : TrInv c w.tr) {n b} (hx : TrM.resetTimer c w a n b = .ok w') :
    TrInv c w'.tr := by
  unfold TrM.resetTimer at hx
  inv_ok at hx
  obtain ⟨d, t, q, hd, ho, h1, ht, h2, h3, h4, h5, rfl⟩ := hx
  obtain ⟨b0, hp⟩ : ∃ b0, t.protocol = .atBlockWithReset b0 := by
    cases hp : t.protocol <;> simp only [hp, canReset, Bool.false_eq_true] at h2
    exact ⟨_, rfl⟩
  have hm := h.mem n t b0 ht (by rw [hp]; rfl)
  have hc := (h.inQ n b0 hm).choose_spec.2.2
  have hmi : n ∈ Queue.ids w.tr.queue := Queue.mem_ids.2 ⟨b0, hm⟩
  rcases Queue.update_ok h5 with ⟨h6, _⟩ | ⟨_, rfl⟩
  · exact absurd hmi h6
  have hr := h.wf.remove (n := n)
  have hn : n ∉ Queue.ids (Queue.remove n w.tr.queue) := fun hh => ((Queue.mem_ids_remove h.wf).1 hh).2 rfl
  constructor
  · exact hr.ins hn
  · have := Queue.length_remove hmi
    have := h.len
    simp only [Queue.length_ins]; omega
  · intro m e hme
    rcases Queue.mem_ins.1 hme with hme | hme
    · simp only [Prod.mk.injEq] at hme; obtain ⟨rfl, rfl⟩ := hme
      exact ⟨_, FMap.get_insert_self _ _ _, rfl, hc⟩
    · obtain ⟨h6, h7⟩ := (Queue.mem_remove h.wf).1 hme
      simp only at h7
      simpa [FMap.get_insert, h7] using h.inQ m e h6
  · intro m x e hx he
    simp only [FMap.get_insert] at hx
    split at hx
    · rename_i hmn
      simp only [Option.some.injEq] at hx; subst hx hmn
      simp only [blockToQueue, Option.some.injEq] at he; subst he
      exact Queue.mem_ins.2 (Or.inl rfl)
    · rename_i hmn
      exact Queue.mem_ins.2 (Or.inr ((Queue.mem_remove h.wf).2 ⟨h.mem m x e hx he, hmn⟩))
  · intro m l hl
    have hmn : m ≠ n := by rintro rfl; simp [hc] at hl
    simpa [FMap.get_insert, hmn] using h.cons m l hl
  · intro m x y hx hy
    simp only [FMap.get_insert] at hx
    split at hx
    · rename_i hmn
      simp only [Option.some.injEq] at hx; subst hx hmn
      simp [consentData] at hy
    · exact h.proto m x y hx hy

theorem TrInv.consent (h : TrInv c w.tr) {n} (hx : TrM.addConsent c w a n = .ok w') :
    TrInv c w'.tr := by
  obtain ⟨d, t, x, hd, h1, ht, hcd, h2, h3, h4, h5, h6⟩ := addConsent_ok hx
  clear hx
  have he : ∀ m, m ≠ n → (w.tr.consents.erase n).get m = w.tr.consents.get m := fun m hm => by
    simp [FMap.get_erase, hm]
  have hnq : n ∉ Queue.ids w.tr.queue := by
    intro hm
    cases hp : t.protocol with
    | onConsentAtBlock l k b =>
      exact Queue.find_none.1 (h2 (by rw [hp]; rfl)) hm
    | onConsent l k =>
      obtain ⟨b, hb⟩ := Queue.mem_ids.1 hm
      obtain ⟨x, hx, hy, _⟩ := h.inQ n b hb
      rw [ht] at hx; simp at hx; subst hx; rw [hp] at hy; simp [endBlock] at hy
    | atBlock b => rw [hp] at hcd; simp [consentData] at hcd
    | atBlockWithReset b => rw [hp] at hcd; simp [consentData] at hcd
  rcases h6 with ⟨h6, rfl⟩ | ⟨h6, _, rfl⟩ | ⟨h6, e, q, h7, h8, h9, h10, rfl⟩
  · constructor
    · exact h.wf
    · exact h.len
    · intro m b hm
      have hmn : m ≠ n := by rintro rfl; exact hnq (Queue.mem_ids.2 ⟨b, hm⟩)
      simpa [FMap.get_insert, hmn] using h.inQ m b hm
    · exact h.mem
    · intro m l hl
      simp only [FMap.get_insert] at hl
      split at hl
      · rename_i hmn
        simp only [Option.some.injEq] at hl; subst hl hmn
        have hold : ((w.tr.consents.get m).getD []).Nodup ∧
            ∀ b ∈ (w.tr.consents.get m).getD [], b ∈ x.1 := by
          cases e : w.tr.consents.get m with
          | none => simp
          | some l =>
            obtain ⟨x', y, hx', hy, g1, g2, _⟩ := h.cons m l e
            rw [ht] at hx'; simp at hx'; subst hx'
            rw [hcd] at hy; simp at hy; subst hy
            exact ⟨g1, g2⟩
        refine ⟨t, x, ht, hcd, ?_, ?_, by simpa using h6⟩
        · refine List.nodup_append.2 ⟨hold.1, by simp, ?_⟩
          intro u hu v hv
          simp at hv; subst hv; rintro rfl; exact h4 hu
        · intro b hb
          rcases List.mem_append.1 hb with hb | hb
          · exact hold.2 b hb
          · simp at hb; subst hb; exact h3
      · exact h.cons m l hl
    · exact h.proto
  · exact h.transmitted (List.Sublist.refl _) hnq (fun _ _ _ hh => hh) he (by simp)
  · obtain ⟨_, rfl⟩ := Queue.insert_some h10
    constructor
    · exact h.wf.ins hnq
    · simp only [Queue.length_ins]; exact h9
    · intro m b hm
      rcases Queue.mem_ins.1 hm with hm1 | hm1
      · simp only [Prod.mk.injEq] at hm1; obtain ⟨rfl, rfl⟩ := hm1
        exact ⟨t, ht, h7, by simp⟩
      · have hmn : m ≠ n := by rintro rfl; exact hnq (Queue.mem_ids.2 ⟨b, hm1⟩)
        simpa [FMap.get_erase, hmn] using h.inQ m b hm1
    · intro m x b hx hb
      exact Queue.mem_ins.2 (Or.inr (h.mem m x b hx hb))
    · intro m l hl
      simp only [FMap.get_erase] at hl
      split at hl
      · simp at hl
      · exact h.cons m l hl
    · exact h.proto

theorem TrInv.call (h : TrInv c w.tr) (hg : ∀ n, Good c (slice w n)) {x : Call}
    (hx : TrM.call c w a x = .ok w') : TrInv c w'.tr := by
  cases x with
  | set => exact h.set hg hx
  | remove => exact h.remove hx
  | resetTimer => exact h.reset hx
  | addConsent => exact h.consent hx

/-- the hook's transmission of a queued NFT succeeds -/
theorem hookOne_succeeds {n} {t : Transmission} (ht : w.tr.trans.get n = some t)
    (hd : w.nfts.get n ≠ none) :
    ∃ d, w.nfts.get n = some d ∧ hookOne w n = ({ w with
        nfts := w.nfts.insert n { d with owner := t.recipient, st := { d.st with transmission := false } }
        tr := { w.tr with trans := w.tr.trans.erase n }
        evs := .transmitted n :: w.evs }, true) := by
  cases e : w.nfts.get n with
  | none => exact absurd e hd
  | some d =>
    refine ⟨d, rfl, ?_⟩
    simp [hookOne, transmit, ht, e, getOr, World.ev, World.putNft, bind, Except.bind, pure, Except.pure]

/-- the loop on the queue `q` -/
theorem TrInv.loop (q : Queue) (w : World) (i : Nat) (h : TrInv c { w.tr with queue := q })
    (hx : ∀ n, w.tr.trans.get n ≠ none → w.nfts.get n ≠ none) :
    TrInv c { (hookLoop c w q i).1.tr with queue := (hookLoop c w q i).2.1 } ∧
    i ≤ (hookLoop c w q i).2.2 ∧ ((hookLoop c w q i).2.2 = i → hookLoop c w q i = (w, q, i)) := by
  induction q generalizing w i with
  | nil => exact ⟨h, Nat.le_refl _, fun _ => rfl⟩
  | cons x t ih =>
    obtain ⟨n, b⟩ := x
    simp only [hookLoop]
    split
    · obtain ⟨y, hy, he, hc⟩ := h.inQ n b (List.mem_cons_self ..)
      obtain ⟨d, hd, h1⟩ := hookOne_succeeds hy (hx n (by simp only at hy; rw [hy]; simp))
      rw [h1]
      have h2 : TrInv c { w.tr with queue := t, trans := w.tr.trans.erase n } := by
        have hwf : Queue.WF ((n, b) :: t) := h.wf
        refine h.transmitted (q := t) (f := w.tr.consents) (List.sublist_cons_self _ _) hwf.head
          ?_ (fun _ _ => rfl) hc
        intro m b' hm hb
        rcases List.mem_cons.1 hb with hb | hb
        · simp only [Prod.mk.injEq] at hb; exact absurd hb.1 hm
        · exact hb
      simp only [if_true]
      split
      · exact ⟨h2, Nat.le_succ _, by simp⟩
      · obtain ⟨g1, g2, g3⟩ := ih { w with
          nfts := w.nfts.insert n { d with owner := y.recipient, st := { d.st with transmission := false } }
          tr := { w.tr with trans := w.tr.trans.erase n }
          evs := .transmitted n :: w.evs } (i + 1) h2 (by
            intro m hm
            simp only [FMap.get_erase] at hm
            simp only [FMap.get_insert]
            split <;> simp_all)
        exact ⟨g1, Nat.le_trans (Nat.le_succ _) g2, fun hh =>
          (Nat.not_succ_le_self i (Nat.le_trans g2 (Nat.le_of_eq hh))).elim⟩
    · exact ⟨h, Nat.le_refl _, fun _ => rfl⟩

theorem TrInv.hook (h : TrInv c w.tr) (hg : ∀ n, Good c (slice w n)) : TrInv c (TrM.hook c w).tr := by
  obtain ⟨h1, h2, h3⟩ := TrInv.loop w.tr.queue w 0 h (fun n hn hc => by
    have := (hg n).gone hc
    have : w.tr.trans.get n = none := congrArg Slice.tr this
    exact hn this)
  unfold TrM.hook
  dsimp only
  split
  · exact h1
  · rename_i hk
    rw [h3 (by omega)]
    exact h

end TrM
