import Verif.Proofs.TrStep
/-
Consents as the history of accepted `add_consent` calls.
-/
variable {c : Cfg} {w w' : World} {a : AccountId}

/-- the accounts that consented since the last time a protocol was set for `n`, newest first -/
def consentsSince (n : NFTId) : List Ev → List AccountId
  | [] => []
  | .protocolSet m :: t => if m = n then [] else consentsSince n t
  | .consentAdded m a :: t => if m = n then a :: consentsSince n t else consentsSince n t
  | _ :: t => consentsSince n t

theorem consentsSince_skip {n : NFTId} {l t : List Ev}
    (h : ∀ e ∈ l, e ≠ .protocolSet n ∧ ∀ a, e ≠ .consentAdded n a) :
    consentsSince n (l ++ t) = consentsSince n t := by
  induction l with
  | nil => rfl
  | cons e l ih =>
    have ih := ih fun e he => h e (by simp [he])
    have he := h e (by simp)
    cases e with
    | protocolSet m =>
      have : m ≠ n := by rintro rfl; exact he.1 rfl
      simp [consentsSince, this, ih]
    | consentAdded m a =>
      have : m ≠ n := by rintro rfl; exact he.2 a rfl
      simp [consentsSince, this, ih]
    | _ => simpa [consentsSince] using ih

theorem Evs.consentsSince {o : Op} {n : NFTId} (h : Evs o w w')
    (h1 : ∀ a r p k, o ≠ .call (.signed a) (.tr (.set n r p k)))
    (h2 : ∀ a, o ≠ .call (.signed a) (.tr (.addConsent n))) :
    consentsSince n w'.evs = consentsSince n w.evs := by
  obtain ⟨l, e, hl⟩ := h
  rw [e]
  refine consentsSince_skip fun e he => ⟨?_, ?_⟩
  · rintro rfl
    obtain ⟨a, r, p, k, h⟩ := hl _ he
    exact h1 a r p k h
  · rintro a rfl
    exact h2 a (hl _ he)

/-- recorded consents are the accepted ones -/
def TrHist (w : World) : Prop := ∀ n x y, w.tr.trans.get n = some x →
  TrM.consentData x.protocol = some y →
  (n ∉ Queue.ids w.tr.queue →
    consentsSince n w.evs = ((w.tr.consents.get n).getD []).reverse) ∧
  (n ∈ Queue.ids w.tr.queue → (consentsSince n w.evs).Nodup ∧
    (∀ a ∈ consentsSince n w.evs, a ∈ y.1) ∧ y.2 ≤ (consentsSince n w.evs).length)

namespace TrM

/-- the queue and other NFTs -/
theorem call_queue_other (h : TrInv c w.tr) {x n} (hx : call c w a x = .ok w') (hn : n ≠ x.target) :
    n ∈ Queue.ids w'.tr.queue ↔ n ∈ Queue.ids w.tr.queue := by
  cases x with
  | set m r p k =>
    simp only [call, set, Call.target] at hx hn
    inv_ok at hx
    obtain ⟨d, q, b, h0, hd, ho, h1, h2, h3, h4, h5, h6, h7, h8, _, _, _, _, _, _, _, hq, _, rfl⟩ := hx
    show n ∈ Queue.ids q ↔ _
    cases hp : blockToQueue p with
    | none => rw [hp] at hq; simp [enqueue] at hq; cases hq; rfl
    | some e =>
      rw [hp] at hq
      simp only [enqueue] at hq
      inv_ok at hq
      obtain ⟨_, hq⟩ := hq
      rw [(Queue.insert_some hq).2, Queue.mem_ids_ins]
      simp [hn]
  | remove m =>
    simp only [call, remove, Call.target] at hx hn
    inv_ok at hx
    obtain ⟨d, t, hd, ho, h1, ht, h2, rfl⟩ := hx
    cases t.protocol <;> simp [World.putNft, cleanup, kind, Queue.mem_ids_remove h.wf, hn]
  | resetTimer m b =>
    simp only [call, resetTimer, Call.target] at hx hn
    inv_ok at hx
    obtain ⟨d, t, q, hd, ho, h1, ht, h2, h3, h4, h5, rfl⟩ := hx
    show n ∈ Queue.ids q ↔ _
    rcases Queue.update_ok h5 with ⟨_, rfl⟩ | ⟨_, rfl⟩
    · rfl
    · rw [Queue.mem_ids_ins, Queue.mem_ids_remove h.wf]; simp [hn]
  | addConsent m =>
    simp only [call, Call.target] at hx hn
    obtain ⟨d, t, x, hd, h1, ht, hx, h2, h3, h4, h5, h⟩ := addConsent_ok hx
    rcases h with ⟨h6, rfl⟩ | ⟨h6, _, rfl⟩ | ⟨h6, e, q, _, _, _, hq, rfl⟩
    · rfl
    · rfl
    · show n ∈ Queue.ids q ↔ _
      rw [(Queue.insert_some hq).2, Queue.mem_ids_ins]
      simp [hn]

/-- the served entries are a prefix of the queue -/
theorem due_prefix (now k) (q : Queue) : q = Queue.due now k q ++ q.drop (Queue.due now k q).length := by
  induction q generalizing k with
  | nil => rw [Queue.due_nil]; rfl
  | cons x t ih =>
    obtain ⟨m, b⟩ := x
    cases k with
    | zero => simp [Queue.due]
    | succ k =>
      simp only [Queue.due]
      split
      · simp only [List.cons_append, List.length_cons, List.drop_succ_cons]; rw [← ih]
      · simp

end TrM

theorem hook_ids (h : TrM.TrInv c w.tr) (hg : ∀ n, Good c (slice w n)) {n : NFTId}
    (hn : n ∉ Queue.ids (TrM.served c w)) :
    n ∈ Queue.ids (TrM.hook c w).tr.queue ↔ n ∈ Queue.ids w.tr.queue := by
  rw [(TrM.hook_exact h hg).2]
  have e := TrM.due_prefix w.now (max 1 c.trActions) w.tr.queue
  conv_rhs => rw [e]
  have hn' : n ∉ Queue.ids (Queue.due w.now (max 1 c.trActions) w.tr.queue) := hn
  simp only [Queue.ids, List.map_append, List.mem_append] at hn' ⊢
  simp only [hn', false_or]; rfl

theorem TrM.hook_consents : (TrM.hook c w).tr.consents = w.tr.consents := by
  have key : ∀ (q : Queue) (w : World) (j : Nat), (hookLoop c w q j).1.tr.consents = w.tr.consents := by
    intro q
    induction q with
    | nil => intro w j; rfl
    | cons x t ih =>
      intro w j
      obtain ⟨n, b⟩ := x
      simp only [hookLoop]
      obtain ⟨_, f2, _⟩ := hookOne_frame (w := w) n
      split
      · generalize (if (hookOne w n).2 = true then j + 1 else j) = j'
        split
        · exact f2
        · rw [ih, f2]
      · rfl
  unfold hook
  simp only
  split
  · exact key _ _ _
  · exact key _ _ _

theorem TrHist.step (hc : c.Ok) (hr : Reach c w) (o : Op) (ho : o.Ok c) (h : TrHist w) :
    TrHist (step c w o) := by
  have hi := hr.inv hc
  have hev := step_evs (c := c) w o
  intro n x y hx hy
  rcases step_tr_case hc hr o ho with ⟨a, z, rfl, ha, hz⟩ | rfl | ⟨h1, h2, h3, h4, _⟩
  · generalize _root_.step c w (.call (.signed a) (.tr z)) = w' at *
    by_cases hn : n = z.target
    · cases z with
      | set m r p k =>
        simp only [TrM.Call.target] at hn; subst hn
        simp only [TrM.call, TrM.set] at hz
        inv_ok at hz
        obtain ⟨d, q, b, h0, hd, ho, h1, h2, h3, h4, h5, h6, h7, h8, _, _, _, _, _, _, _, hq, _, rfl⟩ := hz
        have hn : w.tr.trans.get n = none := by
          by_contra hne
          have := ((hi.good n).nft d hd).trans.2 hne
          simp [h8] at this
        obtain ⟨a1, a2⟩ := hi.tr.absent hn
        simp only [World.ev, World.putNft, World.putBal, FMap.get_insert_self, Option.some.injEq] at hx
        subst hx
        have hy : TrM.consentData p = some y := hy
        have hb : TrM.blockToQueue p = none := by cases p <;> simp_all [TrM.consentData, TrM.blockToQueue]
        rw [hb] at hq; simp [TrM.enqueue] at hq; cases hq
        constructor
        · intro _
          show consentsSince n (.protocolSet n :: w.evs) = ((w.tr.consents.get n).getD []).reverse
          rw [a2]; simp [consentsSince]
        · intro hm; exact absurd hm a1
      | remove m =>
        simp only [TrM.Call.target] at hn; subst hn
        simp only [TrM.call, TrM.remove] at hz
        inv_ok at hz
        obtain ⟨d, t, hd, ho, h1, ht, h2, rfl⟩ := hz
        simp at hx
      | resetTimer m b =>
        simp only [TrM.Call.target] at hn; subst hn
        simp only [TrM.call, TrM.resetTimer] at hz
        inv_ok at hz
        obtain ⟨d, t, q, hd, ho, h1, ht, h2, h3, h4, h5, rfl⟩ := hz
        simp at hx; subst hx; simp [TrM.consentData] at hy
      | addConsent m =>
        simp only [TrM.Call.target] at hn; subst hn
        simp only [TrM.call] at hz
        have hq := hi.tr.consent_not_queued hz
        obtain ⟨d, t, y', hd, h1, ht, hcd, h2, h3, h4, h5, h6⟩ := TrM.addConsent_ok hz
        have hold := (h n t y' ht hcd).1 hq
        rcases h6 with ⟨h6, rfl⟩ | ⟨h6, h7, rfl⟩ | ⟨h6, e, q, _, _, _, hq', rfl⟩
        · refine ⟨fun _ => ?_, fun hm => absurd hm hq⟩
          simp [consentsSince, hold]
        · simp at hx
        · have hx : w.tr.trans.get n = some x := hx
          rw [ht] at hx; simp at hx; subst hx
          rw [hcd] at hy; simp at hy; subst hy
          have hn : n ∈ Queue.ids q := by rw [(Queue.insert_some hq').2, Queue.mem_ids_ins]; simp
          refine ⟨fun hm => absurd hn hm, fun _ => ?_⟩
          simp only [consentsSince, if_true, hold]
          have hall : ((w.tr.consents.get n).getD []).Nodup ∧
              ∀ b ∈ (w.tr.consents.get n).getD [], b ∈ y'.1 := by
            cases hl : w.tr.consents.get n with
            | none => simp
            | some l =>
              obtain ⟨x', y2, e1, e2, e3, e4, e5⟩ := hi.tr.cons n l hl
              rw [ht] at e1; simp at e1; subst e1
              rw [hcd] at e2; simp at e2; subst e2
              exact ⟨e3, e4⟩
          refine ⟨?_, ?_, ?_⟩
          · exact List.nodup_cons.2 ⟨fun hm => h4 (List.mem_reverse.1 hm), by simpa [List.Nodup, List.pairwise_reverse, ne_comm] using hall.1⟩
          · intro b hb
            simp at hb
            rcases hb with rfl | hb
            · exact h3
            · exact hall.2 b (by simpa using hb)
          · simpa using h6
    · obtain ⟨e1, e2, e3⟩ := TrM.call_other hz hn
      have e4 := TrM.call_queue_other hi.tr hz hn
      have e5 : consentsSince n w'.evs = consentsSince n w.evs := by
        refine hev.consentsSince ?_ ?_
        · rintro a r p k h; simp at h; obtain ⟨_, rfl⟩ := h; exact hn rfl
        · rintro a h; simp at h; obtain ⟨_, rfl⟩ := h; exact hn rfl
      rw [e1] at hx
      rw [e3, e4, e5]
      exact h n x y hx hy
  · obtain ⟨s, _⟩ := TrM.hook_exact (c := c) hi.tr hi.good
    by_cases hn : n ∈ Queue.ids (TrM.served c w)
    · obtain ⟨t, d', e1, e2, e3, e4⟩ := s.on n hn
      rw [show _root_.step c w .hookTr = TrM.hook c w from rfl, e3] at hx
      simp at hx
    · obtain ⟨e1, e2⟩ := s.off n hn
      have e4 := hook_ids hi.tr hi.good hn
      have e5 := hev.consentsSince (n := n) (by simp) (by simp)
      rw [e5]
      show (n ∉ Queue.ids (TrM.hook c w).tr.queue → _ = (((TrM.hook c w).tr.consents.get n).getD []).reverse) ∧
        (n ∈ Queue.ids (TrM.hook c w).tr.queue → _)
      rw [e4, TrM.hook_consents]
      exact h n x y (e1.symm.trans hx) hy
  · have e5 : consentsSince n (_root_.step c w o).evs = consentsSince n w.evs := by
      rcases h4 with h4 | h4
      · rw [h4]
      · exact hev.consentsSince (fun _ _ _ _ => h4 _ _) (fun _ => h4 _ _)
    rw [h1] at hx
    rw [h2, h3, e5]
    exact h n x y hx hy

theorem Reach.trHist (hc : c.Ok) (hr : Reach c w) : TrHist w := by
  induction hr with
  | init h => intro n x y hx; rw [h.tr.1] at hx; simp at hx
  | step o hr ho ih => exact ih.step hc hr o ho

/-- How a due entry moves in the schedule. -/
theorem step_tr_at (hc : c.Ok) (hr : Reach c w) (o : Op) (ho : o.Ok c) {n : NFTId} {b : Block} {i : Nat}
    {d : NFTData} (hd : w.nfts.get n = some d) (hi : Queue.At w.tr.queue n b i) (hb : b ≤ w.now)
    (h1 : ∀ e, o ≠ .call (.signed d.owner) (.tr (.resetTimer n e)))
    (h2 : o ≠ .call (.signed d.owner) (.tr (.remove n))) :
    (o = .hookTr ∧ n ∈ Queue.ids (TrM.served c w)) ∨
    (n ∉ Queue.ids (TrM.served c w) ∧ o = .hookTr ∧ max 1 c.trActions ≤ i ∧
      Queue.At (step c w o).tr.queue n b (i - max 1 c.trActions)) ∨
    (o ≠ .hookTr ∧ ∃ j, j ≤ i ∧ Queue.At (step c w o).tr.queue n b j) := by
  have hv := hr.inv hc
  rcases step_tr_case hc hr o ho with ⟨a, y, rfl, ha, h⟩ | rfl | ⟨_, _, h3, _⟩
  · refine Or.inr (Or.inr ⟨by simp, ?_⟩)
    generalize step c w (.call (.signed a) (.tr y)) = w' at h
    cases y with
    | set m r p k =>
      simp only [TrM.call, TrM.set] at h
      inv_ok at h
      obtain ⟨d', q, b', h0, hd', ho, _, _, _, _, _, _, _, _, hfut, _, _, _, _, _, _, hq, _, rfl⟩ := h
      refine ⟨i, Nat.le_refl _, ?_⟩
      show Queue.At q n b i
      cases hp : TrM.blockToQueue p with
      | none => rw [hp] at hq; simp [TrM.enqueue] at hq; cases hq; exact hi
      | some e =>
        rw [hp] at hq
        simp only [TrM.enqueue] at hq
        inv_ok at hq
        obtain ⟨_, hq⟩ := hq
        rw [(Queue.insert_some hq).2]
        have he : TrM.endBlock p = some e := by
          cases p <;> simp_all [TrM.blockToQueue, TrM.endBlock]
        have := hfut e he
        exact hi.ins hv.tr.wf (by omega)
    | remove m =>
      simp only [TrM.call, TrM.remove] at h
      inv_ok at h
      obtain ⟨d', t, hd', ho, _, ht, _, rfl⟩ := h
      have hm : m ≠ n := by
        rintro rfl
        rw [hd] at hd'; simp at hd'; subst hd'
        subst ho
        exact h2 rfl
      obtain ⟨j, hj, hat⟩ := hi.remove hm
      cases t.protocol with
      | onConsent => exact ⟨i, Nat.le_refl _, hi⟩
      | _ => exact ⟨j, hj, hat⟩
    | resetTimer m e =>
      simp only [TrM.call, TrM.resetTimer] at h
      inv_ok at h
      obtain ⟨d', t, q, hd', ho, _, ht, _, hfut, _, hq, rfl⟩ := h
      have hm : m ≠ n := by
        rintro rfl
        rw [hd] at hd'; simp at hd'; subst hd'
        subst ho
        exact h1 e rfl
      show ∃ j, j ≤ i ∧ Queue.At q n b j
      rcases Queue.update_ok hq with ⟨_, rfl⟩ | ⟨_, rfl⟩
      · exact ⟨i, Nat.le_refl _, hi⟩
      · obtain ⟨j, hj, hat⟩ := hi.remove hm
        exact ⟨j, hj, hat.ins hv.tr.wf.remove (by omega)⟩
    | addConsent m =>
      simp only [TrM.call] at h
      obtain ⟨d', t, y', hd', _, ht, hcd, _, _, _, _, h6⟩ := TrM.addConsent_ok h
      refine ⟨i, Nat.le_refl _, ?_⟩
      rcases h6 with ⟨h6, rfl⟩ | ⟨h6, h7, rfl⟩ | ⟨h6, e, q, _, _, _, hq', rfl⟩
      · exact hi
      · exact hi
      · show Queue.At q n b i
        rw [(Queue.insert_some hq').2]
        exact hi.ins hv.tr.wf (by omega)
  · rcases hi.due hv.tr.wf (k := max 1 c.trActions) hb with ⟨_, hm⟩ | ⟨hk, hm, _, hat⟩
    · exact Or.inl ⟨rfl, Queue.mem_ids.2 ⟨b, hm⟩⟩
    · refine Or.inr (Or.inl ⟨?_, rfl, hk, ?_⟩)
      · intro hmem
        obtain ⟨b', hb'⟩ := Queue.mem_ids.1 hmem
        obtain rfl := hv.tr.wf.unique hi.mem (Queue.mem_due hb').1
        exact hm hb'
      · have e := (TrM.hook_exact (c := c) hv.tr hv.good).2
        show Queue.At (TrM.hook c w).tr.queue n b _
        rw [e]
        exact hat
  · by_cases e : o = .hookTr
    · subst e
      rcases hi.due hv.tr.wf (k := max 1 c.trActions) hb with ⟨_, hm⟩ | ⟨hk, hm, _, hat⟩
      · exact Or.inl ⟨rfl, Queue.mem_ids.2 ⟨b, hm⟩⟩
      · refine Or.inr (Or.inl ⟨?_, rfl, hk, ?_⟩)
        · intro hmem
          obtain ⟨b', hb'⟩ := Queue.mem_ids.1 hmem
          obtain rfl := hv.tr.wf.unique hi.mem (Queue.mem_due hb').1
          exact hm hb'
        · have e := (TrM.hook_exact (c := c) hv.tr hv.good).2
          show Queue.At (TrM.hook c w).tr.queue n b _
          rw [e]
          exact hat
    · exact Or.inr (Or.inr ⟨e, i, Nat.le_refl _, by rw [h3]; exact hi⟩)

/-- An NFT in transmission stays so, with the same recipient, cancellation and owner, up to the
operation that ends the transmission. -/
theorem run_tr_move (hc : c.Ok) (hr : Reach c w) {n : NFTId} {x : Transmission} {d : NFTData}
    (hx : w.tr.trans.get n = some x) (hd : w.nfts.get n = some d) (l : List Op)
    (hl : ∀ o ∈ l, o.Ok c) :
    (∃ x' d', (run c w l).tr.trans.get n = some x' ∧ (run c w l).nfts.get n = some d' ∧
      x'.recipient = x.recipient ∧ x'.cancellation = x.cancellation ∧ d'.owner = d.owner) ∨
    ∃ l1 o l2 x1 d1, l = l1 ++ o :: l2 ∧ (run c w l1).tr.trans.get n = some x1 ∧
      (run c w l1).nfts.get n = some d1 ∧ x1.recipient = x.recipient ∧
      x1.cancellation = x.cancellation ∧ d1.owner = d.owner ∧
      TrMove c (run c w l1) n x1 d1 (step c (run c w l1) o) o ∧
      (step c (run c w l1) o).tr.trans.get n = none := by
  induction l generalizing w x d with
  | nil => exact Or.inl ⟨x, d, hx, hd, rfl, rfl, rfl⟩
  | cons o t ih =>
    have hm := step_tr_move hc hr o (hl o (by simp)) hx hd
    cases e : (step c w o).tr.trans.get n with
    | none => exact Or.inr ⟨[], o, t, x, d, rfl, hx, hd, rfl, rfl, rfl, hm, e⟩
    | some x' =>
      have : ∃ d', (step c w o).nfts.get n = some d' ∧ x'.recipient = x.recipient ∧
          x'.cancellation = x.cancellation ∧ d'.owner = d.owner := by
        cases hm with
        | stay e1 e2 e3 =>
          rw [e] at e1; simp at e1; subst e1
          exact ⟨_, e2, rfl, rfl, e3⟩
        | reset _ _ e1 e2 =>
          rw [e] at e1; simp at e1; subst e1
          exact ⟨_, e2, rfl, rfl, rfl⟩
        | removed _ e1 _ => rw [e] at e1; simp at e1
        | hook _ _ _ e1 _ => rw [e] at e1; simp at e1
        | consent _ _ _ _ _ _ _ e1 _ => rw [e] at e1; simp at e1
      obtain ⟨d', e2, e3, e4, e5⟩ := this
      rcases ih (hr.step o (hl o (by simp))) e e2 (fun y hy => hl y (by simp [hy])) with
        ⟨x2, d2, f1, f2, f3, f4, f5⟩ | ⟨l1, o', l2, x1, d1, rfl, f1, f2, f3, f4, f5, f6, f7⟩
      · exact Or.inl ⟨x2, d2, f1, f2, f3.trans e3, f4.trans e4, f5.trans e5⟩
      · exact Or.inr ⟨o :: l1, o', l2, x1, d1, rfl, f1, f2, f3.trans e3, f4.trans e4,
          f5.trans e5, f6, f7⟩
