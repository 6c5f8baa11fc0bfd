import Verif.Proofs.TrHist
import Verif.Props.Demo
/-
Properties C37–C42: transmission protocols.
-/
variable {c : Cfg} {w : World}
set_option maxRecDepth 10000

/- Specification -/
namespace Spec

/-- the block a protocol names -/
def blockOf : Protocol → Option Block
  | .atBlock b => some b
  | .atBlockWithReset b => some b
  | .onConsent _ _ => none
  | .onConsentAtBlock _ _ b => some b

/-- the accounts whose consent counts and how many are needed -/
def consentOf : Protocol → Option (List AccountId × Nat)
  | .atBlock _ => none
  | .atBlockWithReset _ => none
  | .onConsent l t => some (l, t)
  | .onConsentAtBlock l t _ => some (l, t)

/-- the operations that deliver the NFT `n` to its recipient: the block hook and a consent -/
def Delivers (n : NFTId) (o : Op) : Prop :=
  o = .hookTr ∨ ∃ a, o = .call (.signed a) (.tr (.addConsent n))

/-- the owner's cancellation -/
def Removes (n : NFTId) (owner : AccountId) (o : Op) : Prop :=
  o = .call (.signed owner) (.tr (.remove n))

/-- no longer removable at block `now` -/
def Irrevocable (now : Block) : Cancellation → Prop
  | .none => True
  | .untilBlock b => b < now
  | .anytime => False

/-- runs of the block hook in a sequence of operations -/
def hookRuns (l : List Op) : Nat := l.countP fun o => match o with
  | .hookTr => true
  | _ => false

end Spec

theorem Spec.blockOf_eq (p : Protocol) : Spec.blockOf p = TrM.endBlock p := by cases p <;> rfl
theorem Spec.consentOf_eq (p : Protocol) : Spec.consentOf p = TrM.consentData p := by cases p <;> rfl

/- C37 -/

/-- While an NFT is in transmission its owner, recipient and cancellation terms do not change.  The
transmission ends by one operation: the owner's removal, after which the owner is the same, or
delivery, after which the recipient owns it. -/
theorem C37 (hc : c.Ok) (hr : Reach c w) {n : NFTId} {x : Transmission} {d : NFTData}
    (hx : w.tr.trans.get n = some x) (hd : w.nfts.get n = some d) (l : List Op)
    (hl : ∀ o ∈ l, o.Ok c) :
    (∃ x' d', (run c w l).tr.trans.get n = some x' ∧ (run c w l).nfts.get n = some d' ∧
      x'.recipient = x.recipient ∧ x'.cancellation = x.cancellation ∧ d'.owner = d.owner) ∨
    ∃ l1 o l2 d1, l = l1 ++ o :: l2 ∧ (run c w (l1 ++ [o])).tr.trans.get n = none ∧
      (run c w (l1 ++ [o])).nfts.get n = some d1 ∧ d1.st.transmission = false ∧
      (Spec.Removes n d.owner o ∧ d1.owner = d.owner ∨
       Spec.Delivers n o ∧ d1.owner = x.recipient) := by
  rcases run_tr_move hc hr hx hd l hl with h | ⟨l1, o, l2, x1, d1, rfl, f1, f2, f3, f4, f5, f6, f7⟩
  · exact Or.inl h
  · refine Or.inr ⟨l1, o, l2, ?_⟩
    have e : run c w (l1 ++ [o]) = step c (run c w l1) o := by rw [run_append]; rfl
    rw [e]
    cases f6 with
    | stay e1 => rw [f7] at e1; simp at e1
    | reset _ _ e1 => rw [f7] at e1; simp at e1
    | removed _ _ e2 => exact ⟨_, rfl, f7, e2, rfl, Or.inl ⟨by rw [← f5]; rfl, f5⟩⟩
    | hook _ _ _ _ e2 => exact ⟨_, rfl, f7, e2, rfl, Or.inr ⟨Or.inl rfl, f3⟩⟩
    | consent _ _ _ _ _ _ _ _ e2 => exact ⟨_, rfl, f7, e2, rfl, Or.inr ⟨Or.inr ⟨_, rfl⟩, f3⟩⟩

/-- account 1 gives NFT 0 to account 2 at block 3 -/
abbrev timed : List Op := [.tick, Demo.mint1, Demo.by_ 1 (.tr (.set 0 2 (.atBlock 3) .anytime))]
/-- account 1 gives NFT 0 to account 2 when two of 3, 4, 5 agree, not before block 3 -/
abbrev agreed : List Op :=
  [.tick, Demo.mint1, Demo.by_ 1 (.tr (.set 0 2 (.onConsentAtBlock [3, 4, 5] 2 3) .none))]

example : Reach Demo.cfg (Demo.at_ timed) ∧
    ((Demo.at_ timed).tr.trans.get 0).map (·.recipient) = some 2 ∧
    ((Demo.at_ (timed ++ [.tick, .hookTr])).nfts.get 0).map (·.owner) = some 1 ∧
    ((Demo.at_ (timed ++ [.tick, .tick, .hookTr])).nfts.get 0).map (·.owner) = some 2 ∧
    ((Demo.at_ (timed ++ [.tick, .tick, .hookTr])).tr.trans.get 0) = none ∧
    ((Demo.at_ (timed ++ [.tick, Demo.by_ 1 (.tr (.remove 0))])).tr.trans.get 0) = none :=
  ⟨Demo.reach _ (by decide), by decide, by decide, by decide, by decide, by decide⟩

/- C38 -/

/-- A transmission that ends other than by the owner's removal does so at or after the block its
protocol names. -/
theorem C38 (hc : c.Ok) (hr : Reach c w) (o : Op) (ho : o.Ok c) {n : NFTId} {x : Transmission}
    {d : NFTData} {b : Block} (hx : w.tr.trans.get n = some x) (hd : w.nfts.get n = some d)
    (hb : Spec.blockOf x.protocol = some b) (hgone : (step c w o).tr.trans.get n = none)
    (hno : ¬ Spec.Removes n d.owner o) : b ≤ w.now := by
  rw [Spec.blockOf_eq] at hb
  cases step_tr_move hc hr o ho hx hd with
  | stay e1 => rw [hgone] at e1; simp at e1
  | reset _ _ e1 => rw [hgone] at e1; simp at e1
  | removed => exact absurd rfl hno
  | hook _ h e => rw [hb] at e; simp at e; subst e; exact h
  | consent _ _ _ _ _ h => exact h b hb

/-- Before its block the NFT has not changed hands: as long as the block lies ahead, the owner is the
old one. -/
theorem C38_owner (hc : c.Ok) (hr : Reach c w) (o : Op) (ho : o.Ok c) {n : NFTId} {x : Transmission}
    {d d' : NFTData} {b : Block} (hx : w.tr.trans.get n = some x) (hd : w.nfts.get n = some d)
    (hb : Spec.blockOf x.protocol = some b) (hlt : w.now < b)
    (hd' : (step c w o).nfts.get n = some d') : d'.owner = d.owner := by
  rw [Spec.blockOf_eq] at hb
  cases step_tr_move hc hr o ho hx hd with
  | stay _ e2 e3 => rw [hd'] at e2; simp at e2; subst e2; exact e3
  | reset _ _ _ e2 => rw [hd'] at e2; simp at e2; subst e2; rfl
  | removed _ _ e2 => rw [hd'] at e2; simp at e2; subst e2; rfl
  | hook _ h e => rw [hb] at e; simp at e; subst e; omega
  | consent _ _ _ _ _ h => have := h b hb; omega

example : Reach Demo.cfg (Demo.at_ agreed) ∧
    ((Demo.at_ agreed).tr.trans.get 0).map (fun x => Spec.blockOf x.protocol) = some (some 3) ∧
    ((Demo.at_ (agreed ++ [Demo.by_ 3 (.tr (.addConsent 0)), Demo.by_ 4 (.tr (.addConsent 0)), .tick,
      .hookTr])).nfts.get 0).map (·.owner) = some 1 ∧
    ((Demo.at_ (agreed ++ [Demo.by_ 3 (.tr (.addConsent 0)), .tick, .tick,
      Demo.by_ 4 (.tr (.addConsent 0))])).nfts.get 0).map (·.owner) = some 2 :=
  ⟨Demo.reach _ (by decide), by decide, by decide, by decide⟩

/- C39 -/

/-- When an NFT under a consent protocol is delivered, at least `t` distinct accounts of its list
have consented since the protocol was set. -/
theorem C39 (hc : c.Ok) (hr : Reach c w) (o : Op) (ho : o.Ok c) {n : NFTId} {x : Transmission}
    {d : NFTData} {l : List AccountId} {t : Nat} (hx : w.tr.trans.get n = some x)
    (hd : w.nfts.get n = some d) (hp : Spec.consentOf x.protocol = some (l, t))
    (hgone : (step c w o).tr.trans.get n = none) (hno : ¬ Spec.Removes n d.owner o) :
    (consentsSince n (step c w o).evs).Nodup ∧
    (∀ a ∈ consentsSince n (step c w o).evs, a ∈ l) ∧
    t ≤ (consentsSince n (step c w o).evs).length := by
  rw [Spec.consentOf_eq] at hp
  have hi := hr.inv hc
  have hh := hr.trHist hc n x (l, t) hx hp
  cases step_tr_move hc hr o ho hx hd with
  | stay e1 => rw [hgone] at e1; simp at e1
  | reset _ _ e1 => rw [hgone] at e1; simp at e1
  | removed => exact absurd rfl hno
  | hook hm _ _ =>
    have e : consentsSince n (step c w .hookTr).evs = consentsSince n w.evs :=
      (step_evs w .hookTr).consentsSince (by simp) (by simp)
    rw [e]
    exact hh.2 (Queue.mem_ids.2 ⟨_, hm⟩)
  | @consent a y h1 h2 h3 h4 h5 _ hev =>
    rw [hp] at h1; simp at h1; subst h1
    rw [hev]
    simp only [consentsSince, if_true, hh.1 h2]
    have hall : ((w.tr.consents.get n).getD []).Nodup ∧
        ∀ b ∈ (w.tr.consents.get n).getD [], b ∈ l := by
      cases hl : w.tr.consents.get n with
      | none => simp
      | some l' =>
        obtain ⟨x', y2, e1, e2, e3, e4, e5⟩ := hi.tr.cons n l' hl
        rw [hx] at e1; simp at e1; subst e1
        rw [hp] at e2; simp at e2; subst e2
        exact ⟨e3, e4⟩
    refine ⟨?_, ?_, ?_⟩
    · exact List.nodup_cons.2 ⟨fun hm => h4 (List.mem_reverse.1 hm),
        by simpa [List.Nodup, List.pairwise_reverse, ne_comm] using hall.1⟩
    · intro b hb
      simp at hb
      rcases hb with rfl | hb
      · exact h3
      · exact hall.2 b (by simpa using hb)
    · simpa using h5

/-- The recorded events are the calls: a consent of `a` is recorded only when `a` itself calls
`add_consent`, and setting a protocol is recorded, so that the count of `C39` starts afresh. -/
theorem C39_events (hc : c.Ok) (hr : Reach c w) (o : Op) (ho : o.Ok c) (n : NFTId) :
    (∃ l, (step c w o).evs = l ++ w.evs ∧
      ∀ a, Ev.consentAdded n a ∈ l → o = .call (.signed a) (.tr (.addConsent n))) ∧
    (w.tr.trans.get n = none → (step c w o).tr.trans.get n ≠ none →
      (step c w o).evs = .protocolSet n :: w.evs) := by
  constructor
  · obtain ⟨l, e, h⟩ := step_evs (c := c) w o
    exact ⟨l, e, fun a ha => h _ ha⟩
  · intro h0 h1
    rcases step_tr_case hc hr o ho with ⟨a, y, rfl, ha, h⟩ | rfl | ⟨e, _⟩
    · by_cases hn : n = y.target
      · generalize step c w (.call (.signed a) (.tr y)) = w' at *
        cases y with
        | set m r p k =>
          simp only [TrM.Call.target] at hn; subst hn
          simp only [TrM.call, TrM.set] at h
          inv_ok at h
          obtain ⟨d, q, b, _, _, _, _, _, _, _, _, _, _, _, _, _, _, _, _, _, _, _, _, rfl⟩ := h
          rfl
        | remove m =>
          simp only [TrM.Call.target] at hn; subst hn
          simp only [TrM.call, TrM.remove] at h
          inv_ok at h
          obtain ⟨d', t, _, _, _, ht, _⟩ := h
          rw [h0] at ht; simp at ht
        | resetTimer m b =>
          simp only [TrM.Call.target] at hn; subst hn
          simp only [TrM.call, TrM.resetTimer] at h
          inv_ok at h
          obtain ⟨d', t, q, _, _, _, ht, _⟩ := h
          rw [h0] at ht; simp at ht
        | addConsent m =>
          simp only [TrM.Call.target] at hn; subst hn
          obtain ⟨d', t, q, _, _, ht, _⟩ := TrM.addConsent_ok h
          rw [h0] at ht; simp at ht
      · rw [(TrM.call_other h hn).1] at h1
        exact absurd h0 h1
    · have hi := hr.inv hc
      obtain ⟨s, _⟩ := TrM.hook_exact (c := c) hi.tr hi.good
      have : n ∉ Queue.ids (TrM.served c w) := by
        intro hm
        obtain ⟨t, _, ht, _⟩ := s.on n hm
        rw [h0] at ht; simp at ht
      rw [show (step c w .hookTr).tr.trans.get n = _ from (s.off n this).1] at h1
      exact absurd h0 h1
    · rw [e] at h1
      exact absurd h0 h1

example : Reach Demo.cfg (Demo.at_ (agreed ++ [Demo.by_ 3 (.tr (.addConsent 0)),
      Demo.by_ 4 (.tr (.addConsent 0)), .tick, .tick])) ∧
    consentsSince 0 (Demo.at_ (agreed ++ [Demo.by_ 3 (.tr (.addConsent 0)),
      Demo.by_ 4 (.tr (.addConsent 0)), .tick, .tick, .hookTr])).evs = [4, 3] ∧
    (Demo.at_ (agreed ++ [Demo.by_ 3 (.tr (.addConsent 0)),
      Demo.by_ 4 (.tr (.addConsent 0)), .tick, .tick, .hookTr])).tr.trans.get 0 = none :=
  ⟨Demo.reach _ (by decide), by decide, by decide⟩

/- C40 -/

/-- Once a transmission is irrevocable, it can only end by delivery to the recipient. -/
theorem C40 (hc : c.Ok) (hr : Reach c w) {n : NFTId} {x : Transmission} {d : NFTData}
    (hx : w.tr.trans.get n = some x) (hd : w.nfts.get n = some d)
    (hk : Spec.Irrevocable w.now x.cancellation) (l : List Op) (hl : ∀ o ∈ l, o.Ok c) :
    (∃ x' d', (run c w l).tr.trans.get n = some x' ∧ (run c w l).nfts.get n = some d' ∧
      d'.st.transmission = true ∧ x'.recipient = x.recipient ∧ d'.owner = d.owner) ∨
    ∃ l1 o l2 d1, l = l1 ++ o :: l2 ∧ Spec.Delivers n o ∧
      (run c w (l1 ++ [o])).nfts.get n = some d1 ∧ d1.owner = x.recipient := by
  rcases run_tr_move hc hr hx hd l hl with
    ⟨x', d', e1, e2, e3, _, e5⟩ | ⟨l1, o, l2, x1, d1, rfl, f1, f2, f3, f4, f5, f6, f7⟩
  · have hi := (hr.run l hl).inv hc
    exact Or.inl ⟨x', d', e1, e2, ((hi.good n).nft d' e2).trans.2
      (by show (run c w l).tr.trans.get n ≠ none; rw [e1]; simp), e3, e5⟩
  · refine Or.inr ⟨l1, o, l2, ?_⟩
    have e : run c w (l1 ++ [o]) = step c (run c w l1) o := by rw [run_append]; rfl
    rw [e]
    cases f6 with
    | stay e1 => rw [f7] at e1; simp at e1
    | reset _ _ e1 => rw [f7] at e1; simp at e1
    | removed h =>
      exfalso
      have := run_now_le (c := c) w l1
      rw [f4] at h
      cases hx' : x.cancellation <;> rw [hx'] at hk h <;> simp [Spec.Irrevocable, TrM.cancellable] at hk h
      omega
    | hook _ _ _ _ e2 => exact ⟨_, rfl, Or.inl rfl, e2, f3⟩
    | consent _ _ _ _ _ _ _ _ e2 => exact ⟨_, rfl, Or.inr ⟨_, rfl⟩, e2, f3⟩

example : Reach Demo.cfg (Demo.at_ agreed) ∧
    ((Demo.at_ agreed).tr.trans.get 0).map (·.cancellation) = some .none ∧
    ((Demo.at_ (agreed ++ [Demo.by_ 1 (.tr (.remove 0))])).tr.trans.get 0).map (·.recipient) = some 2 :=
  ⟨Demo.reach _ (by decide), by decide, by decide⟩

/- C41 -/

/-- A due transmission at position `i` of the schedule is delivered during the first
`i / max 1 ActionsInBlockLimit + 1` runs of the block hook, whatever else happens between, unless the
owner removes it or resets its timer. -/
theorem C41 (hc : c.Ok) (hr : Reach c w) {n : NFTId} {b : Block} {i : Nat} {x : Transmission}
    {d : NFTData} (hx : w.tr.trans.get n = some x) (hd : w.nfts.get n = some d)
    (hi : w.tr.queue[i]? = some (n, b)) (hb : b ≤ w.now) (l : List Op) (hl : ∀ o ∈ l, o.Ok c)
    (hno : ∀ o ∈ l, ¬ Spec.Removes n d.owner o ∧
      ∀ e, o ≠ .call (.signed d.owner) (.tr (.resetTimer n e)))
    (hk : i / max 1 c.trActions < Spec.hookRuns l) :
    ∃ l1 l2 d1, l = l1 ++ .hookTr :: l2 ∧ Spec.hookRuns l1 ≤ i / max 1 c.trActions ∧
      (run c w (l1 ++ [.hookTr])).tr.trans.get n = none ∧
      (run c w (l1 ++ [.hookTr])).nfts.get n = some d1 ∧ d1.owner = x.recipient := by
  replace hi : Queue.At w.tr.queue n b i := Queue.At.iff.2 hi
  induction l generalizing w i x d with
  | nil => simp [Spec.hookRuns] at hk
  | cons o t ih =>
    have hv := hr.inv hc
    have ho := hl o (by simp)
    obtain ⟨n1, n2⟩ := hno o (by simp)
    have hmove := step_tr_move hc hr o ho hx hd
    have cont : ∀ j, (o = .hookTr → max 1 c.trActions ≤ i ∧ j = i - max 1 c.trActions) →
        (o ≠ .hookTr → j ≤ i) → (o = .hookTr → n ∉ Queue.ids (TrM.served c w)) →
        Queue.At (step c w o).tr.queue n b j → ∃ l1 l2 d1, o :: t = l1 ++ .hookTr :: l2 ∧
          Spec.hookRuns l1 ≤ i / max 1 c.trActions ∧
          (run c w (l1 ++ [.hookTr])).tr.trans.get n = none ∧
          (run c w (l1 ++ [.hookTr])).nfts.get n = some d1 ∧ d1.owner = x.recipient := by
      intro j hj1 hj2 hserv hat
      have hK : 0 < max 1 c.trActions := by omega
      have hj : j / max 1 c.trActions + Spec.hookRuns [o] ≤ i / max 1 c.trActions := by
        by_cases e : o = .hookTr
        · subst e
          obtain ⟨h1, rfl⟩ := hj1 rfl
          have := Nat.sub_add_cancel h1
          have h2 : i / max 1 c.trActions = (i - max 1 c.trActions) / max 1 c.trActions + 1 := by
            conv_lhs => rw [← this]
            rw [Nat.add_div_right _ hK]
          simp [Spec.hookRuns, h2]
        · have h1 := Nat.div_le_div_right (c := max 1 c.trActions) (hj2 e)
          have : Spec.hookRuns [o] = 0 := by
            cases o <;> first | rfl | exact absurd rfl e
          omega
      have hcount : Spec.hookRuns (o :: t) = Spec.hookRuns [o] + Spec.hookRuns t := by
        simp only [Spec.hookRuns, List.countP_cons, List.countP_nil]; omega
      obtain ⟨x', d', e1, e2, e3, e4⟩ : ∃ x' d', (step c w o).tr.trans.get n = some x' ∧
          (step c w o).nfts.get n = some d' ∧ x'.recipient = x.recipient ∧ d'.owner = d.owner := by
        cases hmove with
        | stay e1 e2 e3 => exact ⟨_, _, e1, e2, rfl, e3⟩
        | reset => exact absurd rfl (n2 _)
        | removed => exact absurd rfl n1
        | hook hm _ _ e1 e2 =>
          obtain ⟨x', hx', _⟩ := ((hr.step _ ho).inv hc).tr.inQ n b hat.mem
          rw [e1] at hx'; simp at hx'
        | consent _ h => exact absurd (Queue.mem_ids.2 ⟨b, hi.mem⟩) h
      obtain ⟨l1, l2, d1, rfl, f0, f1, f2, f3⟩ := ih (hr.step o ho) e1 e2
        (Nat.le_trans hb (step_now_le w o)) (fun y hy => hl y (by simp [hy]))
        (by rw [e4]; exact fun y hy => hno y (by simp [hy])) (by omega) hat
      refine ⟨o :: l1, l2, d1, rfl, ?_, f1, f2, f3.trans e3⟩
      have : Spec.hookRuns (o :: l1) = Spec.hookRuns [o] + Spec.hookRuns l1 := by
        simp only [Spec.hookRuns, List.countP_cons, List.countP_nil]; omega
      omega
    rcases step_tr_at hc hr o ho hd hi hb n2 n1 with ⟨rfl, hm⟩ | ⟨hm, rfl, hk', hat⟩ | ⟨hne, j, hj, hat⟩
    · obtain ⟨x', d', e1, e2, e3, e4⟩ := (TrM.hook_exact (c := c) hv.tr hv.good).1.on n hm
      rw [hx] at e1; simp at e1; subst e1
      exact ⟨[], t, _, rfl, Nat.zero_le _, e3, e4, rfl⟩
    · exact cont _ (fun _ => ⟨hk', rfl⟩) (fun h => absurd rfl h) (fun _ => hm) hat
    · exact cont j (fun h => absurd h hne) (fun _ => hj) (fun h => absurd h hne) hat

/-- The hook never reports a failed transmission. -/
theorem C41_no_error (hc : c.Ok) (hr : Reach c w) (n : NFTId) : Ev.transmissionError n ∉ w.evs := by
  induction hr with
  | init h => rw [h.evs]; simp
  | @step w o hr ho ih =>
    obtain ⟨l, e, h⟩ := step_evs (c := c) w o
    rw [e]
    intro hm
    rcases List.mem_append.1 hm with hm | hm
    · obtain rfl : o = .hookTr := h _ hm
      have hi := hr.inv hc
      have hev := (TrM.hook_exact (c := c) hi.tr hi.good).1.evs
      have e' : l ++ w.evs = _ := e.symm.trans hev
      rw [List.append_cancel_right e'] at hm
      simp at hm
    · exact ih hm

example : Reach Demo.cfg (Demo.at_ (timed ++ [.tick, .tick])) ∧
    (Demo.at_ (timed ++ [.tick, .tick])).tr.queue[0]? = some (0, 3) ∧
    (Demo.at_ (timed ++ [.tick, .tick])).now = 3 ∧ Spec.hookRuns [.hookAuc, .hookTr] = 1 :=
  ⟨Demo.reach _ (by decide), by decide, by decide, rfl⟩

/- C42 -/

/-- The schedule: sorted by block, no NFT twice, within the limit. -/
theorem C42_sorted (hc : c.Ok) (hr : Reach c w) :
    w.tr.queue.Pairwise (fun x y => x.2 ≤ y.2) ∧ (w.tr.queue.map Prod.fst).Nodup ∧
    w.tr.queue.length ≤ c.trLimit :=
  let h := (hr.inv hc).tr
  ⟨h.wf.sorted, h.wf.nd, h.len⟩

/-- What is scheduled: exactly the timed protocols at their block, and those consent protocols with a
block whose threshold was reached. -/
theorem C42_scheduled (hc : c.Ok) (hr : Reach c w) (n : NFTId) (b : Block) :
    (n, b) ∈ w.tr.queue ↔ ∃ x, w.tr.trans.get n = some x ∧
      (x.protocol = .atBlock b ∨ x.protocol = .atBlockWithReset b ∨
       ∃ l t, x.protocol = .onConsentAtBlock l t b ∧ t ≤ (consentsSince n w.evs).length) := by
  have h := (hr.inv hc).tr
  have hh := hr.trHist hc
  constructor
  · intro hm
    obtain ⟨x, h1, h2, _⟩ := h.inQ n b hm
    refine ⟨x, h1, ?_⟩
    cases hp : x.protocol <;> rw [hp] at h2 <;> simp [TrM.endBlock] at h2 <;> subst h2
    · exact Or.inl rfl
    · exact Or.inr (Or.inl rfl)
    · rename_i l t _
      exact Or.inr (Or.inr ⟨l, t, rfl,
        ((hh n x (l, t) h1 (by rw [hp]; rfl)).2 (Queue.mem_ids.2 ⟨_, hm⟩)).2.2⟩)
  · rintro ⟨x, h1, h2 | h2 | ⟨l, t, h2, h3⟩⟩
    · exact h.mem n x b h1 (by rw [h2]; rfl)
    · exact h.mem n x b h1 (by rw [h2]; rfl)
    · by_contra hm
      have hq : n ∉ Queue.ids w.tr.queue := by
        intro hq
        obtain ⟨b', hb'⟩ := Queue.mem_ids.1 hq
        obtain ⟨x', e1, e2, _⟩ := h.inQ n b' hb'
        rw [h1] at e1; simp at e1; subst e1
        rw [h2] at e2; simp [TrM.endBlock] at e2; subst e2
        exact hm hb'
      have hcd : TrM.consentData x.protocol = some (l, t) := by rw [h2]; rfl
      rw [(hh n x (l, t) h1 hcd).1 hq] at h3
      cases hl : w.tr.consents.get n with
      | none =>
        rw [hl] at h3; simp at h3
        have := (h.proto n x (l, t) h1 hcd).2.1
        simp at this; omega
      | some l' =>
        obtain ⟨x', y, e1, e2, _, _, e5⟩ := h.cons n l' hl
        rw [h1] at e1; simp at e1; subst e1
        rw [hcd] at e2; simp at e2; subst e2
        rw [hl] at h3; simp at h3 e5; omega

/-- Consents on record belong to a consent protocol, are distinct accounts of its list, and fewer than
its threshold. -/
theorem C42_consents (hc : c.Ok) (hr : Reach c w) {n : NFTId} {s : List AccountId}
    (h : w.tr.consents.get n = some s) :
    ∃ x l t, w.tr.trans.get n = some x ∧ Spec.consentOf x.protocol = some (l, t) ∧
      s.Nodup ∧ (∀ a ∈ s, a ∈ l) ∧ s.length < t := by
  obtain ⟨x, y, h1, h2, h3, h4, h5⟩ := (hr.inv hc).tr.cons n s h
  exact ⟨x, y.1, y.2, h1, by rw [Spec.consentOf_eq, h2], h3, h4, h5⟩

example : Reach Demo.cfg (Demo.at_ (agreed ++ [Demo.by_ 3 (.tr (.addConsent 0))])) ∧
    (Demo.at_ (agreed ++ [Demo.by_ 3 (.tr (.addConsent 0))])).tr.consents.get 0 = some [3] ∧
    (Demo.at_ (agreed ++ [Demo.by_ 3 (.tr (.addConsent 0))])).tr.queue = [] ∧
    (Demo.at_ (agreed ++ [Demo.by_ 3 (.tr (.addConsent 0)),
      Demo.by_ 5 (.tr (.addConsent 0))])).tr.queue = [(0, 3)] :=
  ⟨Demo.reach _ (by decide), by decide, by decide, by decide⟩

example := C37 Demo.cfg_ok (Demo.reach timed (by decide)) (n := 0) (x := _) (d := _) rfl rfl
  [.tick, .tick, .hookTr] (by decide)

example := C38 Demo.cfg_ok (Demo.reach (timed ++ [.tick, .tick]) (by decide)) .hookTr (by decide) (n := 0)
  (x := ⟨2, .atBlock 3, .anytime⟩) (d := _) (b := 3) rfl rfl rfl rfl (by simp [Spec.Removes])

example := C39 Demo.cfg_ok (Demo.reach (agreed ++ [Demo.by_ 3 (.tr (.addConsent 0)),
    Demo.by_ 4 (.tr (.addConsent 0)), .tick, .tick]) (by decide)) .hookTr (by decide) (n := 0)
  (x := ⟨2, .onConsentAtBlock [3, 4, 5] 2 3, .none⟩) (d := _) (l := [3, 4, 5]) (t := 2) rfl rfl rfl rfl
  (by simp [Spec.Removes])

example := C41 Demo.cfg_ok (Demo.reach (timed ++ [.tick, .tick]) (by decide)) (n := 0) (b := 3) (i := 0)
  (x := _) (d := _) rfl rfl rfl (by decide) [.hookAuc, .hookTr] (by decide)
  (by simp [Spec.Removes]) (by decide)

example := (C42_scheduled Demo.cfg_ok (Demo.reach timed (by decide)) 0 3).1 (by decide)
