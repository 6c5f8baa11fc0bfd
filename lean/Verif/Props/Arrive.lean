import Verif.Props.Transmission
import Verif.Props.Hire
/-
C151: whether and when an irrevocable transmission arrives.
-/
open Spec

variable {c : Cfg} {w : World}

namespace Arrive

/-- what the owner could do against it -/
def against (n : NFTId) (a : AccountId) : Op → Bool
  | .call (.signed b) (.tr (.remove m)) => decide (b = a ∧ m = n)
  | .call (.signed b) (.tr (.resetTimer m _)) => decide (b = a ∧ m = n)
  | _ => false

theorem against_iff {n : NFTId} {a : AccountId} {o : Op} : against n a o = true ↔
    o = .call (.signed a) (.tr (.remove n)) ∨ ∃ e, o = .call (.signed a) (.tr (.resetTimer n e)) := by
  unfold against
  split
  · simp
  · simp
  · rename_i h1 h2
    simp only [Bool.false_eq_true, false_iff, not_or, not_exists]
    exact ⟨fun e => h1 _ _ e, fun x e => h2 _ _ _ e⟩

theorem cancellable_not {now : Block} {k : Cancellation} (h : Irrevocable now k) : TrM.cancellable now k = false := by
  cases k with
  | none => rfl
  | untilBlock b => simp only [Irrevocable] at h; simp [TrM.cancellable]; omega
  | anytime => exact h.elim

/-- what the owner tries against an irrevocable transmission at a fixed block has no effect -/
theorem no_effect {n : NFTId} {x : Transmission} {d : NFTData} {b : Block} (hx : w.tr.trans.get n = some x)
    (hd : w.nfts.get n = some d) (hk : Irrevocable w.now x.cancellation) (hp : x.protocol = .atBlock b) {a : AccountId} {o : Op}
    (h : against n a o = true) : step c w o = w := by
  have key : ∀ y, (∀ w', dispatch c (.tr y) (.signed a) w ≠ .ok w') → step c w (.call (.signed a) (.tr y)) = w := fun y hy => by
    simp only [step]
    cases e : dispatch c (.tr y) (.signed a) w with
    | error => rfl
    | ok w' => exact absurd e (hy w')
  rcases against_iff.1 h with rfl | ⟨e, rfl⟩
  · refine key _ fun w' h => ?_
    simp only [dispatch, signedCall, TrM.call, TrM.remove] at h
    inv_ok at h
    obtain ⟨d', h1, h2, h3, t, h4, h5, _⟩ := h
    rw [hx] at h4; simp at h4; subst h4
    rw [cancellable_not hk] at h5; simp at h5
  · refine key _ fun w' h => ?_
    simp only [dispatch, signedCall, TrM.call, TrM.resetTimer] at h
    inv_ok at h
    obtain ⟨d', t, _, h1, h2, h3, h4, h5, _⟩ := h
    rw [hx] at h4; simp at h4; subst h4
    rw [hp] at h5; simp [TrM.canReset] at h5

theorem later {now now' : Block} {k : Cancellation} (h : Irrevocable now k) (hn : now ≤ now') : Irrevocable now' k := by
  cases k with
  | none => trivial
  | untilBlock b => simp only [Irrevocable] at h ⊢; omega
  | anytime => exact h

/-- the transmission `x` of NFT `n` of `a` is there -/
def There (w : World) (n : NFTId) (x : Transmission) (a : AccountId) : Prop :=
  w.tr.trans.get n = some x ∧ ∃ d, w.nfts.get n = some d ∧ d.owner = a

/-- it stays, or the hook delivers -/
theorem stays (hc : c.Ok) (hr : Reach c w) {n : NFTId} {x : Transmission} {a : AccountId} {b : Block} (h : There w n x a)
    (hk : Irrevocable w.now x.cancellation) (hp : x.protocol = .atBlock b) (l : List Op) (hl : ∀ o ∈ l, o.Ok c) :
    (∀ p q, l = p ++ q → There (run c w p) n x a) ∨
    ∃ l1 l2 d, l = l1 ++ .hookTr :: l2 ∧ (run c w (l1 ++ [.hookTr])).nfts.get n = some d ∧ d.owner = x.recipient ∧
      b ≤ (run c w l1).now ∧ (run c w (l1 ++ [.hookTr])).tr.trans.get n = none := by
  induction l generalizing w with
  | nil => exact Or.inl fun p q e => by simp at e; rw [e.1]; exact h
  | cons o t ih =>
    obtain ⟨hx, d, hd, ha⟩ := h
    have ho := hl o (by simp)
    have next : There (step c w o) n x a → _ := fun h' =>
      ih (hr.step o ho) h' (later hk (step_now_le w o)) fun o ho => hl o (by simp [ho])
    have fin : There (step c w o) n x a →
        (∀ p q, o :: t = p ++ q → There (run c w p) n x a) ∨
        ∃ l1 l2 d, o :: t = l1 ++ .hookTr :: l2 ∧ (run c w (l1 ++ [.hookTr])).nfts.get n = some d ∧ d.owner = x.recipient ∧
          b ≤ (run c w l1).now ∧ (run c w (l1 ++ [.hookTr])).tr.trans.get n = none := fun h' => by
      rcases next h' with h1 | ⟨l1, l2, d', rfl, h1⟩
      · refine Or.inl fun p q e => ?_
        cases p with
        | nil => exact ⟨hx, d, hd, ha⟩
        | cons o' p =>
          simp at e
          obtain ⟨rfl, e⟩ := e
          exact h1 p q e
      · exact Or.inr ⟨o :: l1, l2, d', rfl, h1⟩
    have hm := step_tr_move hc hr o ho hx hd
    generalize hs : step c w o = w' at hm fin
    cases hm with
    | stay e1 e2 e3 => exact fin ⟨e1, _, e2, by rw [e3, ha]⟩
    | reset e1 => rw [hp] at e1; simp [TrM.canReset] at e1
    | removed e1 => rw [cancellable_not hk] at e1; simp at e1
    | @hook b' _ e1 e2 e3 e4 =>
      rw [hp] at e2; simp [TrM.endBlock] at e2; subst e2
      refine Or.inr ⟨[], t, { d with owner := x.recipient, st := { d.st with transmission := false } }, rfl, ?_, rfl, e1, ?_⟩
      · show (run c (step c w .hookTr) []).nfts.get n = _
        rw [hs]; exact e4
      · show (run c (step c w .hookTr) []).tr.trans.get n = none
        rw [hs]; exact e3
    | consent e1 => rw [hp] at e1; simp [TrM.consentData] at e1

/-- without what the owner tries in vain, the history is the same -/
theorem without {n : NFTId} {x : Transmission} {a : AccountId} {b : Block} (hk : Irrevocable w.now x.cancellation)
    (hp : x.protocol = .atBlock b) (l : List Op) (h : ∀ p q, l = p ++ q → There (run c w p) n x a) :
    ∃ l', hookRuns l' = hookRuns l ∧ (∀ o ∈ l', o ∈ l ∧ against n a o = false) ∧
      ∀ p' q', l' = p' ++ q' → ∃ p q, l = p ++ q ∧ run c w p' = run c w p := by
  induction l generalizing w with
  | nil => exact ⟨[], rfl, by simp, fun p' q' e => ⟨[], [], rfl, by simp at e; rw [e.1]⟩⟩
  | cons o t ih =>
    obtain ⟨l', h1, h2, h3⟩ := ih (w := step c w o) (later hk (step_now_le w o)) fun p q e => h (o :: p) q (by rw [e]; rfl)
    cases e : against n a o with
    | true =>
      obtain ⟨hx, d, hd, _⟩ := h [] (o :: t) rfl
      have hs : step c w o = w := no_effect hx hd hk hp e
      refine ⟨l', ?_, fun o' ho' => ⟨by simp [(h2 o' ho').1], (h2 o' ho').2⟩, fun p' q' e' => ?_⟩
      · rw [h1]
        rcases against_iff.1 e with rfl | ⟨_, rfl⟩ <;> simp [hookRuns]
      · obtain ⟨p, q, g1, g2⟩ := h3 p' q' e'
        rw [hs] at g2
        exact ⟨o :: p, q, by rw [g1]; rfl, by show _ = run c (step c w o) p; rw [hs]; exact g2⟩
    | false =>
      refine ⟨o :: l', ?_, fun o' ho' => ?_, fun p' q' e' => ?_⟩
      · simp only [hookRuns, List.countP_cons] at h1 ⊢
        rw [h1]
      · rcases List.mem_cons.1 ho' with rfl | ho'
        · exact ⟨by simp, e⟩
        · exact ⟨by simp [(h2 o' ho').1], (h2 o' ho').2⟩
      · cases p' with
        | nil => exact ⟨[], o :: t, rfl, rfl⟩
        | cons o' p' =>
          simp at e'
          obtain ⟨rfl, e'⟩ := e'
          obtain ⟨p, q, g1, g2⟩ := h3 p' q' e'
          exact ⟨o :: p, q, by rw [g1]; rfl, g2⟩

end Arrive

/-- **C151**, what holds of it: an irrevocable transmission at the fixed block `b` arrives, whatever anybody does or tries: once block `b`
has come, during the first `(SimultaneousTransmissionLimit - 1) / max 1 ActionsInBlockLimit + 1` runs of the hook.  Missing: the
same for transmissions that can be reset. -/
theorem C151_partial (hc : c.Ok) (hr : Reach c w) {n : NFTId} {x : Transmission} {d : NFTData} {b : Block}
    (hx : w.tr.trans.get n = some x) (hd : w.nfts.get n = some d) (hk : Irrevocable w.now x.cancellation)
    (hp : x.protocol = .atBlock b) (l1 l2 : List Op) (hl : ∀ o ∈ l1 ++ l2, o.Ok c) (hb : b ≤ (run c w l1).now)
    (hm : (c.trLimit - 1) / max 1 c.trActions < hookRuns l2) :
    ∃ la lb d1, l1 ++ l2 = la ++ .hookTr :: lb ∧ b ≤ (run c w la).now ∧
      (run c w (la ++ [.hookTr])).nfts.get n = some d1 ∧ d1.owner = x.recipient := by
  rcases Arrive.stays hc hr ⟨hx, d, hd, rfl⟩ hk hp (l1 ++ l2) hl with h | ⟨la, lb, d1, h1, h2, h3, h4, _⟩
  · have hr1 : Reach c (run c w l1) := hr.run l1 fun o ho => hl o (by simp [ho])
    have hnow : w.now ≤ (run c w l1).now := run_now_le w l1
    obtain ⟨hx1, d1, hd1, ho1⟩ := h l1 l2 rfl
    obtain ⟨l', g1, g2, g3⟩ := Arrive.without (c := c) (a := d.owner) (n := n) (Arrive.later hk hnow) hp l2 fun p q e => by
      rw [← run_append]; exact h (l1 ++ p) q (by rw [e, List.append_assoc])
    have hmem : (n, b) ∈ (run c w l1).tr.queue := (hr1.inv hc).tr.mem n x b hx1 (by rw [hp]; rfl)
    obtain ⟨i, hi, he⟩ := List.mem_iff_getElem.1 hmem
    have hlen := (hr1.inv hc).tr.len
    have hdiv : i / max 1 c.trActions ≤ (c.trLimit - 1) / max 1 c.trActions := Nat.div_le_div_right (by omega)
    obtain ⟨la, lb, d2, e1, _, e2, _⟩ := C41 hc hr1 hx1 hd1 (i := i) (by rw [← he]; exact List.getElem?_eq_getElem hi) hb l'
      (fun o ho => hl o (by simp [(g2 o ho).1])) (fun o ho => by
        have := (g2 o ho).2
        rw [ho1]
        constructor
        · intro e; rw [Arrive.against_iff.2 (Or.inl e)] at this; simp at this
        · intro e' e; rw [Arrive.against_iff.2 (Or.inr ⟨e', e⟩)] at this; simp at this) (by rw [g1]; omega)
    obtain ⟨p, q, e3, e4⟩ := g3 (la ++ [.hookTr]) lb (by rw [e1]; simp)
    rw [e4, ← run_append] at e2
    rw [(h (l1 ++ p) q (by rw [e3, List.append_assoc])).1] at e2
    simp at e2
  · exact ⟨la, lb, d1, h1, h4, h2, h3⟩

/-- C151 fails for every transmission that can be reset, on every chain whose maximal duration is at least two blocks: before its block
has come the owner can keep the NFT for as many blocks as they like, each with a run of the hook, also if it is irrevocable. -/
theorem C151_fails (hc : c.Ok) (hr : Reach c w) (hd2 : 2 ≤ c.trMaxDur) {n : NFTId} {x : Transmission} {d : NFTData} {b : Block}
    (hx : w.tr.trans.get n = some x) (hd : w.nfts.get n = some d) (hp : x.protocol = .atBlockWithReset b) (hb : w.now < b)
    (ho : ¬ c.pot d.owner) (N : Nat) :
    ∃ l : List Op, (∀ o ∈ l, o.Ok c) ∧ (∀ o ∈ l, ∀ g y, o = .call g y → g = .signed d.owner) ∧ hookRuns l = N ∧
      (run c w l).now = w.now + N ∧ ∃ x' d' b', (run c w l).tr.trans.get n = some x' ∧ (run c w l).nfts.get n = some d' ∧
        d'.owner = d.owner ∧ x'.recipient = x.recipient ∧ x'.cancellation = x.cancellation ∧ x'.protocol = .atBlockWithReset b' ∧
        (run c w l).now < b' := by
  induction N with
  | zero => exact ⟨[], by simp, by simp, rfl, rfl, x, d, b, hx, hd, rfl, rfl, rfl, hp, hb⟩
  | succ N ih =>
    obtain ⟨l, h1, h2, h3, h4, x1, d1, b1, g1, g2, g3, g4, g5, g6, g7⟩ := ih
    have hr1 := hr.run l h1
    obtain ⟨q, hq, _⟩ := C72_reset hc hr1 g1 g2 g6 (b := (run c w l).now + 2) (by omega) (by omega)
    generalize hw2 : ({ run c w l with
        tr := { (run c w l).tr with
          queue := q
          trans := (run c w l).tr.trans.insert n { x1 with protocol := .atBlockWithReset ((run c w l).now + 2) } } } : World) = w2 at hq
    have s1 : step c (run c w l) (.call (.signed d1.owner) (.tr (.resetTimer n ((run c w l).now + 2)))) = w2 := by
      simp [step, hq, orSame]
    have hok1 : Op.Ok c (.call (.signed d1.owner) (.tr (.resetTimer n ((run c w l).now + 2)))) := by rw [g3]; exact ho
    have hr2 : Reach c w2 := by rw [← s1]; exact hr1.step _ hok1
    have k1 : w2.tr.trans.get n = some { x1 with protocol := .atBlockWithReset ((run c w l).now + 2) } := by
      rw [← hw2]; simp
    have k2 : w2.nfts.get n = some d1 := by rw [← hw2]; exact g2
    have k3 : w2.now = (run c w l).now := by rw [← hw2]
    have hr3 : Reach c (step c w2 .tick) := hr2.step .tick trivial
    have m1 : (step c w2 .tick).tr.trans.get n = some { x1 with protocol := .atBlockWithReset ((run c w l).now + 2) } := k1
    have m2 : (step c w2 .tick).nfts.get n = some d1 := k2
    have m3 : (step c w2 .tick).now = (run c w l).now + 1 := by rw [← k3]; rfl
    have hmove := step_tr_move hc hr3 .hookTr trivial m1 m2
    have m4 : (step c (step c w2 .tick) .hookTr).now = (run c w l).now + 1 := by
      rw [← m3]; exact (step_now _ _).resolve_right fun h => by simp at h
    have run3 : run c w (l ++ [.call (.signed d1.owner) (.tr (.resetTimer n ((run c w l).now + 2))), .tick, .hookTr]) =
        step c (step c w2 .tick) .hookTr := by
      rw [run_append]
      show step c (step c (step c (run c w l) _) .tick) .hookTr = _
      rw [s1]
    refine ⟨l ++ [.call (.signed d1.owner) (.tr (.resetTimer n ((run c w l).now + 2))), .tick, .hookTr], ?_, ?_, ?_, ?_, ?_⟩
    · intro o ho'
      rcases List.mem_append.1 ho' with h | h
      · exact h1 o h
      · simp at h; rcases h with rfl | rfl | rfl
        · exact hok1
        · trivial
        · trivial
    · intro o ho' g y e
      rcases List.mem_append.1 ho' with h | h
      · exact h2 o h g y e
      · subst e; simp at h; rw [h.1, g3]
    · simp only [hookRuns, List.countP_append] at h3 ⊢
      rw [h3]; rfl
    · rw [run3, m4, h4]; omega
    · rw [run3]
      generalize hw4 : step c (step c w2 .tick) .hookTr = w4 at hmove m4
      generalize hh : (run c w l).now = now at *
      cases hmove with
      | stay e1 e2 e3 => exact ⟨_, _, now + 2, e1, e2, by rw [e3, g3], g4, g5, rfl, by omega⟩
      | hook _ e1 e2 => simp [TrM.endBlock] at e2; omega

/-- account 1 gives NFT 0 irrevocably to account 2 at block 3 -/
abbrev given : List Op := [.tick, Demo.mint1, Demo.by_ 1 (.tr (.set 0 2 (.atBlock 3) .none))]

-- account 1 tries to remove it in every block, in vain; with a limit of ten transmissions, five per block, two runs are enough
example := C151_partial (w := Demo.at_ given) (n := 0) (x := ⟨2, .atBlock 3, .none⟩) (b := 3) Demo.cfg_ok
  (Demo.reach given (by decide)) rfl rfl trivial rfl
  [Demo.by_ 1 (.tr (.remove 0)), .tick, .hookTr, Demo.by_ 1 (.tr (.resetTimer 0 9)), .tick]
  [Demo.by_ 1 (.tr (.remove 0)), .hookTr, .tick, .hookTr] (by decide) (by decide +kernel) (by decide)

/-- account 1 gives NFT 0 irrevocably to account 2 at block 3, unless the timer is reset -/
abbrev givenLater : List Op := [.tick, Demo.mint1, Demo.by_ 1 (.tr (.set 0 2 (.atBlockWithReset 3) .none))]

-- account 1 keeps it for a million blocks
example := C151_fails (w := Demo.at_ givenLater) (n := 0) (x := ⟨2, .atBlockWithReset 3, .none⟩) (b := 3) Demo.cfg_ok
  (Demo.reach givenLater (by decide)) (by decide) rfl rfl rfl (by decide +kernel) (by decide) 1000000
