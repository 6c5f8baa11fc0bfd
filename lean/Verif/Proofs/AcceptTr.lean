import Verif.Proofs.AcceptBase
/-
Lemmas for C115: calls of the transmission pallet.
-/
variable {c : Cfg} {w w' : World} {a : AccountId}
set_option maxRecDepth 10000
open Spec Spec.Accept

namespace TrM

theorem fee_of (w : World) (p : Protocol) : Spec.protocolFee w p = protocolFee w.tr (kind p) := by cases p <;> rfl

theorem enqueue_iff {q : Queue} {n : NFTId} {o : Option Block} :
    (∃ q', enqueue c q n o = .ok q') ↔ (o ≠ none → q.length < c.trLimit) := by
  cases o with
  | none => simp [enqueue, Exec.pure_ok]
  | some b =>
    simp only [enqueue, Exec.bind_ok, Exec.require_ok, Exec.exists_unit, Exec.getOr_ok, Queue.insert]
    constructor
    · rintro ⟨_, h, _⟩ _; omega
    · intro h
      have h := h (by simp)
      exact ⟨_, by omega, by rw [if_pos h]⟩

theorem date_queue (p : Protocol) : (∀ b, p = .atBlock b ∨ p = .atBlockWithReset b → w.tr.queue.length < c.trLimit) ↔
    (blockToQueue p ≠ none → w.tr.queue.length < c.trLimit) := by
  cases p <;> simp [blockToQueue]

theorem accept_fwd {x : Call} (h : call c w a x = .ok w') :
    Room c w a (.tr x) ∧ CanPayAll c.ed (purse w.bal) (dues c w a (.tr x)) := by
  cases x <;> simp only [call] at h <;> simp only [Room, dues]
  case set n r p k =>
    simp only [set] at h; inv_ok at h
    obtain ⟨d, q, b, _, _, _, _, _, _, _, _, _, _, _, _, _, _, _, _, _, _, hq, hb, _⟩ := h
    rw [date_queue, fee_of]
    exact ⟨enqueue_iff.1 ⟨q, hq⟩, payFee_one.1 ⟨b, hb⟩⟩
  case addConsent n =>
    simp only [addConsent] at h; inv_ok at h
    obtain ⟨d, t, x, _, _, ht, hx, _, _, _, _, h⟩ := h
    refine ⟨fun t' l k e h1 h2 h3 h4 => ?_, trivial⟩
    obtain rfl : t = t' := by rw [ht] at h1; exact Option.some.inj h1
    rw [h2] at hx h
    simp only [consentData, Option.some.injEq] at hx
    subst hx
    unfold consentEffect at h
    rw [if_neg (by simp; omega)] at h
    simp only [endBlock] at h
    rw [if_neg (by omega)] at h
    inv_ok at h
    obtain ⟨q, hq, _⟩ := h
    exact enqueue_iff.1 ⟨q, hq⟩ (by simp)
  all_goals exact ⟨trivial, trivial⟩

theorem accept_bwd (hc : c.Ok) (hr : Reach c w) {x : Call} (he : Entitled w a (.tr x)) (hf : Refuse.Fit c w a (.tr x))
    (hm : Room c w a (.tr x)) (hp : CanPayAll c.ed (purse w.bal) (dues c w a (.tr x))) :
    ∃ w', call c w a x = .ok w' := by
  have hi := (hr.inv hc).tr
  cases x <;> simp only [call] <;> simp only [Entitled, Refuse.Fit, Room, dues] at he hf hm hp
  case set n r p k =>
    obtain ⟨d, hd, rfl⟩ := he
    obtain ⟨hne, ⟨d', hd', ⟨h1, h2, h3, h4⟩, ⟨h5, h6⟩, h7⟩, g1, g2, g3⟩ := hf
    obtain rfl : d = d' := by rw [hd] at hd'; exact Option.some.inj hd'
    rw [date_queue] at hm
    rw [fee_of] at hp
    obtain ⟨q, hq⟩ := (enqueue_iff (c := c) (n := n)).2 hm
    obtain ⟨b, hb⟩ := payFee_one.2 hp
    have e1 : ∀ b ∈ untilBlock k, w.now < b := by
      intro b hb; cases k <;> simp [untilBlock] at hb; subst hb; exact g3 _ rfl
    have e2 : ∀ e ∈ endBlock p, w.now < e ∧ e ≤ w.now + c.trMaxDur := by
      intro b hb; apply g1; cases p <;> simp_all [endBlock, Refuse.dateOf]
    have e3 : ∀ x ∈ consentData p, x.1.Nodup ∧ x.1.length ≤ c.trConsents ∧ 0 < x.2 ∧ x.2 ≤ x.1.length := by
      intro x hx; cases p <;> simp [consentData] at hx <;> subst hx <;> exact g2
    simp only [set, Exec.bind_ok, Exec.require_ok, Exec.exists_unit, Exec.getOr_ok, Exec.pure_ok]
    refine ⟨_, e1, d, hd, rfl, Ne.symm hne, h1, h2, h3, fun e => e.2 (h7 e.1).symm, h5, h6, h4, fun e h => (e2 e h).1,
      fun e h => ?_, fun x hx => (e3 x hx).2.1, fun x hx => (e3 x hx).1, fun x hx => (e3 x hx).2.2.1, fun x hx => ?_,
      fun x hx => (e3 x hx).2.2.2, q, hq, b, hb, rfl⟩
    · have := e2 e h; omega
    · have := e3 x hx; omega
  case remove n =>
    obtain ⟨d, hd, rfl⟩ := he
    obtain ⟨⟨d', hd', h1⟩, t, ht, h2⟩ := hf
    obtain rfl : d = d' := by rw [hd] at hd'; exact Option.some.inj hd'
    simp only [remove, Exec.bind_ok, Exec.require_ok, Exec.exists_unit, Exec.getOr_ok, Exec.pure_ok]
    refine ⟨_, d, hd, rfl, h1, t, ht, ?_, rfl⟩
    rcases h2 with h2 | ⟨b, h2, h3⟩ <;> simp [cancellable, h2]
    exact h3
  case resetTimer n b =>
    obtain ⟨d, hd, rfl⟩ := he
    obtain ⟨⟨d', hd', h1⟩, h2, h3, t, e, ht, hp⟩ := hf
    obtain rfl : d = d' := by rw [hd] at hd'; exact Option.some.inj hd'
    obtain ⟨q, hq⟩ := Queue.update_no_panic (n := n) (b := b) hi.len
    simp only [resetTimer, Exec.bind_ok, Exec.require_ok, Exec.exists_unit, Exec.getOr_ok, Exec.pure_ok]
    exact ⟨_, d, hd, rfl, h1, t, ht, by simp [canReset, hp], h2, by omega, q, hq, rfl⟩
  case addConsent n =>
    obtain ⟨t, ht, hin⟩ := he
    obtain ⟨⟨d, hd, h1⟩, h2, t', ht', h3⟩ := hf
    obtain rfl : t = t' := by rw [ht] at ht'; exact Option.some.inj ht'
    obtain ⟨y, hy, hy2⟩ : ∃ y, consentData t.protocol = some y ∧ a ∈ y.1 := by
      cases e : t.protocol <;> simp [e, consenters] at hin <;> exact ⟨_, rfl, hin⟩
    have hproto := hi.proto n t y ht hy
    have hlen : ((w.tr.consents.get n).getD []).length < c.trConsents := by
      cases e : w.tr.consents.get n with
      | none => simp; omega
      | some l =>
        obtain ⟨x, z, hx, hz, _, _, hl⟩ := hi.cons n l e
        obtain rfl : t = x := by rw [ht] at hx; exact Option.some.inj hx
        obtain rfl : y = z := by rw [hy] at hz; exact Option.some.inj hz
        simp; omega
    have htr : ∀ s : TrSt, s.trans = w.tr.trans → ∃ w', transmit { w with tr := s } n = .ok w' := by
      intro s hs
      simp only [transmit, Exec.bind_ok, Exec.getOr_ok, Exec.pure_ok]
      exact ⟨_, t, by rw [hs]; exact ht, d, hd, rfl⟩
    simp only [addConsent, Exec.bind_ok, Exec.require_ok, Exec.exists_unit, Exec.getOr_ok]
    suffices ∃ w', consentEffect c w n t.protocol y.2 ((w.tr.consents.get n).getD [] ++ [a]) a = .ok w' by
      obtain ⟨w', h⟩ := this
      refine ⟨w', d, hd, h1, t, ht, y, hy, fun e => ?_, hy2, h2, hlen, h⟩
      cases ep : t.protocol <;> simp [ep, kind] at e
      exact h3 _ _ _ ep
    unfold consentEffect
    by_cases hl : ((w.tr.consents.get n).getD [] ++ [a]).length < y.2
    · rw [if_pos hl]; exact ⟨_, rfl⟩
    · rw [if_neg hl]
      cases ee : endBlock t.protocol with
      | none =>
        obtain ⟨w1, hw⟩ := htr { w.tr with consents := w.tr.consents.erase n } rfl
        simp only [Exec.bind_ok, Exec.pure_ok]
        exact ⟨_, w1, hw, rfl⟩
      | some e =>
        simp only
        by_cases hn : e ≤ w.now
        · rw [if_pos hn]
          obtain ⟨w1, hw⟩ := htr { w.tr with consents := w.tr.consents.erase n } rfl
          simp only [Exec.bind_ok, Exec.pure_ok]
          exact ⟨_, w1, hw, rfl⟩
        · rw [if_neg hn]
          have : w.tr.queue.length < c.trLimit := by
            cases ep : t.protocol <;> simp [ep, endBlock, consentData] at ee hy
            subst ee; subst hy
            refine hm t _ _ _ ht ep ?_ (by omega)
            simpa using hl
          obtain ⟨q, hq⟩ := (enqueue_iff (c := c) (q := w.tr.queue) (n := n) (o := some e)).2 fun _ => this
          simp only [Exec.bind_ok, Exec.pure_ok]
          exact ⟨_, q, hq, rfl⟩

end TrM
