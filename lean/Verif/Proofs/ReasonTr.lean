import Verif.Proofs.ReasonBase
import Verif.Proofs.AcceptTr
/-
Lemmas for C117: errors of the transmission pallet.
-/
variable {c : Cfg} {w w' : World} {a : AccountId} {s : String}
set_option maxRecDepth 10000
open Spec Spec.Why Spec.Accept

namespace TrM

theorem date_of (p : Protocol) : endBlock p = Refuse.dateOf p := by cases p <;> rfl

theorem consents_of (p : Protocol) : consentData p = Spec.Why.consents p := by cases p <;> rfl

theorem enqueue_err {q : Queue} {n : NFTId} {o : Option Block} (h : enqueue c q n o = .error (.e s)) :
    s = "SimultaneousTransmissionLimitReached" ∧ c.trLimit ≤ q.length ∧ o ≠ none := by
  cases o with
  | none => cases h
  | some b =>
    simp only [enqueue] at h; inv_err at h
    rcases h with ⟨h, rfl⟩ | ⟨h1, h, rfl⟩
    · exact ⟨rfl, by omega, by simp⟩
    · refine ⟨rfl, ?_, by simp⟩
      unfold Queue.insert at h
      split at h
      · cases h
      · omega

/-- the protocol of an NFT that has the flag -/
theorem has_trans (hc : c.Ok) (hr : Reach c w) {n : NFTId} {d : NFTData} (hd : w.nfts.get n = some d)
    (h : d.st.transmission = true) : w.tr.trans.get n ≠ none :=
  (((hr.inv hc).good n).nft d hd).trans.1 h

theorem reason {x : Call} (hc : c.Ok) (hr : Reach c w) (h : call c w a x = .error (.e s)) : Reason c w a (.tr x) s := by
  have hi := (hr.inv hc).tr
  cases x <;> simp only [call] at h
  case set n r p k =>
    simp only [set] at h; inv_err at h
    simp only [date_of, consents_of] at h
    rcases h with ⟨h, rfl⟩ | ⟨_, ⟨h, rfl⟩ | ⟨d, hd, ⟨h, rfl⟩ | ⟨rfl, ⟨h, rfl⟩ | ⟨_, ⟨h, rfl⟩ | ⟨_, ⟨h, rfl⟩ | ⟨_, ⟨h, rfl⟩ | ⟨_,
      ⟨h, rfl⟩ | ⟨_, ⟨h, rfl⟩ | ⟨_, ⟨h, rfl⟩ | ⟨_, ⟨h, rfl⟩ | ⟨_, ⟨h, rfl⟩ | ⟨h1, ⟨h, rfl⟩ | ⟨_, ⟨h, rfl⟩ | ⟨_, ⟨h, rfl⟩ | ⟨_, ⟨h, rfl⟩ | ⟨_,
      ⟨h, rfl⟩ | ⟨_, ⟨h, rfl⟩ | ⟨_, h | ⟨q, hq, h⟩⟩⟩⟩⟩⟩⟩⟩⟩⟩⟩⟩⟩⟩⟩⟩⟩⟩⟩ <;> try why
    · simp only [Option.mem_def, not_forall] at h
      obtain ⟨b, hb, h⟩ := h
      cases k <;> simp [untilBlock] at hb
      subst hb
      exact .tr (.past1 (by omega))
    · subst h
      exact .tr .toSelf
    · exact .bound (n := n) rfl (by constructor) ⟨d, hd, h.1, Ne.symm h.2⟩
    all_goals
      first
        | simp only [Option.mem_def, not_forall] at h
          obtain ⟨b, hb, h⟩ := h
          first
            | exact .tr (.past2 hb (by omega))
            | exact .tr (.far1 hb (by have := h1 b hb; omega))
            | exact .tr (.long (l := b.1) (t := b.2) hb (by omega))
            | exact .tr (.twice (l := b.1) (t := b.2) hb h)
            | exact .tr (.zero (l := b.1) (t := b.2) hb (by omega))
            | exact .tr (.high (l := b.1) (t := b.2) hb (by omega))
            | exact .tr (.short (l := b.1) (t := b.2) hb (by omega))
        | obtain ⟨rfl, g, g2⟩ := enqueue_err h
          cases p <;> simp [blockToQueue] at g2
          · exact .tr (.full1 (.inl rfl) g)
          · exact .tr (.full1 (.inr rfl) g)
        | refine .pay ?_
          simp only [dues, fee_of]
          exact payFee_err h
  case remove n =>
    simp only [remove] at h; inv_err at h
    rcases h with ⟨h, rfl⟩ | ⟨d, hd, ⟨h, rfl⟩ | ⟨rfl, ⟨h, rfl⟩ | ⟨h1, ⟨h, rfl⟩ | ⟨t, ht, h, rfl⟩⟩⟩⟩ <;> try why
    · exact absurd h (has_trans hc hr hd h1)
    · refine .tr (.fixed ⟨t, ht, ?_⟩)
      cases e : t.cancellation with
      | none => exact .inl e
      | untilBlock b => rw [e] at h; exact .inr ⟨b, e, by simpa [cancellable] using h⟩
      | anytime => rw [e] at h; cases h
  case resetTimer n b =>
    simp only [resetTimer] at h; inv_err at h
    rcases h with ⟨h, rfl⟩ | ⟨d, hd, ⟨h, rfl⟩ | ⟨rfl, ⟨h, rfl⟩ | ⟨h1, ⟨h, rfl⟩ | ⟨t, ht, ⟨h, rfl⟩ | ⟨_, ⟨h, rfl⟩ | ⟨_, ⟨h, rfl⟩ | ⟨_, h⟩⟩⟩⟩⟩⟩⟩ <;> try why
    · exact absurd h (has_trans hc hr hd h1)
    · exact .tr (.noReset ⟨t, ht, fun e he => by rw [he] at h; cases h⟩)
    · exact .tr (.past3 (by omega))
    · exact .tr (.far2 (by omega))
    · obtain ⟨q, hq⟩ := Queue.update_no_panic (n := n) (b := b) hi.len
      rw [hq] at h; cases h
  case addConsent n =>
    simp only [addConsent] at h; inv_err at h
    rcases h with ⟨h, rfl⟩ | ⟨d, hd, ⟨h, rfl⟩ | ⟨h1, ⟨h, rfl⟩ | ⟨t, ht, ⟨h, rfl⟩ | ⟨y, hy, ⟨h, rfl⟩ | ⟨_, ⟨h, rfl⟩ | ⟨hy2, ⟨h, rfl⟩ | ⟨_, ⟨h, rfl⟩ | ⟨_, h⟩⟩⟩⟩⟩⟩⟩⟩ <;> try why
    · exact absurd h (has_trans hc hr hd h1)
    · exact .tr (.noConsent ⟨t, ht, by beta_reduce; rw [← consents_of]; exact h⟩)
    · refine .tr (.agreed ⟨t, ht, ?_, ?_⟩)
      · simp only [Classical.not_imp] at h
        cases e : t.protocol <;> simp [e, kind] at h ⊢
      · simp only [Classical.not_imp] at h
        cases e : w.tr.queue.find n with
        | none => exact absurd e h.2
        | some b => exact ⟨b, Queue.find_some_mem e⟩
    · exact .tr (.stranger ⟨t, ht, y.1, y.2, by rw [← consents_of]; exact hy, h⟩)
    · refine .tr (.again ?_)
      cases e : w.tr.consents.get n with
      | none => simp [e] at h
      | some l => exact ⟨l, rfl, by simpa [e] using h⟩
    · exfalso
      have hproto := hi.proto n t y ht hy
      cases e : w.tr.consents.get n with
      | none => simp [e] at h; omega
      | some l =>
        obtain ⟨x, z, hx, hz, _, _, hl⟩ := hi.cons n l e
        obtain rfl : t = x := by rw [ht] at hx; exact Option.some.inj hx
        obtain rfl : y = z := by rw [hy] at hz; exact Option.some.inj hz
        simp [e] at h; omega
    · have htr : ∀ z : TrSt, z.trans = w.tr.trans → ∀ e, transmit { w with tr := z } n ≠ .error e := by
        intro z hz e he
        have hz' : ({ w with tr := z } : World).tr.trans.get n = some t := by rw [← ht, ← hz]
        obtain ⟨w1, this⟩ : ∃ w1, transmit { w with tr := z } n = .ok w1 := by
          simp only [transmit, Exec.bind_ok, Exec.getOr_ok, Exec.pure_ok]
          exact ⟨_, t, hz', d, hd, rfl⟩
        rw [this] at he; cases he
      unfold consentEffect at h
      split at h
      · cases h
      · split at h
        · split at h
          · inv_err at h
            exact absurd h (htr { w.tr with consents := w.tr.consents.erase n } rfl _)
          · inv_err at h
            rename_i hl _ e hp hn
            obtain ⟨rfl, g, _⟩ := enqueue_err h
            refine .tr (.full2 ⟨t, ht, ?_⟩ g)
            cases ep : t.protocol <;> simp [ep, endBlock] at hp
            all_goals simp [ep, consentData] at hy
            subst hp; subst hy
            exact ⟨_, _, _, ep, by simpa using hl, by omega⟩
        · inv_err at h
          exact absurd h (htr { w.tr with consents := w.tr.consents.erase n } rfl _)

end TrM
