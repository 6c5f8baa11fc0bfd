import Verif.Proofs.AucInv
import Verif.Proofs.RentStep
import Verif.Proofs.TrStep
import Verif.Proofs.TeeActs
import Verif.Proofs.BrInv
/-
How far in the future the block numbers in the storages can lie.
-/
variable {c : Cfg} {w w' : World}

/-- auctions -/
def AucM.Near (c : Cfg) (w : World) : Prop := ∀ n x, w.auc.auctions.get n = some x →
  x.start ≤ w.now + c.maxDelay ∧ x.fin ≤ w.now + max (c.maxDelay + c.maxDur) c.grace

theorem AucM.Pop.near (h : Pop c w w') (hn : Near c w) : Near c w' := by
  cases h <;> intro m y hm <;> simp only [FMap.get_erase] at hm
  case won => split at hm <;> [simp at hm; exact hn m y hm]
  case noBid => split at hm <;> [simp at hm; exact hn m y hm]
  all_goals exact hn m y hm

theorem AucM.Act.near {a x} (h : Act c w a x w') (hn : Near c w) : Near c w' := by
  cases h <;> intro m y hm <;> simp only [FMap.get_erase, FMap.get_insert] at hm
  case create =>
    split at hm
    · simp at hm; subst hm
      dsimp only; omega
    · exact hn m y hm
  case addBid x _ _ _ _ hx _ _ _ _ _ _ _ =>
    split at hm
    · simp at hm; subst hm
      have := hn _ _ hx
      rw [extend_eq]
      split <;> dsimp only <;> omega
    · exact hn m y hm
  case removeBid x _ _ hx _ _ _ =>
    split at hm
    · simp at hm; subst hm; have := hn _ _ hx; exact this
    · exact hn m y hm
  case claim => exact hn m y hm
  all_goals split at hm <;> [simp at hm; exact hn m y hm]

theorem AucM.Near.later {w w' : World} (h : Near c w) (e : w'.auc.auctions = w.auc.auctions) (hn : w.now ≤ w'.now) :
    Near c w' := fun n x hx => by
  have := h n x (by rw [← e]; exact hx)
  omega

theorem Reach.aucNear (h : Reach c w) : AucM.Near c w := by
  induction h with
  | init h => obtain ⟨e1, _⟩ := h.auc; intro n x hx; simp [e1] at hx
  | @step w o hr ho ih =>
    rcases step_auc_case w o ho with ⟨a, x, _, _, h⟩ | ⟨_, h⟩ | h
    · exact h.near ih
    · generalize _root_.step c w o = w' at h
      induction h with
      | refl => exact ih
      | tail _ h ih => exact h.near ih
    · exact ih.later (by rw [h]) (step_now_le w o)

/-- subscriptions; the other two queues follow from their contracts -/
def RentM.Near (c : Cfg) (w : World) : Prop := ∀ n b, (n, b) ∈ w.rent.subQ → b ≤ w.now + c.rentMaxDur

theorem Queue.of_mem_remove {n : NFTId} {q : Queue} {x} (h : x ∈ q.remove n) : x ∈ q := by
  induction q with
  | nil => exact h
  | cons y t ih =>
    obtain ⟨m, z⟩ := y
    simp only [Queue.remove] at h
    split at h
    · exact List.mem_cons_of_mem _ h
    · rcases List.mem_cons.1 h with h | h
      · rw [h]; exact List.mem_cons_self ..
      · exact List.mem_cons_of_mem _ (ih h)

theorem RentM.Did.near {a x} (h : Did c w a x w') (hi : RInv c w) (hn : Near c w) : Near c w' := by
  cases h with
  | create h =>
    obtain ⟨d, b, q, _, _, _, _, _, _, _, _, _, _, _, _, _, _, _, _, _, _, rfl⟩ := create_ok h
    exact hn
  | revoke h =>
    obtain ⟨k, r, d, b0, b1, b2, _, _, _, _, _, _, _, _, _, rfl⟩ := revoke_ok h
    intro m z hm
    refine hn m z ?_
    revert hm
    simp only [removeKind]
    split
    · exact id
    · exact Queue.of_mem_remove
  | @start n k r _ _ hk hs h =>
    obtain ⟨b1, b2, q, _, _, _, _, hq, rfl⟩ := h.out
    intro m z hm
    have hp := (hi.q.con n k hk).period
    dsimp only at hm ⊢
    unfold insertKind at hq
    split at hq
    · simp only [Option.map_eq_some_iff] at hq
      obtain ⟨q', _, rfl⟩ := hq
      exact hn m z hm
    · rename_i u hu
      simp only [Option.map_eq_some_iff] at hq
      obtain ⟨q', hq, rfl⟩ := hq
      obtain ⟨_, rfl⟩ := Queue.insert_some hq
      rcases Queue.mem_ins.1 hm with e | hm
      · simp at e; omega
      · exact hn m z hm
  | _ => exact hn

theorem RentM.Ticks.near (h : Ticks c w w') (hn : Near c w) : Near c w' := by
  induction h with
  | refl => exact hn
  | tail _ h ih =>
    obtain ⟨hi, _, h⟩ := h
    cases h with
    | finish => intro m z hm; exact ih m z (Queue.of_mem_remove hm)
    | @renew n b k r s u fee bal _ _ hk _ _ hd =>
      intro m z hm
      have hp := (hi.q.con n k hk).period
      rw [hd] at hp
      simp only [period] at hp
      rcases Queue.mem_ins.1 hm with e | hm
      · simp at e; dsimp only; omega
      · exact ih m z (Queue.of_mem_remove hm)

theorem Reach.rentNear (hc : c.Ok) (h : Reach c w) : RentM.Near c w := by
  induction h with
  | init h => intro n b hb; simp [h.rent.2.2.1] at hb
  | @step w o hr ho ih =>
    rcases step_rent_case hc hr o ho with ⟨a, x, _, _, h⟩ | ⟨_, h⟩ | h
    · exact h.near (hr.inv hc).rent ih
    · exact h.near ih
    · intro n b hb
      rw [h] at hb
      have := ih n b hb; have := step_now_le (c := c) w o
      omega

/-- transmissions -/
def TrM.Near (c : Cfg) (w : World) : Prop := ∀ n x b, w.tr.trans.get n = some x → endBlock x.protocol = some b →
  b ≤ w.now + c.trMaxDur

theorem TrM.call_near {a x} (h : call c w a x = .ok w') (hn : Near c w) : Near c w' := by
  have hnow : w'.now = w.now := fr% World.now (call_frame h)
  intro n y b hy hb
  by_cases e : n = x.target
  · subst e
    rw [hnow]
    cases x with
    | set m r p k =>
      simp only [call, set, Call.target] at h hy
      inv_ok at h
      obtain ⟨d, q, b', h0, hd, ho, h1, h2, h3, h4, h5, h6, h7, h8, h9, h10, _, _, _, _, _, _, _, rfl⟩ := h
      simp [World.ev, World.putNft, World.putBal] at hy
      subst hy
      have := h9 b (by simpa using hb); have := h10 b (by simpa using hb)
      omega
    | remove m =>
      simp only [call, remove, Call.target] at h hy
      inv_ok at h
      obtain ⟨d, t, hd, ho, h1, ht, h2, rfl⟩ := h
      revert hy
      cases t.protocol <;> simp [cleanup, kind]
    | resetTimer m z =>
      simp only [call, resetTimer, Call.target] at h hy
      inv_ok at h
      obtain ⟨d, t, q, hd, ho, h1, ht, h2, h3, h4, h5, rfl⟩ := h
      simp at hy; subst hy
      simp [endBlock] at hb; omega
    | addConsent m =>
      simp only [call, Call.target] at h hy
      obtain ⟨d, t, x, hd, h1, ht, hx, h2, h3, h4, h5, h⟩ := addConsent_ok h
      rcases h with ⟨h6, rfl⟩ | ⟨h6, _, rfl⟩ | ⟨h6, e, q, _, _, _, _, rfl⟩
      · exact hn m y b hy hb
      · simp at hy
      · exact hn m y b hy hb
  · rw [(call_other h e).1] at hy
    rw [hnow]; exact hn n y b hy hb

theorem Reach.trNear (hc : c.Ok) (h : Reach c w) : TrM.Near c w := by
  induction h with
  | init h => intro n x b hx; simp [h.tr.1] at hx
  | @step w o hr ho ih =>
    rcases step_tr_case hc hr o ho with ⟨a, x, _, _, h⟩ | rfl | ⟨h, _⟩
    · exact TrM.call_near h ih
    · obtain ⟨h1, _⟩ := TrM.hook_exact (c := c) (hr.inv hc).tr (hr.inv hc).good
      intro n x b hx hb
      by_cases hn : n ∈ Queue.ids (TrM.served c w)
      · obtain ⟨t, d', e1, e2, e3, e4⟩ := h1.on n hn
        rw [show (_root_.step c w .hookTr).tr.trans.get n = none from e3] at hx; simp at hx
      · rw [show (_root_.step c w .hookTr).tr.trans.get n = _ from (h1.off n hn).1] at hx
        have := ih n x b hx hb; have := step_now_le (c := c) w .hookTr
        omega
    · intro n x b hx hb
      rw [h] at hx
      have := ih n x b hx hb; have := step_now_le (c := c) w o
      omega

theorem Reach.brNear (h : Reach c w) : ∀ k p, w.br.votes.get k = some p → p.expiry ≤ w.now + c.proposalLife := by
  induction h with
  | init h => intro k p hp; simp [h.br.2] at hp
  | @step w o hr ho ih =>
    have hl := step_now_le (c := c) w o
    have hs := step_br w o ho
    generalize _root_.step c w o = w' at hs hl ⊢
    cases hs with
    | quiet e he => intro k p hp; rw [e] at hp; have := ih k p hp; omega
    | ext hg hx h e he => intro k p hp; rw [e, BrM.ext_votes h] at hp; have := ih k p hp; omega
    | deposit h1 hn h2 e he => intro k p hp; rw [e] at hp; have := ih k p hp; omega
    | @vote a k t x _ h1 h2 h3 h4 e he hb =>
      intro j p hp
      rw [e] at hp
      simp only [FMap.get_insert] at hp
      split at hp
      · simp at hp; subst hp
        rcases (BrM.vote_ok h3).2.2 with ⟨_, _, h⟩ | ⟨q, hq, _, _, _, _, h⟩
        · omega
        · have := ih _ _ hq; omega
      · have := ih j p hp; omega

theorem Reach.teePast (h : Reach c w) : ∀ a s, w.tee.ledger.get a = some s → s.unbondedAt ≤ w.now := by
  induction h with
  | init h =>
    obtain ⟨h1, h2, h3, h4, h5, h6, h7, h8, h9, h10, h11, h12, h13⟩ := h.tee
    intro a s hs; simp [h10] at hs
  | @step w o hr ho ih =>
    have hl := step_now_le (c := c) w o
    intro a s hs
    have hm := step_stake hr o ho a
    rw [hs] at hm
    generalize hx : w.tee.ledger.get a = x at hm
    cases hm with
    | same => have := ih a s hx; omega
    | register => simp
    | unregister => dsimp only; omega
    | forced => dsimp only; omega
    | bonded => have := ih a _ hx; dsimp only at this ⊢; omega
    | refunded => have := ih a _ hx; dsimp only at this ⊢; omega
