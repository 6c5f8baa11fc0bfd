import Verif.Proofs.ScopeAuc
/-
C102 and C103 for the calls of the transmission, TEE and bridge pallets, and for transfers of tokens.
-/
open Spec
namespace TrM
variable {c : Cfg} {S T : List Item} {w w' w1 w2 : World}

theorem transmit_rel (h : Rel S w1 w2) {n : NFTId} (hn : Item.nft n ∈ S) :
    Out (Rel S) (transmit w1 n) (transmit w2 n) := by
  unfold transmit
  reads h, hn
  same_steps
  exact .pure (by rel_upd h)

theorem call_rel (h : Rel S w1 w2) (who : AccountId) (x : Call) (hu : uses c w1 who (.tr x) ⊆ S) :
    Out (Rel S) (call c w1 who x) (call c w2 who x) := by
  simp only [List.subset_def] at hu
  cases x with
  | set n r p k =>
    have hn : Item.nft n ∈ S := hu (by simp [uses])
    have hq : Item.transmissions ∈ S := hu (by simp [uses])
    have ha : Item.account who ∈ S := hu (by simp [uses])
    simp only [call, set]
    have ef : protocolFee w1.tr (kind p) = protocolFee w2.tr (kind p) := by
      have := h.set; simp only [Settings] at this; cases kind p <;> simp [protocolFee, this]
    rw [ef]
    sets h
    reads h, hn
    reads h, hq
    same_steps
    refine .bind (h.bal.payFee ha ..) fun b1 b2 _ hb => ?_
    have h := h.putBal hb
    exact .pure (by rel_upd h)
  | remove n =>
    have hn : Item.nft n ∈ S := hu (by simp [uses])
    have hq : Item.transmissions ∈ S := hu (by simp [uses])
    simp only [call, remove]
    sets h
    reads h, hn
    same_steps
    refine .pure ?_
    rename_i t _ _ _
    cases kind t.protocol <;> (simp only [cleanup]; rel_upd h)
  | resetTimer n b =>
    have hn : Item.nft n ∈ S := hu (by simp [uses])
    have hq : Item.transmissions ∈ S := hu (by simp [uses])
    simp only [call, resetTimer]
    sets h
    reads h, hn
    reads h, hq
    same_steps
    exact .pure (by rel_upd h)
  | addConsent n =>
    have hn : Item.nft n ∈ S := hu (by simp [uses])
    have hq : Item.transmissions ∈ S := hu (by simp [uses])
    simp only [call, addConsent]
    reads h, hn
    reads h, hq
    same_steps
    unfold consentEffect
    split
    · exact .pure (by rel_upd h)
    · split
      · sets h
        split
        · refine .bind (transmit_rel ?_ hn) fun v1 v2 _ h => .pure ((h.ev _).ev _)
          rel_upd h
        · reads h, hq
          same_steps
          exact .pure (by rel_upd h)
      · refine .bind (transmit_rel ?_ hn) fun v1 v2 _ h => .pure ((h.ev _).ev _)
        rel_upd h

theorem transmit_off {n : NFTId} (h : transmit w n = .ok w') (hn : Item.nft n ∈ T) : Off T w w' := by
  unfold transmit at h
  inv_ok at h
  obtain ⟨_, _, -, -, rfl⟩ := h
  off_upd

theorem call_off {who : AccountId} {x : Call} (h : call c w who x = .ok w')
    (hu : touches c w who (.tr x) ⊆ T) : Off T w w' := by
  simp only [List.subset_def, touches] at hu
  have ht : Item.supply ∈ T := hu (by simp)
  cases x with
  | set n r p k =>
    have hn : Item.nft n ∈ T := hu (by simp [uses, looksAt])
    have hq : Item.transmissions ∈ T := hu (by simp [uses, looksAt])
    have ha : Item.account who ∈ T := hu (by simp [uses, looksAt])
    simp only [call, set] at h
    inv_ok at h
    obtain ⟨_, q, b, -, -, -, -, -, -, -, -, -, -, -, -, -, -, -, -, -, -, -, hb, rfl⟩ := h
    refine (Off.putBal ht (.payFee ha hb)).trans ?_
    off_upd
  | remove n =>
    have hn : Item.nft n ∈ T := hu (by simp [uses, looksAt])
    have hq : Item.transmissions ∈ T := hu (by simp [uses, looksAt])
    simp only [call, remove] at h
    inv_ok at h
    obtain ⟨_, t, -, -, -, -, -, rfl⟩ := h
    cases kind t.protocol <;> (simp only [cleanup]; off_upd)
  | resetTimer n b =>
    have hn : Item.nft n ∈ T := hu (by simp [uses, looksAt])
    have hq : Item.transmissions ∈ T := hu (by simp [uses, looksAt])
    simp only [call, resetTimer] at h
    inv_ok at h
    obtain ⟨_, t, q, -, -, -, -, -, -, -, -, rfl⟩ := h
    off_upd
  | addConsent n =>
    have hn : Item.nft n ∈ T := hu (by simp [uses, looksAt])
    have hq : Item.transmissions ∈ T := hu (by simp [uses, looksAt])
    simp only [call, addConsent] at h
    inv_ok at h
    obtain ⟨_, t, x, -, -, -, -, -, -, -, -, h⟩ := h
    unfold consentEffect at h
    split at h
    · inv_ok at h; subst h; off_upd
    · split at h
      · split at h
        · inv_ok at h
          obtain ⟨v, hv, rfl⟩ := h
          refine Off.trans ?_ ((transmit_off hv hn).trans ((Off.ev _).trans (Off.ev _)))
          off_upd
        · inv_ok at h
          obtain ⟨q, -, rfl⟩ := h
          off_upd
      · inv_ok at h
        obtain ⟨v, hv, rfl⟩ := h
        refine Off.trans ?_ ((transmit_off hv hn).trans ((Off.ev _).trans (Off.ev _)))
        off_upd

end TrM

namespace TeeM
variable {c : Cfg} {S T : List Item} {w w' w1 w2 : World}

theorem putTee (h : Rel S w1 w2) {t1 t2 : TeeSt} (e : t1 = t2) :
    Rel S { w1 with tee := t1 } { w2 with tee := t2 } := by
  subst e
  rel_upd h

theorem offTee (ht : Item.tee ∈ T) (t : TeeSt) : Off T w { w with tee := t } := by
  off_upd

theorem call_rel (h : Rel S w1 w2) (who : AccountId) (x : Call) (hu : uses c w1 who (.tee x) ⊆ S) :
    Out (Rel S) (call c w1 who x) (call c w2 who x) := by
  simp only [List.subset_def] at hu
  have htee : Item.tee ∈ S := hu (by cases x <;> simp [uses])
  have ha : Item.account who ∈ S := hu (by cases x <;> simp [uses])
  have et : w1.tee = w2.tee := h.on _ htee
  have en : w1.now = w2.now := h.set.1
  have ea : w1.active = w2.active := h.set.2.1
  have ef := h.bal.freeOf ha
  have ez := h.bal.frozen ha
  cases x with
  | register a u =>
    simp only [call, register, et, ef, Bal.ensureCanWithdraw, ez]
    same_steps
    exact .pure (putTee (h.putBal (h.bal.setLock ..)) (by simp [World.putBal, et]))
  | unregister =>
    simp only [call, unregister, et]
    split
    · simp only [unregisterAssigned, et, en]
      same_steps
      exact .pure (by rel_upd h)
    · simp only [dropRegistration, et]
      same_steps
      exact .pure (putTee (h.putBal (h.bal.removeLock ..)) (by simp [World.putBal, et]))
  | update a u =>
    simp only [call, update, et]
    same_steps
    exact .pure (putTee h rfl)
  | cancelUpdate =>
    simp only [call, dropUpdate, et]
    same_steps
    exact .pure (putTee h rfl)
  | withdraw =>
    simp only [call, withdraw, et, en]
    same_steps
    exact .pure (putTee (h.putBal (h.bal.removeLock ..)) (by simp [World.putBal, et]))
  | submitReport op r =>
    simp only [call, submitReport, et, ea]
    same_steps
    exact .pure (by rel_upd h)
  | claim e =>
    have hp : Item.account c.teePot ∈ S := hu (by simp [uses])
    simp only [call, claim, et, ea]
    same_steps
    refine .bind (h.bal.transfer hp ha ..) fun b1 b2 _ hb => ?_
    exact .pure (Rel.ev (putTee (h.putBal hb) (by simp [World.putBal, et])) _)
  | bondExtra =>
    simp only [call, bondExtra, et, ef, Bal.ensureCanWithdraw, ez]
    same_steps
    exact .pure (putTee (h.putBal (h.bal.setLock ..)) (by simp [World.putBal, et]))
  | refundExcess =>
    simp only [call, refundExcess, et]
    same_steps
    exact .pure (putTee (h.putBal (h.bal.setLock ..)) (by simp [World.putBal, et]))

theorem call_off {who : AccountId} {x : Call} (h : call c w who x = .ok w')
    (hu : touches c w who (.tee x) ⊆ T) : Off T w w' := by
  simp only [List.subset_def, touches] at hu
  have ht : Item.supply ∈ T := hu (by simp)
  have htee : Item.tee ∈ T := hu (by cases x <;> simp [uses, looksAt])
  have ha : Item.account who ∈ T := hu (by cases x <;> simp [uses, looksAt])
  cases x with
  | register a u =>
    simp only [call, register] at h
    inv_ok at h
    obtain ⟨-, -, -, -, -, -, -, -, rfl⟩ := h
    exact (Off.putBal ht (.setLock ha _)).trans (offTee htee _)
  | unregister =>
    simp only [call, unregister] at h
    split at h
    · simp only [unregisterAssigned] at h
      inv_ok at h
      obtain ⟨_, -, -, -, rfl⟩ := h
      exact offTee htee _
    · simp only [dropRegistration] at h
      inv_ok at h
      obtain ⟨_, -, rfl⟩ := h
      exact (Off.putBal ht (.removeLock ha)).trans (offTee htee _)
  | update a u =>
    simp only [call, update] at h
    inv_ok at h
    obtain ⟨_, -, -, -, -, -, rfl⟩ := h
    exact offTee htee _
  | cancelUpdate =>
    simp only [call, dropUpdate] at h
    inv_ok at h
    obtain ⟨_, -, rfl⟩ := h
    exact offTee htee _
  | withdraw =>
    simp only [call, withdraw] at h
    inv_ok at h
    obtain ⟨_, -, -, -, rfl⟩ := h
    exact (Off.putBal ht (.removeLock ha)).trans (offTee htee _)
  | submitReport op r =>
    simp only [call, submitReport] at h
    inv_ok at h
    obtain ⟨_, _, _, _, -, -, -, -, -, rfl⟩ := h
    exact (offTee htee _).trans (Off.ev _)
  | claim e =>
    have hp : Item.account c.teePot ∈ T := hu (by simp [uses, looksAt])
    simp only [call, claim] at h
    inv_ok at h
    obtain ⟨_, _, _, b, -, -, -, -, -, -, -, hb, rfl⟩ := h
    exact ((Off.putBal ht (.transfer hp ha hb)).trans (offTee htee _)).trans (Off.ev _)
  | bondExtra =>
    simp only [call, bondExtra] at h
    inv_ok at h
    obtain ⟨_, -, -, -, -, rfl⟩ := h
    exact (Off.putBal ht (.setLock ha _)).trans (offTee htee _)
  | refundExcess =>
    simp only [call, refundExcess] at h
    inv_ok at h
    obtain ⟨_, -, -, rfl⟩ := h
    exact (Off.putBal ht (.setLock ha _)).trans (offTee htee _)

end TeeM

namespace BrM
variable {c : Cfg} {S T : List Item} {w w' w1 w2 : World}

theorem putBr (h : Rel S w1 w2) {t1 t2 : BrSt} (e : t1 = t2) :
    Rel S { w1 with br := t1 } { w2 with br := t2 } := by
  subst e
  rel_upd h

theorem offBr (ht : Item.bridge ∈ T) (t : BrSt) : Off T w { w with br := t } := by
  off_upd

theorem call_rel (h : Rel S w1 w2) (who : AccountId) (x : Call) (hu : uses c w1 who (.br x) ⊆ S) :
    Out (Rel S) (call c w1 who x) (call c w2 who x) := by
  simp only [List.subset_def] at hu
  have hb : Item.bridge ∈ S := hu (by cases x <;> simp [uses])
  have eb : w1.br = w2.br := h.on _ hb
  have en : w1.now = w2.now := h.set.1
  cases x with
  | vote k t =>
    have ha : Item.account t.recipient ∈ S := hu (by simp [uses])
    have hs : Item.supply ∈ S := hu (by simp [uses])
    have ev : ∀ o, vote c w1 who o = vote c w2 who o := fun o => by cases o <;> simp [vote, eb, en]
    simp only [call, voteFor, allowed, eb, ev]
    same_steps
    rename_i x _
    refine .pure ?_
    have h1 := Rel.ev (putBr h (t1 := { w2.br with votes := w2.br.votes.insert (k, t) x.1 }) rfl) (.voted k t who)
    cases x.2 with
    | false => exact h1
    | true => exact (h1.putBal (h.bal.mint ha hs _ _)).ev _
  | deposit v r d =>
    have ha : Item.account who ∈ S := hu (by simp [uses])
    have ef := h.bal.freeOf ha
    simp only [call, deposit, allowed, eb, ef]
    same_steps
    refine .bind (h.bal.payFee ha ..) fun b1 b2 _ hb => ?_
    refine .bind (hb.withdraw ha ..) fun b1 b2 _ hb => .pure ?_
    have h1 := h.putBal (hb.burn v)
    simp only [World.putBal, eb] at *
    exact Rel.ev (putBr h1 rfl) _

theorem call_off {who : AccountId} {x : Call} (h : call c w who x = .ok w')
    (hu : touches c w who (.br x) ⊆ T) : Off T w w' := by
  simp only [List.subset_def, touches] at hu
  have ht : Item.supply ∈ T := hu (by simp)
  have hb : Item.bridge ∈ T := hu (by cases x <;> simp [uses, looksAt])
  cases x with
  | vote k t =>
    have ha : Item.account t.recipient ∈ T := hu (by simp [uses, looksAt])
    simp only [call, voteFor] at h
    inv_ok at h
    obtain ⟨x, -, -, -, rfl⟩ := h
    refine (offBr hb { w.br with votes := w.br.votes.insert (k, t) x.1 }).trans ((Off.ev (.voted k t who)).trans ?_)
    cases x.2 with
    | false => exact .refl _
    | true => exact (Off.putBal ht (.mint ha _ _)).trans (Off.ev _)
  | deposit v r d =>
    have ha : Item.account who ∈ T := hu (by simp [uses, looksAt])
    simp only [call, deposit] at h
    inv_ok at h
    obtain ⟨b1, b2, -, -, h1, h2, rfl⟩ := h
    refine (Off.putBal (b := b2.burn v) ht ?_).trans ((offBr hb _).trans (Off.ev _))
    exact fun a ha' => ((BalOff.payFee ha h1).trans (.withdraw ha h2)) a ha'

end BrM
