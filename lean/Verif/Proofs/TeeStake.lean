import Verif.Proofs.TeeInv
import Verif.Proofs.Hist
/-
The tee pallet at the level of operations; stakes.
-/
variable {c : Cfg} {w w' : World} {a : AccountId}

/-- What an operation does to the tee pallet and its locks. -/
inductive TeeCase (c : Cfg) (w : World) (o : Op) (w' : World) : Prop where
  | quiet : w'.tee = w.tee → w'.bal.tee = w.bal.tee → w'.now = w.now ∨ w'.now = w.now + 1 →
      (w'.active = w.active ∨ ∃ e, o = .era e ∧ w'.active = some e ∧ ∀ x ∈ w.active, x ≤ e) →
      TeeCase c w o w'
  | call {a x} : o = .call (.signed a) (.tee x) → ¬ c.pot a → TeeM.call c w a x = .ok w' →
      TeeCase c w o w'
  | root {g x r w1 l} : o = .call g x → (∀ a, g ≠ .signed a) → x.core = .root (.tee r) →
      TeeM.root c w r = .ok w1 → (∀ e ∈ l, ∃ b, e = Ev.mandated b) →
      w' = { w1 with evs := l ++ w1.evs } → TeeCase c w o w'
  | hook : o = .hookTee → w' = TeeM.hook c w → TeeCase c w o w'

theorem step_tee (w : World) (o : Op) (ho : o.Ok c) : TeeCase c w o (step c w o) := by
  have h := step_side w o ho
  generalize step c w o = w' at h ⊢
  cases h with
  | tee ha h => exact .call rfl ha h
  | br ha h =>
    have e := BrM.call_frame h
    refine .quiet (fr% World.tee e) ?_ (Or.inl (fr% World.now e)) (Or.inl (fr% World.active e))
    rename_i x
    cases x <;> simp only [BrM.call] at h
    case vote k t =>
      simp only [BrM.voteFor] at h; inv_ok at h
      obtain ⟨y, _, _, _, rfl⟩ := h
      cases y.2
      · rfl
      · exact (Bal.mint_mono (S := fun _ => False) _ _ _).tee
    case deposit v r d =>
      simp only [BrM.deposit] at h; inv_ok at h
      obtain ⟨b1, b2, _, _, h1, h2, rfl⟩ := h
      exact (Bal.withdraw_mono h2).tee.trans (Bal.payFee_mono h1).tee
  | teeRoot hg hx h hl => exact .root rfl hg hx h hl rfl
  | root hg hx hn h h1 h2 h3 h4 h5 h6 h7 hl =>
    exact .quiet h1 (by show _ = w.bal.tee; rw [← h4]) (Or.inl h6) (Or.inl h7)
  | ext hg hx h hl =>
    have e := BrM.ext_frame h
    exact .quiet (fr% World.tee e) (congrArg Bal.tee (fr% World.bal e)) (Or.inl (fr% World.now e))
      (Or.inl (fr% World.active e))
  | hookTee => exact .hook rfl rfl
  | tick => exact .quiet rfl rfl (Or.inr rfl) (Or.inl rfl)
  | era he => exact .quiet rfl rfl (Or.inl rfl) (Or.inr ⟨_, rfl, rfl, he⟩)
  | txFee hp h =>
    have e := RewM.txFee_frame h
    refine .quiet (fr% World.tee e) ?_ (Or.inl (fr% World.now e)) (Or.inl (fr% World.active e))
    simp only [RewM.txFee] at h; inv_ok at h
    obtain ⟨b, h1, rfl⟩ := h
    have hm := (Bal.withdraw_mono h1).tee
    rename_i p f t au
    cases au
    · exact hm
    · exact ((Bal.mint_mono (S := fun _ => False) _ _ _).tee).trans hm
  | eraPayout =>
    refine .quiet rfl ?_ (Or.inl rfl) (Or.inl rfl)
    simp only [RewM.eraPayout]
    split
    · rename_i b h1; exact (Bal.withdraw_mono h1).tee
    · rfl
  | mint => exact .quiet rfl (Bal.mint_mono (S := fun _ => False) _ _ _).tee (Or.inl rfl) (Or.inl rfl)
  | lock => exact .quiet rfl rfl (Or.inl rfl) (Or.inl rfl)
  | other h1 h2 h3 h4 h5 h6 => exact .quiet h1 h6.mono.tee (Or.inl h4) (Or.inl h5)

theorem Genesis.tinv (h : Genesis c w) : TeeM.TInv c w.tee := by
  obtain ⟨h1, h2, h3, h4, h5, h6, h7, h8, h9, h10, h11, h12, h13⟩ := h.tee
  constructor <;> simp [h1, h2, h3, h4, h5, h6, h8, h13]

theorem Reach.tinv (h : Reach c w) : TeeM.TInv c w.tee := by
  induction h with
  | init h => exact h.tinv
  | step o hr ho ih =>
    cases step_tee _ o ho with
    | quiet h1 h2 => rw [h1]; exact ih
    | call _ _ h => exact TeeM.call_tinv h ih
    | root _ _ _ h _ e => have := TeeM.root_tinv h ih; rw [e]; exact this
    | hook _ e =>
      rw [e]; unfold TeeM.hook
      split
      · exact ih
      · split
        · exact ih.congr rfl rfl rfl rfl rfl rfl rfl rfl rfl
        · exact ih

namespace TeeM

/-- the staking lock -/
abbrev lockOf (w : World) (op : AccountId) : Balance := (w.bal.tee.get op).getD 0

/-- Stakes: the ledger is covered by the lock; who is registered or active is staked. -/
structure SInv (w : World) : Prop where
  led : ∀ op s, w.tee.ledger.get op = some s → s.operator = op ∧ s.staked ≤ lockOf w op
  reg : ∀ op e, w.tee.registrations.get op = some e →
    ∃ s, w.tee.ledger.get op = some s ∧ s.unlocking = false
  act : ∀ op e, w.tee.data.get op = some e → op ∉ w.tee.unregs →
    ∃ s, w.tee.ledger.get op = some s ∧ s.unlocking = false
  time : ∀ op s, w.tee.ledger.get op = some s → s.unlocking = true → s.unbondedAt ≤ w.now
  out : ∀ op s, w.tee.ledger.get op = some s → s.unlocking = true →
    w.tee.data.get op = none ∨ op ∈ w.tee.unregs

theorem SInv.congr (h : SInv w) (h1 : w'.tee = w.tee) (h2 : w'.bal.tee = w.bal.tee)
    (h3 : w.now ≤ w'.now) : SInv w' := by
  constructor
  · intro op s; unfold lockOf; rw [h1, h2]; exact h.led op s
  · rw [h1]; exact h.reg
  · rw [h1]; exact h.act
  · rw [h1]; intro op s hs hu; exact Nat.le_trans (h.time op s hs hu) h3
  · rw [h1]; exact h.out

theorem SInv.same (h : SInv w) (h1 : w'.tee.ledger = w.tee.ledger)
    (h2 : w'.tee.registrations = w.tee.registrations) (h3 : ∀ j, w'.tee.data.get j = none ↔ w.tee.data.get j = none)
    (h4 : w'.tee.unregs = w.tee.unregs) (h5 : w'.bal.tee = w.bal.tee) (h6 : w'.now = w.now) : SInv w' := by
  constructor
  · intro op s; unfold lockOf; rw [h1, h5]; exact h.led op s
  · rw [h1, h2]; exact h.reg
  · intro op e he; rw [h1, h4]
    cases hd : w.tee.data.get op with
    | none => rw [(h3 op).2 hd] at he; simp at he
    | some e' => exact h.act op e' hd
  · rw [h1, h6]; exact h.time
  · intro op s; rw [h1, h3, h4]; exact h.out op s

theorem lockOf_setLock {v : Balance} (op : AccountId) :
    (((w.bal.setLock a v).tee.get op).getD 0) = if op = a ∧ v ≠ 0 then v else lockOf w op := by
  unfold Bal.setLock
  split
  · simp [*]
  · simp only [FMap.get_insert]
    split <;> simp [*]

/-- a stake is (re)written with the current time and at least locked -/
theorem dropRegistration_sinv {op} (h : dropRegistration w op = .ok w') (hi : TInv c w.tee)
    (hs : SInv w) : SInv w' := by
  simp only [dropRegistration] at h; inv_ok at h
  obtain ⟨e, he, rfl⟩ := h
  have hd := hi.reg op e he
  constructor <;> dsimp only [World.putBal]
  · intro j s hj
    simp only [FMap.get_erase] at hj
    split at hj
    · simp at hj
    · rename_i hne
      obtain ⟨h1, h2⟩ := hs.led j s hj
      refine ⟨h1, ?_⟩
      simp only [lockOf, Bal.removeLock, FMap.get_erase, hne, if_false]; exact h2
  · intro j f hj
    simp only [FMap.get_erase] at hj ⊢
    split at hj
    · simp at hj
    · rename_i hne; simp only [hne, if_false]; exact hs.reg j f hj
  · intro j f hj hu
    simp only [FMap.get_erase]
    split
    · subst_vars; rw [hd] at hj; simp at hj
    · exact hs.act j f hj hu
  · intro j s hj hu
    simp only [FMap.get_erase] at hj
    split at hj
    · simp at hj
    · exact hs.time j s hj hu
  · intro j s hj hu
    simp only [FMap.get_erase] at hj
    split at hj
    · simp at hj
    · exact hs.out j s hj hu

theorem call_sinv {x : Call} (h : call c w a x = .ok w') (hi : TInv c w.tee) (hs : SInv w) :
    SInv w' := by
  cases x <;> simp only [call] at h
  case register ad uri =>
    simp only [register] at h; inv_ok at h
    obtain ⟨h1, h2, h3, h4, h5, h6, h7, h8, rfl⟩ := h
    constructor <;> dsimp only [World.putBal]
    · intro j s hj
      simp only [FMap.get_insert] at hj
      unfold lockOf; dsimp only
      rw [lockOf_setLock]
      split at hj
      · simp at hj; subst hj; refine ⟨by simp [*], ?_⟩
        split
        · exact Nat.le_refl _
        · rename_i h9 h10; dsimp only; have : w.tee.stakingAmount = 0 := by tauto
          omega
      · rename_i hne
        simp only [hne, false_and, if_false]
        exact hs.led j s hj
    · intro j f hj
      simp only [FMap.get_insert] at hj ⊢
      split at hj
      · simp [*]
      · rename_i hne; simp only [hne, if_false]; exact hs.reg j f hj
    · intro j f hj hu
      simp only [FMap.get_insert]
      split
      · exact ⟨_, rfl, rfl⟩
      · exact hs.act j f hj hu
    · intro j s hj hu
      simp only [FMap.get_insert] at hj
      split at hj
      · simp at hj; subst hj; simp at hu
      · exact hs.time j s hj hu
    · intro j s hj hu
      simp only [FMap.get_insert] at hj
      split at hj
      · simp at hj; subst hj; simp at hu
      · exact hs.out j s hj hu
  case unregister =>
    simp only [unregister] at h
    split at h
    · rename_i e he
      simp only [unregisterAssigned] at h; inv_ok at h
      obtain ⟨s, h1, h2, h3, rfl⟩ := h
      constructor <;> dsimp only
      · intro j s' hj
        simp only [FMap.get_insert] at hj
        split at hj
        · simp at hj; subst hj; subst_vars; exact hs.led _ s h3
        · exact hs.led j s' hj
      · intro j f hj
        have hd := hi.reg j f hj
        have hne : j ≠ a := by rintro rfl; rw [hd] at he; simp at he
        simp only [FMap.get_insert, hne, if_false]; exact hs.reg j f hj
      · intro j f hj hu
        simp only [List.mem_append, List.mem_singleton, not_or] at hu
        simp only [FMap.get_insert, hu.2, if_false]; exact hs.act j f hj hu.1
      · intro j s' hj hu
        simp only [FMap.get_insert] at hj
        split at hj
        · simp at hj; subst hj; exact Nat.le_refl _
        · exact hs.time j s' hj hu
      · intro j s' hj hu
        simp only [FMap.get_insert] at hj
        split at hj
        · right; simp [*]
        · rcases hs.out j s' hj hu with h | h
          · exact Or.inl h
          · right; simp [h]
    · exact dropRegistration_sinv h hi hs
  case update ad uri =>
    simp only [update] at h; frame_auto at h; exact hs.same rfl rfl (fun _ => Iff.rfl) rfl rfl rfl
  case cancelUpdate =>
    simp only [dropUpdate] at h; frame_auto at h; exact hs.same rfl rfl (fun _ => Iff.rfl) rfl rfl rfl
  case withdraw =>
    simp only [withdraw] at h; inv_ok at h
    obtain ⟨s, h1, h2, h3, rfl⟩ := h
    have ho := hs.out a s h1 h2
    constructor <;> dsimp only [World.putBal]
    · intro j s' hj
      simp only [FMap.get_erase] at hj
      split at hj
      · simp at hj
      · rename_i hne
        obtain ⟨h4, h5⟩ := hs.led j s' hj
        refine ⟨h4, ?_⟩
        simp only [lockOf, Bal.removeLock, FMap.get_erase, hne, if_false]; exact h5
    · intro j f hj
      obtain ⟨s', h4, h5⟩ := hs.reg j f hj
      have hne : j ≠ a := by rintro rfl; rw [h1] at h4; simp at h4; subst h4; rw [h2] at h5; simp at h5
      simp only [FMap.get_erase, hne, if_false]; exact ⟨s', h4, h5⟩
    · intro j f hj hu
      obtain ⟨s', h4, h5⟩ := hs.act j f hj hu
      have hne : j ≠ a := by rintro rfl; rw [h1] at h4; simp at h4; subst h4; rw [h2] at h5; simp at h5
      simp only [FMap.get_erase, hne, if_false]; exact ⟨s', h4, h5⟩
    · intro j s' hj hu
      simp only [FMap.get_erase] at hj
      split at hj
      · simp at hj
      · exact hs.time j s' hj hu
    · intro j s' hj hu
      simp only [FMap.get_erase] at hj
      split at hj
      · simp at hj
      · exact hs.out j s' hj hu
  case submitReport =>
    simp only [submitReport] at h; frame_auto at h
    exact hs.same rfl rfl (fun _ => Iff.rfl) rfl rfl rfl
  case claim =>
    simp only [claim] at h; inv_ok at h
    obtain ⟨_, _, _, b, _, _, _, _, _, _, _, h1, rfl⟩ := h
    exact hs.same rfl rfl (fun _ => Iff.rfl) rfl (Bal.transfer_locks h1).1 rfl
  case bondExtra =>
    simp only [bondExtra] at h; inv_ok at h
    obtain ⟨s, h1, h2, h3, h4, rfl⟩ := h
    constructor <;> dsimp only [World.putBal]
    · intro j s' hj
      simp only [FMap.get_insert] at hj
      unfold lockOf; dsimp only
      rw [lockOf_setLock]
      split at hj
      · simp at hj; subst hj; subst_vars
        refine ⟨(hs.led _ s h1).1, ?_⟩
        simp only [true_and]
        rw [if_pos (by omega)]; exact Nat.le_refl _
      · rename_i hne
        simp only [hne, false_and, if_false]; exact hs.led j s' hj
    · intro j f hj
      obtain ⟨s', h5, h6⟩ := hs.reg j f hj
      simp only [FMap.get_insert]
      split
      · subst_vars; rw [h1] at h5; simp at h5; subst h5; exact ⟨_, rfl, h6⟩
      · exact ⟨s', h5, h6⟩
    · intro j f hj hu
      obtain ⟨s', h5, h6⟩ := hs.act j f hj hu
      simp only [FMap.get_insert]
      split
      · subst_vars; rw [h1] at h5; simp at h5; subst h5; exact ⟨_, rfl, h6⟩
      · exact ⟨s', h5, h6⟩
    · intro j s' hj hu
      simp only [FMap.get_insert] at hj
      split at hj
      · simp at hj; subst hj; subst_vars; exact hs.time _ s h1 hu
      · exact hs.time j s' hj hu
    · intro j s' hj hu
      simp only [FMap.get_insert] at hj
      split at hj
      · simp at hj; subst hj; subst_vars; exact hs.out _ s h1 hu
      · exact hs.out j s' hj hu
  case refundExcess =>
    simp only [refundExcess] at h; inv_ok at h
    obtain ⟨s, h1, h2, rfl⟩ := h
    have hl := (hs.led a s h1).2
    constructor <;> dsimp only [World.putBal]
    · intro j s' hj
      simp only [FMap.get_insert] at hj
      unfold lockOf; dsimp only
      rw [lockOf_setLock]
      split at hj
      · simp at hj; subst hj; subst_vars
        refine ⟨(hs.led _ s h1).1, ?_⟩
        simp only [true_and]
        split
        · exact Nat.le_refl _
        · omega
      · rename_i hne
        simp only [hne, false_and, if_false]; exact hs.led j s' hj
    · intro j f hj
      obtain ⟨s', h5, h6⟩ := hs.reg j f hj
      simp only [FMap.get_insert]
      split
      · subst_vars; rw [h1] at h5; simp at h5; subst h5; exact ⟨_, rfl, h6⟩
      · exact ⟨s', h5, h6⟩
    · intro j f hj hu
      obtain ⟨s', h5, h6⟩ := hs.act j f hj hu
      simp only [FMap.get_insert]
      split
      · subst_vars; rw [h1] at h5; simp at h5; subst h5; exact ⟨_, rfl, h6⟩
      · exact ⟨s', h5, h6⟩
    · intro j s' hj hu
      simp only [FMap.get_insert] at hj
      split at hj
      · simp at hj; subst hj; subst_vars; exact hs.time _ s h1 hu
      · exact hs.time j s' hj hu
    · intro j s' hj hu
      simp only [FMap.get_insert] at hj
      split at hj
      · simp at hj; subst hj; subst_vars; exact hs.out _ s h1 hu
      · exact hs.out j s' hj hu

theorem unassign_sinv {op} (h : unassign w op = .ok w') (hi : TInv c w.tee) (hs : SInv w) :
    SInv w' := by
  simp only [unassign] at h; inv_ok at h
  obtain ⟨e, k, cl, he, _, hk, hcl, rfl⟩ := h
  have um : ∀ j, j ∈ swapRemoveBy (fun x => decide (x = op)) w.tee.unregs ↔ j ∈ w.tee.unregs ∧ j ≠ op := by
    intro j; simpa using swapRemoveBy_mem id op (l := w.tee.unregs) (by simpa using hi.unr) j
  constructor <;> dsimp only
  · exact hs.led
  · exact hs.reg
  · intro j f hj hu
    simp only [FMap.get_erase] at hj
    split at hj
    · simp at hj
    · rename_i hne
      exact hs.act j f hj (fun hm => hu ((um j).2 ⟨hm, hne⟩))
  · exact hs.time
  · intro j s hj hu
    simp only [FMap.get_erase]
    split
    · exact Or.inl rfl
    · rename_i hne
      rcases hs.out j s hj hu with h | h
      · exact Or.inl h
      · exact Or.inr ((um j).2 ⟨h, hne⟩)

theorem root_sinv {x : RootCall} (h : root c w x = .ok w') (hi : TInv c w.tee) (hs : SInv w) :
    SInv w' := by
  cases x <;> simp only [root] at h
  case removeRegistration => exact dropRegistration_sinv h hi hs
  case rejectUpdate =>
    simp only [dropUpdate] at h; frame_auto at h; exact hs.same rfl rfl (fun _ => Iff.rfl) rfl rfl rfl
  case approveUnregister =>
    simp only [approveUnregister] at h; inv_ok at h
    exact unassign_sinv h.2 hi hs
  case forceRemove op =>
    simp only [forceRemove] at h; inv_ok at h
    obtain ⟨w1, s, h1, h2, rfl⟩ := h
    have hs1 := unassign_sinv h1 hi hs
    have hd : w1.tee.data.get op = none := by
      simp only [unassign] at h1; inv_ok at h1
      obtain ⟨e, k, cl, he, _, hk, hcl, rfl⟩ := h1
      simp
    constructor <;> dsimp only
    · intro j s' hj
      simp only [FMap.get_insert] at hj
      split at hj
      · simp at hj; subst hj; subst_vars; exact hs1.led _ s h2
      · exact hs1.led j s' hj
    · intro j f hj
      by_cases e : j = op
      · subst e
        exfalso
        simp only [unassign] at h1; inv_ok at h1
        obtain ⟨e, k, cl, he, _, hk, hcl, rfl⟩ := h1
        have := hi.reg j f hj; rw [he] at this; simp at this
      · simp only [FMap.get_insert, e, if_false]; exact hs1.reg j f hj
    · intro j f hj hu
      have hne : j ≠ op := by rintro rfl; rw [hd] at hj; simp at hj
      simp only [FMap.get_insert, hne, if_false]; exact hs1.act j f hj hu
    · intro j s' hj hu
      simp only [FMap.get_insert] at hj
      split at hj
      · simp at hj; subst hj; exact Nat.le_refl _
      · exact hs1.time j s' hj hu
    · intro j s' hj hu
      simp only [FMap.get_insert] at hj
      split at hj
      · subst_vars; exact Or.inl hd
      · exact hs1.out j s' hj hu
  case approveUpdate op =>
    simp only [approveUpdate] at h; inv_ok at h
    obtain ⟨u, e, w1, h1, h2, h3, h4, h5, rfl⟩ := h
    have : ∀ j, (w.tee.data.insert op { addr := u.addr, uri := u.uri }).get j = none ↔
        w.tee.data.get j = none := by
      intro j; simp only [FMap.get_insert]; split
      · subst_vars; simp [h4]
      · rfl
    unfold approveAddr at h5
    split at h5
    · inv_ok at h5; subst h5; exact hs.same rfl rfl this rfl rfl rfl
    · inv_ok at h5; obtain ⟨h5, rfl⟩ := h5; exact hs.same rfl rfl this rfl rfl rfl
  case forceUpdate op ad uri =>
    simp only [forceUpdate] at h; inv_ok at h
    obtain ⟨e, y, h1, h2, h3, h4, rfl⟩ := h
    have : ∀ f : Enclave, ∀ j, (w.tee.data.insert op f).get j = none ↔
        w.tee.data.get j = none := by
      intro f j; simp only [FMap.get_insert]; split
      · subst_vars; simp [h2]
      · rfl
    cases ad with
    | none =>
      simp only [forceAddr] at h3; inv_ok at h3; subst h3; exact hs.same rfl rfl (this _) rfl rfl rfl
    | some ad =>
      simp only [forceAddr] at h3; inv_ok at h3
      obtain ⟨h5, h6, rfl⟩ := h3
      by_cases e1 : e.addr = ad
      · simp only [e1, if_true]; exact hs.same rfl rfl (this _) rfl rfl rfl
      · simp only [e1, if_false]; exact hs.same rfl rfl (this _) rfl rfl rfl
  case assign op k slot =>
    simp only [assign] at h; inv_ok at h
    obtain ⟨r, cl, era, h1, h2, h3, h4, h5, h6, rfl⟩ := h
    constructor <;> dsimp only
    · exact hs.led
    · intro j f hj
      simp only [FMap.get_erase] at hj
      split at hj
      · simp at hj
      · exact hs.reg j f hj
    · intro j f hj hu
      simp only [FMap.get_insert] at hj
      split at hj
      · subst_vars; exact hs.reg _ r h1
      · exact hs.act j f hj hu
    · exact hs.time
    · intro j s hj hu
      simp only [FMap.get_insert]
      split
      · subst_vars
        obtain ⟨s', h7, h8⟩ := hs.reg _ r h1
        rw [hj] at h7; simp at h7; subst h7; rw [hu] at h8; simp at h8
      · exact hs.out j s hj hu
  all_goals simp only [registerServer, unregisterServer, setServerType, setWeights, setStakingAmount,
    setPool, setAssignedEra, createCluster, updateCluster, removeCluster] at h
  all_goals frame_auto at h
  all_goals exact hs.same rfl rfl (fun _ => Iff.rfl) rfl rfl rfl

end TeeM

theorem TeeM.hook_eq (w : World) : TeeM.hook c w = w ∨
    ∃ e, w.active = some e ∧ c.history ≤ e ∧ TeeM.hook c w = TeeM.clearEra w (e - c.history) := by
  unfold TeeM.hook
  split
  · exact Or.inl rfl
  · rename_i e he
    split
    · rename_i h; exact Or.inr ⟨e, he, h, rfl⟩
    · exact Or.inl rfl

theorem Reach.sinv (h : Reach c w) : TeeM.SInv w := by
  induction h with
  | init h =>
    obtain ⟨h1, h2, h3, h4, h5, h6, h7, h8, h9, h10, h11, h12, h13⟩ := h.tee
    constructor <;> simp [h1, h4, h10]
  | step o hr ho ih =>
    cases step_tee _ o ho with
    | quiet h1 h2 h3 => exact ih.congr h1 h2 (by omega)
    | call _ _ h => exact TeeM.call_sinv h hr.tinv ih
    | root _ _ _ h _ e =>
      have := TeeM.root_sinv h hr.tinv ih
      rw [e]; exact this.congr rfl rfl (Nat.le_refl _)
    | hook _ e =>
      rw [e]
      rcases TeeM.hook_eq (c := c) _ with h | ⟨e, _, _, h⟩
      · rw [h]; exact ih
      · rw [h]; exact ih.same rfl rfl (fun _ => Iff.rfl) rfl rfl rfl
