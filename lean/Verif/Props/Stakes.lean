import Verif.Props.Operate
import Verif.Proofs.Stray
/-
Property C94: a stake is locked only for a stake on record, and its owner can get it back.
-/
variable {c : Cfg} {w w' : World} {a : AccountId}
set_option maxRecDepth 10000

namespace Spec

/-- the unbonding of `a`'s stake counts from block `t` -/
def Unbonding (w : World) (a : AccountId) (t : Block) : Prop :=
  ∃ s, w.tee.ledger.get a = some s ∧ s.unlocking = true ∧ s.unbondedAt = t

/-- `a` asks for the stake -/
def Withdraws (o : Op) (a : AccountId) : Prop := o = .call (.signed a) (.tee .withdraw)

end Spec

/-- A lock for a stake always belongs to a stake on record, of the same account, and is not smaller. -/
theorem C94_lock (hr : Reach c w) {v : Balance} (h : w.bal.tee.get a = some v) :
    ∃ s, w.tee.ledger.get a = some s ∧ s.operator = a ∧ s.staked ≤ v := by
  rcases hs : w.tee.ledger.get a with _ | s
  · rw [hr.noStray a hs] at h; simp at h
  · have := hr.sinv.led a s hs
    unfold TeeM.lockOf at this
    rw [h] at this
    exact ⟨s, rfl, this.1, this.2⟩

example : Reach Demo.cfg (Demo.at_ Demo.enclaves) ∧ (Demo.at_ Demo.enclaves).bal.tee.get 8 = some 50 :=
  ⟨Demo.reach _ (by decide), by decide⟩

/-- Whoever has a stake can go: who is not assigned yet has it back at once; who is assigned starts the unbonding, unless
the list of those who leave is full; who is unbonding has it back by asking for it when the time is over. -/
theorem C94_exit (hr : Reach c w) {s : Ledger} (h : w.tee.ledger.get a = some s) :
    (∃ w', dispatch c (.tee .unregister) (.signed a) w = .ok w' ∧ w'.tee.ledger.get a = none ∧ w'.bal.tee.get a = none) ∨
    (w.tee.unregs.length < c.teeList →
      ∃ w', dispatch c (.tee .unregister) (.signed a) w = .ok w' ∧ Spec.Unbonding w' a w.now) ∧
      w.tee.data.get a ≠ none ∨
    ∃ t, t ≤ w.now ∧ Spec.Unbonding w a t ∧ (t + c.bonding ≤ w.now →
      ∃ w', dispatch c (.tee .withdraw) (.signed a) w = .ok w' ∧ w'.tee.ledger.get a = none ∧ w'.bal.tee.get a = none) := by
  rcases hu : s.unlocking with _ | _
  · rcases hr.held a s h hu with h1 | ⟨h1, h2⟩
    · obtain ⟨e, he⟩ := Option.ne_none_iff_exists'.1 h1
      exact Or.inl ⟨_, C73_cancel hr he, by simp, by simp⟩
    · obtain ⟨e, he⟩ := Option.ne_none_iff_exists'.1 h1
      refine Or.inr (Or.inl ⟨fun hl => ?_, h1⟩)
      obtain ⟨w', h'⟩ : ∃ w', dispatch c (.tee .unregister) (.signed a) w = .ok w' := by
        eval_ok [TeeM.call, TeeM.unregister, TeeM.unregisterAssigned, he, h2, hl, h]
      refine ⟨w', h', ?_⟩
      simp only [dispatch, signedCall, TeeM.call, TeeM.unregister, he, TeeM.unregisterAssigned] at h'; inv_ok at h'
      obtain ⟨s', _, _, _, rfl⟩ := h'
      exact ⟨_, FMap.get_insert_self .., rfl, rfl⟩
  · refine Or.inr (Or.inr ⟨s.unbondedAt, hr.sinv.time a s h hu, ⟨s, h, hu, rfl⟩, fun ht => ?_⟩)
    exact ⟨_, C73_withdraw h hu ht, by simp, by simp⟩

example : Reach Demo.cfg (Demo.at_ Demo.unbonding) ∧
    (Demo.at_ Demo.unbonding).tee.ledger.get 8 = some ⟨8, 50, true, 3⟩ ∧
    (Demo.at_ Demo.unbonding).tee.ledger.get 9 = some ⟨9, 50, false, 0⟩ :=
  ⟨Demo.reach _ (by decide), by decide, by decide⟩

/-- Whatever happens, unbonding once begun goes on from its block, until the owner has withdrawn the stake, or root removes
the enclave by force and the time starts anew. -/
theorem C94_wait (hr : Reach c w) {t : Block} (h : Spec.Unbonding w a t) (l : List Op) (hl : ∀ o ∈ l, o.Ok c)
    (h1 : ∀ o ∈ l, ¬ Spec.Withdraws o a) (h2 : ∀ o ∈ l, ¬ Spec.orders o (.forceRemove a)) :
    Spec.Unbonding (run c w l) a t := by
  induction l generalizing w with
  | nil => exact h
  | cons o l ih =>
    have ho := hl o (by simp)
    refine ih (hr.step o ho) ?_ (fun x hx => hl x (by simp [hx])) (fun x hx => h1 x (by simp [hx]))
      (fun x hx => h2 x (by simp [hx]))
    obtain ⟨s, hs, hu, ht⟩ := h
    have hm := step_stake hr o ho a
    rw [hs] at hm
    unfold Spec.Unbonding
    generalize hy : some s = y at hm
    generalize hx : (step c w o).tee.ledger.get a = x at hm
    cases hm with
    | same => subst hy; exact ⟨s, rfl, hu, ht⟩
    | register => simp at hy
    | unregister e hd =>
      have hb : dispatch c (.tee .unregister) (.signed a) w = .error (.e "UnregistrationAlreadyExists") := by
        have hm := (hr.sinv.out a s hs hu).resolve_left hd
        obtain ⟨e, he⟩ := Option.ne_none_iff_exists'.1 hd
        simp [dispatch, signedCall, TeeM.call, TeeM.unregister, TeeM.unregisterAssigned, he, hm, require, bind, Except.bind]
      rw [e] at hx
      simp only [step, hb, orSame] at hx
      rw [hs] at hx; exact ⟨s, hx.symm, hu, ht⟩
    | forced e _ => exact absurd (orders_iff.2 e) (h2 o (by simp))
    | dropped _ hd _ =>
      obtain ⟨e, he⟩ := Option.ne_none_iff_exists'.1 hd
      obtain ⟨s', h3, h4⟩ := hr.sinv.reg a e he
      rw [hs] at h3; simp only [Option.some.injEq] at h3; subst h3
      rw [hu] at h4; simp at h4
    | withdrawn e _ _ => exact absurd e (h1 o (by simp))
    | bonded _ _ => simp only [Option.some.injEq] at hy; subst hy; exact ⟨_, rfl, hu, ht⟩
    | refunded _ _ => simp only [Option.some.injEq] at hy; subst hy; exact ⟨_, rfl, hu, ht⟩

/-- operator 8 has asked to leave -/
abbrev leaving : List Op := Demo.enclaves ++ [Demo.by_ 8 (.tee .unregister)]

/-- ten blocks pass and root approves -/
abbrev approved : List Op := Demo.ticks 10 ++ [.call .root (.root (.tee (.approveUnregister 8)))]

example : Reach Demo.cfg (Demo.at_ leaving) ∧ Spec.Unbonding (Demo.at_ leaving) 8 0 ∧ (∀ o ∈ approved, o.Ok Demo.cfg) ∧
    (∀ o ∈ approved, ¬ Spec.Withdraws o 8) ∧ (∀ o ∈ approved, ¬ Spec.orders o (.forceRemove 8)) :=
  ⟨Demo.reach _ (by decide), ⟨_, rfl, rfl, rfl⟩, by decide, by unfold Spec.Withdraws; simp, by
    simp [Spec.orders, Spec.innermost]⟩

/-- So after the unbonding time, whatever others do meanwhile, the owner gets the stake back whenever they ask. -/
theorem C94_back (hr : Reach c w) {t : Block} (h : Spec.Unbonding w a t) (l : List Op) (hl : ∀ o ∈ l, o.Ok c)
    (h1 : ∀ o ∈ l, ¬ Spec.Withdraws o a) (h2 : ∀ o ∈ l, ¬ Spec.orders o (.forceRemove a))
    (ht : t + c.bonding ≤ (run c w l).now) :
    ∃ w', dispatch c (.tee .withdraw) (.signed a) (run c w l) = .ok w' ∧ w'.bal.tee.get a = none ∧
      w'.bal.free = (run c w l).bal.free := by
  obtain ⟨s, hs, hu, rfl⟩ := C94_wait hr h l hl h1 h2
  exact ⟨_, C73_withdraw hs hu ht, by simp, rfl⟩

example : 0 + Demo.cfg.bonding ≤ (run Demo.cfg (Demo.at_ leaving) approved).now := by decide

/-- The exception is real: an operator that has waited for the unbonding time has to wait again when root removed
it by force meanwhile. -/
theorem C94_restart : ∃ c w a l, c.Ok ∧ Reach c w ∧ (∀ o ∈ l, o.Ok c) ∧ Spec.Unbonding w a w.now ∧
    (∀ o ∈ l, ¬ Spec.Withdraws o a) ∧ w.now + c.bonding ≤ (run c w l).now ∧
    (dispatch c (.tee .withdraw) (.signed a) (run c w l)).isOk = false :=
  ⟨Demo.cfg, Demo.at_ leaving, 8,
    Demo.ticks 9 ++ [.call .root (.root (.tee (.forceRemove 8))), .tick], Demo.cfg_ok, Demo.reach _ (by decide),
    by decide, ⟨_, rfl, rfl, rfl⟩, by unfold Spec.Withdraws; simp, by decide, by decide⟩
