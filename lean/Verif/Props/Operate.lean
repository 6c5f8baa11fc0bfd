import Verif.Props.Trade
import Verif.Props.Tee
import Mathlib.Data.List.Nodup
/-
Property C73: the life of an enclave operator.
-/
variable {c : Cfg} {w w' : World} {a : AccountId}
set_option maxRecDepth 10000

/- C73 -/

/-- Everybody who runs no enclave, has no stake and can set the staking amount aside on top of their locks can
register an unused address; exactly the staking amount is then locked. -/
theorem C73_register (hr : Reach c w) {addr : AccountId} {uri : Data} (h1 : w.tee.data.get a = none)
    (h2 : w.tee.ledger.get a = none) (h3 : w.tee.accOp.get addr = none) (h4 : addr ≠ a) (h5 : uri ≠ [])
    (h6 : w.tee.stakingAmount + Spec.locked w.bal a ≤ w.bal.freeOf a) :
    ∃ b, dispatch c (.tee (.register addr uri)) (.signed a) w = .ok { w with
        bal := b
        tee := { w.tee with
          ledger := w.tee.ledger.insert a ⟨a, w.tee.stakingAmount, false, 0⟩
          registrations := w.tee.registrations.insert a ⟨addr, uri⟩ } } ∧
      b.free = w.bal.free ∧ (w.tee.stakingAmount ≠ 0 → b.tee.get a = some w.tee.stakingAmount) := by
  have h7 : w.tee.registrations.get a = none := by
    rcases hn : w.tee.registrations.get a with _ | e
    · rfl
    · obtain ⟨s, hs, _⟩ := hr.sinv.reg a e hn
      rw [h2] at hs; simp at hs
  have h8 : w.bal.ensureCanWithdraw a w.tee.stakingAmount (w.bal.freeOf a - w.tee.stakingAmount) :=
    Or.inr (by rw [Spec.locked_eq] at h6; omega)
  have h9 : w.tee.stakingAmount ≤ w.bal.freeOf a := by omega
  refine ⟨w.bal.setLock a w.tee.stakingAmount, ?_, ?_, fun h => ?_⟩
  · eval_ok [TeeM.call, TeeM.register, h1, h2, h3, h5, h4.symm, h7, h8, h9, World.putBal]
  · unfold Bal.setLock; split <;> rfl
  · simp [Bal.setLock, h]

/-- Who has registered and is not assigned yet can take the registration back: the whole stake is free again. -/
theorem C73_cancel (hr : Reach c w) {e : Enclave} (h : w.tee.registrations.get a = some e) :
    dispatch c (.tee .unregister) (.signed a) w = .ok { w with
      bal := { w.bal with tee := w.bal.tee.erase a }
      tee := { w.tee with
        registrations := w.tee.registrations.erase a
        ledger := w.tee.ledger.erase a } } := by
  have h1 := hr.tinv.reg a e h
  eval_ok [TeeM.call, TeeM.unregister, h1, h, TeeM.dropRegistration, Bal.removeLock, World.putBal]

/-- Root can assign every registered operator to every cluster with room, if nobody took the address in the
meantime. -/
theorem C73_assign (hr : Reach c w) {op : AccountId} {e : Enclave} {k : ClusterId} {cl : Cluster} {slot : SlotId}
    {era : Era} (h : w.tee.registrations.get op = some e) (h1 : w.tee.clusters.get k = some cl)
    (h2 : cl.enclaves.length < c.clusterSize) (h3 : w.tee.accOp.get e.addr = none) (h4 : w.active = some era) :
    dispatch c (.root (.tee (.assign op k slot))) .root w = .ok { w with
      tee := { w.tee with
        accOp := w.tee.accOp.insert e.addr op
        data := w.tee.data.insert op e
        opCluster := w.tee.opCluster.insert op k
        assignedEra := w.tee.assignedEra.insert op era
        clusters := w.tee.clusters.insert k { cl with enclaves := cl.enclaves ++ [(op, slot)] }
        registrations := w.tee.registrations.erase op } } := by
  have h5 := hr.tinv.reg op e h
  eval_ok [rootCall, TeeM.root, TeeM.assign, h, h1, h2, h3, h4, h5]

/-- What holds of leaving: an assigned operator can ask to be unregistered, once, while fewer than the limit have
asked; the unbonding time starts.  Missing: the limit, see `C73_fails_leave`. -/
theorem C73_leave_partial (hr : Reach c w) {e : Enclave} (h : w.tee.data.get a = some e) (h1 : a ∉ w.tee.unregs)
    (h2 : w.tee.unregs.length < c.teeList) :
    ∃ s, w.tee.ledger.get a = some s ∧ dispatch c (.tee .unregister) (.signed a) w = .ok { w with
      tee := { w.tee with
        unregs := w.tee.unregs ++ [a]
        ledger := w.tee.ledger.insert a ⟨a, s.staked, true, w.now⟩ } } := by
  obtain ⟨s, h3, _⟩ := hr.sinv.act a e h h1
  have h4 := (hr.sinv.led a s h3).1
  refine ⟨s, h3, ?_⟩
  eval_ok [TeeM.call, TeeM.unregister, h, TeeM.unregisterAssigned, h1, h2, h3, h4]

/-- what becomes of the registry when operator `op` with enclave `e` leaves -/
structure Spec.Left (w w' : World) (op : AccountId) (e : Enclave) : Prop where
  data : w'.tee.data = w.tee.data.erase op
  cluster : w'.tee.opCluster = w.tee.opCluster.erase op
  era : w'.tee.assignedEra = w.tee.assignedEra.erase op
  address : w'.tee.accOp = w.tee.accOp.erase e.addr
  updates : w'.tee.updates = w.tee.updates.erase op
  unregs : ∀ x, x ∈ w'.tee.unregs ↔ x ∈ w.tee.unregs ∧ x ≠ op
  seats : ∀ k x, Spec.seats w' k x = if x = op then 0 else Spec.seats w k x
  bal : w'.bal = w.bal
  nfts : w'.nfts = w.nfts

theorem unassign_left (hr : Reach c w) {op : AccountId} {e : Enclave} (h : w.tee.data.get op = some e) :
    ∃ w', TeeM.unassign w op = .ok w' ∧ Spec.Left w w' op e ∧ w'.tee.ledger = w.tee.ledger ∧
      w'.now = w.now := by
  have hi := hr.tinv
  have h1 := hi.addr op e h
  rcases h2 : w.tee.opCluster.get op with _ | k
  · rw [(hi.clu op).1 h2] at h; simp at h
  obtain ⟨cl, h3, h4⟩ := hi.mem op k h2
  simp only [TeeM.unassign, h, h1, h2, h3, getOr, require, bind, Except.bind, pure, Except.pure,
    Option.isSome_some, if_true]
  have hu : (w.tee.unregs.map id).Nodup := by simpa using hi.unr
  have hn := hi.nodup k cl h3
  refine ⟨_, rfl, ⟨rfl, rfl, rfl, rfl, rfl, fun x => ?_, fun k' x => ?_, rfl, rfl⟩, rfl, rfl⟩
  · have := swapRemoveBy_mem (id : AccountId → AccountId) op hu x
    simpa using this
  · unfold Spec.seats
    simp only [FMap.get_insert]
    by_cases hk : k' = k
    · subst hk
      simp only [if_true, h3]
      have hm := swapRemoveBy_mem Prod.fst op hn x
      have hd := swapRemoveBy_nodup Prod.fst op hn
      by_cases hx : x = op
      · simp only [hx, if_true, List.count_eq_zero]
        rw [hx] at hm
        exact fun h => (hm.1 h).2 rfl
      · simp only [hx, if_false]
        by_cases hx2 : x ∈ cl.enclaves.map Prod.fst
        · rw [_root_.List.count_eq_one_of_mem hd (hm.2 ⟨hx2, hx⟩), List.count_eq_one_of_mem hn hx2]
        · rw [List.count_eq_zero.2 hx2, List.count_eq_zero.2 (fun h => hx2 (hm.1 h).1)]
    · simp only [hk, if_false]
      by_cases hx : x = op
      · subst hx
        simp only [if_true]
        split
        · rename_i cl' hcl'
          rw [List.count_eq_zero]
          intro hm
          have := hi.back k' cl' x hcl' hm
          rw [h2] at this; simp at this; exact hk this.symm
        · rfl
      · simp [hx]

/-- Root can approve every pending request to leave: the operator leaves the registry, and nobody else does. -/
theorem C73_approve (hr : Reach c w) {op : AccountId} (h : op ∈ w.tee.unregs) :
    ∃ e w', w.tee.data.get op = some e ∧
      dispatch c (.root (.tee (.approveUnregister op))) .root w = .ok w' ∧ Spec.Left w w' op e ∧
      w'.tee.ledger = w.tee.ledger := by
  obtain ⟨e, h1⟩ := Option.ne_none_iff_exists'.1 (hr.tinv.unrData op h)
  obtain ⟨w', h2, h3, h4, _⟩ := unassign_left hr h1
  refine ⟨e, w', h1, ?_, h3, h4⟩
  eval_ok [rootCall, TeeM.root, TeeM.approveUnregister, h, h2]

/-- Root can remove every assigned operator that has a stake; its unbonding time starts. -/
theorem C73_remove (hr : Reach c w) {op : AccountId} {e : Enclave} {s : Ledger} (h : w.tee.data.get op = some e)
    (hs : w.tee.ledger.get op = some s) :
    ∃ w', dispatch c (.root (.tee (.forceRemove op))) .root w = .ok w' ∧ Spec.Left w w' op e ∧
      w'.tee.ledger = w.tee.ledger.insert op ⟨op, s.staked, true, w.now⟩ := by
  obtain ⟨w1, h2, h3, h4, h5⟩ := unassign_left hr h
  have h6 := (hr.sinv.led op s hs).1
  rw [← h4] at hs
  have hd : dispatch c (.root (.tee (.forceRemove op))) .root w = .ok { w1 with
      tee := { w1.tee with ledger := w1.tee.ledger.insert op ⟨op, s.staked, true, w1.now⟩ } } := by
    eval_ok [rootCall, TeeM.root, TeeM.forceRemove, h2, hs, h6]
  exact ⟨_, hd, ⟨h3.data, h3.cluster, h3.era, h3.address, h3.updates, h3.unregs, h3.seats, h3.bal, h3.nfts⟩,
    by rw [← h4, ← h5]⟩

/-- When the unbonding time is over, the stake can be withdrawn: nothing is locked any more. -/
theorem C73_withdraw {s : Ledger} (h : w.tee.ledger.get a = some s) (h1 : s.unlocking = true)
    (h2 : s.unbondedAt + c.bonding ≤ w.now) :
    dispatch c (.tee .withdraw) (.signed a) w = .ok { w with
      bal := { w.bal with tee := w.bal.tee.erase a }
      tee := { w.tee with ledger := w.tee.ledger.erase a } } := by
  eval_ok [TeeM.call, TeeM.withdraw, h, h1, show c.bonding ≤ w.now - s.unbondedAt by omega, World.putBal,
    Bal.removeLock]

/-- After the staking amount was raised, an operator that has the difference free can bond it. -/
theorem C73_bond {s : Ledger} (h : w.tee.ledger.get a = some s) (h1 : s.staked < w.tee.stakingAmount)
    (h2 : w.tee.stakingAmount - s.staked + Spec.locked w.bal a ≤ w.bal.freeOf a) :
    dispatch c (.tee .bondExtra) (.signed a) w = .ok { w with
      bal := { w.bal with tee := w.bal.tee.insert a w.tee.stakingAmount }
      tee := { w.tee with ledger := w.tee.ledger.insert a { s with staked := w.tee.stakingAmount } } } := by
  have h3 : w.bal.ensureCanWithdraw a (w.tee.stakingAmount - s.staked)
    (w.bal.freeOf a - (w.tee.stakingAmount - s.staked)) := Or.inr (by rw [Spec.locked_eq] at h2; omega)
  have h4 : w.tee.stakingAmount - s.staked ≤ w.bal.freeOf a := by omega
  eval_ok [TeeM.call, TeeM.bondExtra, h, h1, h3, h4, World.putBal, Bal.setLock,
    show w.tee.stakingAmount ≠ 0 by omega]

/-- What holds of refunds: after the staking amount was lowered to a positive amount, every staker can take the
excess back; exactly the new amount stays locked.  Missing: the amount 0, see `C73_fails_refund`. -/
theorem C73_refund_partial {s : Ledger} (h : w.tee.ledger.get a = some s) (h1 : w.tee.stakingAmount < s.staked)
    (h2 : w.tee.stakingAmount ≠ 0) :
    dispatch c (.tee .refundExcess) (.signed a) w = .ok { w with
      bal := { w.bal with tee := w.bal.tee.insert a w.tee.stakingAmount }
      tee := { w.tee with ledger := w.tee.ledger.insert a { s with staked := w.tee.stakingAmount } } } := by
  eval_ok [TeeM.call, TeeM.refundExcess, h, h1, World.putBal, Bal.setLock, h2]

/-- An assigned operator can ask for another address or name, and take the request back. -/
theorem C73_update (hr : Reach c w) {e : Enclave} (h : w.tee.data.get a = some e) (h0 : w.tee.updates.get a = none)
    {addr : AccountId} {uri : Data} (h1 : addr = e.addr ∨ addr ≠ a ∧ w.tee.accOp.get addr = none)
    (h2 : uri ≠ []) :
    ∃ w', dispatch c (.tee (.update addr uri)) (.signed a) w = .ok w' ∧
      w' = { w with tee := { w.tee with updates := w.tee.updates.insert a ⟨addr, uri⟩ } } ∧
      ∃ w'', dispatch c (.tee .cancelUpdate) (.signed a) w' = .ok w'' ∧ w''.tee.updates.get a = none ∧
        w''.tee.data = w.tee.data := by
  have h3 : ¬ a = addr := by
    rcases h1 with h1 | h1
    · rw [h1]; exact fun h' => (hr.tinv.dataNe a e h).1 h'.symm
    · exact fun h' => h1.1 h'.symm
  have h4 : e.addr = addr ∨ w.tee.accOp.get addr = none := h1.imp Eq.symm And.right
  refine ⟨_, ?_, rfl, ?_⟩
  · eval_ok [TeeM.call, TeeM.update, h, h0, h2, h3, h4]
  · refine ⟨{ w with tee := { w.tee with updates := (w.tee.updates.insert a ⟨addr, uri⟩).erase a } }, ?_, ?_, rfl⟩
    · eval_ok [TeeM.call, TeeM.dropUpdate]
    · simp

/-- the highest value of one parameter in the reports -/
def Spec.best (f : Params → Nat) (l : List Report) : Nat := (l.map fun r => f r.params).foldr max 0

/-- The reward of an operator for an era: an equal share of the pool; if there are reports, the share is scaled
by the highest reported value of each parameter, weighted, out of 10000.  Fractions are taken with `Perbill`. -/
def Spec.reward (w : World) (E : Era) (op : AccountId) : Balance :=
  let share := perbillMul (perbillOf 1 w.tee.data.card) w.tee.pool
  match w.tee.reports.get (E, op) with
  | none => share
  | some l =>
    let k := w.tee.weights
    perbillMul (perbillOf (best Params.p1 l * k.p1 + best Params.p2 l * k.p2 + best Params.p3 l * k.p3 +
      best Params.p4 l * k.p4 + best Params.p5 l * k.p5) 10000) share

theorem highest_eq (l : List Report) : TeeM.highest l =
    ⟨Spec.best Params.p1 l, Spec.best Params.p2 l, Spec.best Params.p3 l, Spec.best Params.p4 l,
      Spec.best Params.p5 l⟩ := by
  have h : ∀ (l : List Report) (p : Params), l.foldl (fun p r =>
      ({ p1 := max p.p1 r.params.p1, p2 := max p.p2 r.params.p2, p3 := max p.p3 r.params.p3,
         p4 := max p.p4 r.params.p4, p5 := max p.p5 r.params.p5 } : Params)) p =
      ⟨max p.p1 (Spec.best Params.p1 l), max p.p2 (Spec.best Params.p2 l), max p.p3 (Spec.best Params.p3 l),
       max p.p4 (Spec.best Params.p4 l), max p.p5 (Spec.best Params.p5 l)⟩ := by
    intro l
    induction l with
    | nil => intro p; simp [Spec.best]
    | cons r t ih =>
      intro p
      rw [List.foldl_cons, ih]
      simp [Spec.best, Nat.max_assoc]
  rw [TeeM.highest, h]
  simp

theorem Spec.reward_eq (w : World) (E : Era) (op : AccountId) : Spec.reward w E op = TeeM.reward w.tee E op := by
  unfold Spec.reward TeeM.reward
  cases w.tee.reports.get (E, op) with
  | none => rfl
  | some l => simp only [TeeM.weighted, highest_eq]; rfl

/-- Whatever is paid for an era is exactly the reward of the operator for that era at the time of the claim, and it
is only ever paid by that operator's own claim. -/
theorem C47_exact (o : Op) {E : Era} (h : Spec.paid E (step c w o).evs ≠ Spec.paid E w.evs) :
    ∃ a, o = .call (.signed a) (.tee (.claim E)) ∧
      Spec.paid E (step c w o).evs = (a, Spec.reward w E a) :: Spec.paid E w.evs := by
  rw [paid_eq, paid_eq] at h
  rcases step_paid (c := c) w o E with h1 | ⟨a, rfl, _, h1⟩
  · exact absurd h1 h
  · exact ⟨a, rfl, by rw [paid_eq, paid_eq, Spec.reward_eq]; exact h1⟩

example : Spec.paid 5 (step Demo.cfg (Demo.at_ Demo.claims) (Demo.by_ 9 (.tee (.claim 5)))).evs ≠
    Spec.paid 5 (Demo.at_ Demo.claims).evs ∧ Spec.reward (Demo.at_ Demo.claims) 5 9 = 50 := by decide

/-- What holds of claims: an operator can claim the reward of every era but 0 in the window since its assignment,
once, if the tee account holds it; it receives exactly the reward.  Missing: era 0, see `C73_fails_era`. -/
theorem C73_claim_partial {A E s : Era} {e : Enclave} (h0 : 0 < E) (h : w.tee.data.get a = some e)
    (h1 : w.tee.assignedEra.get a = some s) (h2 : s ≤ E) (h3 : w.active = some A) (h4 : E + 2 < A)
    (h5 : A < E + c.history) (h6 : w.tee.claimed.get (E, a) = none)
    (h7 : Spec.CanPay c w c.teePot (Spec.reward w E a)) (h8 : Spec.CanGet c w a (Spec.reward w E a)) :
    ∃ b, dispatch c (.tee (.claim E)) (.signed a) w = .ok { w with
        bal := b
        tee := { w.tee with claimed := w.tee.claimed.insert (E, a) (Spec.reward w E a) }
        evs := .rewardClaimed E a (Spec.reward w E a) :: w.evs } ∧
      Spec.Moved w.bal b c.teePot a (Spec.reward w E a) := by
  rw [Spec.reward_eq] at *
  obtain ⟨b, hb, hb'⟩ := Bal.transfer_pays_any .allowDeath h7 (h8.imp_right Or.inr)
  have h8 : E < A - 2 ∧ A - c.history < E ∧ s ≤ E := ⟨by omega, by omega, h2⟩
  refine ⟨b, ?_, Spec.Moved.of hb'⟩
  eval_ok [TeeM.call, TeeM.claim, h, h1, h3, h6, h8, hb, World.putBal, World.ev]

/-- reports on one operator for one era come from distinct submitters -/
def OneEach (w : World) : Prop := ∀ E op l, w.tee.reports.get (E, op) = some l → (l.map Report.by_).Nodup

theorem TeeM.putReport_none {r : Report} {l : List Report} (h : putReport r l = none) :
    r.by_ ∉ l.map Report.by_ := by
  induction l with
  | nil => simp
  | cons x t ih =>
    simp only [putReport] at h
    split at h
    · simp at h
    · rename_i hne
      simp only [Option.map_eq_none_iff] at h
      simp only [List.map_cons, List.mem_cons, not_or]
      exact ⟨Ne.symm hne, ih h⟩

theorem TeeM.putReport_some {r : Report} {l l' : List Report} (hn : (l.map Report.by_).Nodup)
    (h : putReport r l = some l') :
    l'.map Report.by_ = l.map Report.by_ ∧ (∀ x, x ∈ l' ↔ x = r ∨ x ∈ l ∧ x.by_ ≠ r.by_) ∧
      l'.length = l.length := by
  induction l generalizing l' with
  | nil => simp [putReport] at h
  | cons y t ih =>
    simp only [List.map_cons, List.nodup_cons] at hn
    simp only [putReport] at h
    split at h
    · rename_i he
      simp only [Option.some.injEq] at h; subst h
      refine ⟨by simp [he], fun x => ?_, by simp⟩
      simp only [List.mem_cons]
      constructor
      · rintro (h | h)
        · exact Or.inl h
        · refine Or.inr ⟨Or.inr h, fun e => hn.1 ?_⟩
          rw [he, ← e]; exact List.mem_map_of_mem h
      · rintro (h | ⟨h | h, h2⟩)
        · exact Or.inl h
        · rw [h] at h2; exact absurd he h2
        · exact Or.inr h
    · rename_i hne
      simp only [Option.map_eq_some_iff] at h
      obtain ⟨m, h1, rfl⟩ := h
      obtain ⟨i1, i2, i3⟩ := ih hn.2 h1
      refine ⟨by simp [i1], fun x => ?_, by simp [i3]⟩
      simp only [List.mem_cons, i2]
      constructor
      · rintro (h | h | h)
        · exact Or.inr ⟨Or.inl h, by rw [h]; exact hne⟩
        · exact Or.inl h
        · exact Or.inr ⟨Or.inr h.1, h.2⟩
      · rintro (h | ⟨h | h, h2⟩)
        · exact Or.inr (Or.inl h)
        · exact Or.inl h
        · exact Or.inr (Or.inr ⟨h, h2⟩)

theorem TeeM.addReport_spec {r : Report} {l l' : List Report} (h : (l.map Report.by_).Nodup)
    (h' : TeeM.addReport c l r = .ok l') :
    (l'.map Report.by_).Nodup ∧ ∀ x, x ∈ l' ↔ x = r ∨ x ∈ l ∧ x.by_ ≠ r.by_ := by
  unfold addReport at h'
  split at h'
  · rename_i m hm
    inv_ok at h'; subst h'
    obtain ⟨h1, h2, _⟩ := putReport_some h hm
    exact ⟨h1 ▸ h, h2⟩
  · rename_i hm
    have hm := putReport_none hm
    inv_ok at h'
    obtain ⟨_, rfl⟩ := h'
    refine ⟨?_, fun x => ?_⟩
    · rw [List.map_append, List.nodup_append]
      refine ⟨h, by simp, ?_⟩
      rintro x hx y hy rfl
      simp only [List.map_cons, List.map_nil, List.mem_singleton] at hy
      exact hm (hy ▸ hx)
    · simp only [List.mem_append, List.mem_singleton]
      constructor
      · rintro (h | h)
        · exact Or.inr ⟨h, fun e => hm (e ▸ List.mem_map_of_mem h)⟩
        · exact Or.inl h
      · rintro (h | h)
        · exact Or.inr h
        · exact Or.inl h.1

theorem Reach.oneEach (hr : Reach c w) : OneEach w := by
  induction hr with
  | init h =>
    obtain ⟨_, _, _, _, _, _, _, _, _, _, e, _⟩ := h.tee
    intro E op l hl; rw [e] at hl; simp at hl
  | step o hr ho ih =>
    rename_i v
    intro E op l hl
    have hm := step_reports v o ho E op
    rw [hl] at hm
    generalize hx : v.tee.reports.get (E, op) = x at hm
    generalize hy : some l = y at hm
    have hold : (((v.tee.reports.get (E, op)).getD []).map Report.by_).Nodup := by
      rcases h : v.tee.reports.get (E, op) with _ | m
      · simp
      · exact ih E op m h
    rw [hx] at hold
    cases hm with
    | same => subst hy; exact hold
    | cleared => simp at hy
    | reported _ _ _ _ _ _ _ h8 =>
      simp only [Option.some.injEq] at hy; subst hy
      exact (TeeM.addReport_spec hold h8).1

/- C74 -/

/-- For each era and operator there is at most one report by each submitter it names. -/
theorem C74_one (hr : Reach c w) {E : Era} {op : AccountId} {l : List Report}
    (h : w.tee.reports.get (E, op) = some l) : (l.map Report.by_).Nodup := hr.oneEach E op l h

/-- A registered public metrics server can report on every assigned operator for the era before the active one, as
long as there is room or it replaces a report.  The report is then on record, in place of any earlier one by the
same submitter, and nothing else changes. -/
theorem C74_report (hr : Reach c w) {s : MetricsServer} {op : AccountId} {A : Era} {e : Enclave} {r : Report}
    (h1 : w.tee.servers.find? (fun x => decide (x.addr = a)) = some s) (h2 : s.kind = .pub)
    (h3 : w.tee.data.get op = some e) (h4 : w.active = some A)
    (h5 : ((w.tee.reports.get (A - 1, op)).getD []).length < c.teeList ∨
      ∃ x ∈ (w.tee.reports.get (A - 1, op)).getD [], x.by_ = r.by_) :
    ∃ l, dispatch c (.tee (.submitReport op r)) (.signed a) w = .ok { w with
        tee := { w.tee with reports := w.tee.reports.insert (A - 1, op) l }
        evs := .reported (A - 1) op r a :: w.evs } ∧
      ∀ x, x ∈ l ↔ x = r ∨ x ∈ (w.tee.reports.get (A - 1, op)).getD [] ∧ x.by_ ≠ r.by_ := by
  generalize hx : (w.tee.reports.get (A - 1, op)).getD [] = m at *
  have hn : (m.map Report.by_).Nodup := by
    rcases h : w.tee.reports.get (A - 1, op) with _ | m'
    · rw [h] at hx; simp at hx; subst hx; simp
    · rw [h] at hx; simp at hx; subst hx; exact hr.oneEach _ _ _ h
  have ⟨l, hl⟩ : ∃ l, TeeM.addReport c m r = .ok l := by
    unfold TeeM.addReport
    split
    · exact ⟨_, rfl⟩
    · rename_i hm
      rcases h5 with h5 | ⟨x, hx1, hx2⟩
      · simp [require, h5, bind, Except.bind, pure, Except.pure]
      · exact absurd (hx2 ▸ List.mem_map_of_mem hx1) (TeeM.putReport_none hm)
  refine ⟨l, ?_, (TeeM.addReport_spec hn hl).2⟩
  eval_ok [TeeM.call, TeeM.submitReport, h1, h2, h3, h4, hx, hl, World.ev]

/- cases -/

theorem third_reach : Reach Demo.cfg (Demo.at_ Demo.third) := Demo.reach _ (by decide)

example : ∃ w', dispatch Demo.cfg (.tee (.register 16 [1])) (.signed 6) (Demo.at_ Demo.enclaves) = .ok w' := by
  have ⟨_, h, _⟩ := C73_register (c := Demo.cfg) (a := 6) (addr := 16) (uri := [1])
    (Demo.reach Demo.enclaves (by decide)) rfl rfl rfl (by decide) (by decide) (by decide)
  exact ⟨_, h⟩

example : ∃ w', dispatch Demo.cfg (.tee .unregister) (.signed 6) (Demo.at_ Demo.third) = .ok w' :=
  ⟨_, C73_cancel third_reach (e := ⟨16, [1]⟩) rfl⟩

example : ∃ w', dispatch Demo.cfg (.root (.tee (.assign 6 0 2))) .root (Demo.at_ Demo.third) = .ok w' :=
  ⟨_, C73_assign third_reach (e := ⟨16, [1]⟩) (cl := ⟨[(8, 0), (9, 1)], .pub⟩) (era := 5) rfl rfl
    (by decide) rfl rfl⟩

example : ∃ w', dispatch Demo.cfg (.tee .unregister) (.signed 8) (Demo.at_ Demo.third) = .ok w' := by
  have ⟨_, _, h⟩ := C73_leave_partial third_reach (a := 8) (e := ⟨18, [1]⟩) rfl (by decide) (by decide)
  exact ⟨_, h⟩

example : ∃ w', dispatch Demo.cfg (.root (.tee (.approveUnregister 8))) .root (Demo.at_ Demo.unbonding) = .ok w' := by
  have ⟨_, _, _, h, _⟩ := C73_approve (c := Demo.cfg) (Demo.reach Demo.unbonding (by decide)) (op := 8) (by decide)
  exact ⟨_, h⟩

example : ∃ w', dispatch Demo.cfg (.root (.tee (.forceRemove 9))) .root (Demo.at_ Demo.unbonding) = .ok w' := by
  have ⟨_, h, _⟩ := C73_remove (c := Demo.cfg) (Demo.reach Demo.unbonding (by decide)) (op := 9)
    (e := ⟨19, [1]⟩) (s := ⟨9, 50, false, 0⟩) rfl rfl
  exact ⟨_, h⟩

example : ∃ w', dispatch Demo.cfg (.tee .withdraw) (.signed 8) (Demo.at_ Demo.unbonding) = .ok w' :=
  ⟨_, C73_withdraw (s := ⟨8, 50, true, 3⟩) rfl rfl (by decide)⟩

/-- root sets the staking amount to `x` -/
abbrev restaked (x : Balance) : List Op := Demo.enclaves ++ [.call .root (.root (.tee (.setStakingAmount x)))]

example : ∃ w', dispatch Demo.cfg (.tee .bondExtra) (.signed 8) (Demo.at_ (restaked 70)) = .ok w' :=
  ⟨_, C73_bond (s := ⟨8, 50, false, 0⟩) rfl (by decide) (by decide)⟩

example : ∃ w', dispatch Demo.cfg (.tee .refundExcess) (.signed 8) (Demo.at_ (restaked 30)) = .ok w' :=
  ⟨_, C73_refund_partial (s := ⟨8, 50, false, 0⟩) rfl (by decide) (by decide)⟩

example : ∃ w', dispatch Demo.cfg (.tee (.update 28 [2])) (.signed 8) (Demo.at_ Demo.enclaves) = .ok w' := by
  have ⟨_, h, _⟩ := C73_update (c := Demo.cfg) (Demo.reach Demo.enclaves (by decide)) (a := 8)
    (e := ⟨18, [1]⟩) (addr := 28) (uri := [2]) rfl rfl (Or.inr ⟨by decide, rfl⟩) (by decide)
  exact ⟨_, h⟩

example : ∃ w', dispatch Demo.cfg (.tee (.claim 5)) (.signed 9) (Demo.at_ Demo.claims) = .ok w' := by
  have ⟨_, h, _⟩ := C73_claim_partial (c := Demo.cfg) (w := Demo.at_ Demo.claims) (a := 9) (A := 8) (E := 5) (s := 5)
    (e := ⟨19, [1]⟩) (by decide) rfl rfl (by decide) rfl (by decide) (by decide) rfl
    (by unfold Spec.CanPay; decide) (by unfold Spec.CanGet; decide)
  exact ⟨_, h⟩

example : Spec.reward (Demo.at_ Demo.report) 5 8 = 25 ∧ Spec.reward (Demo.at_ Demo.report) 5 9 = 50 := by decide

example : ∃ w', dispatch Demo.cfg (.tee (.submitReport 8 ⟨⟨60, 50, 50, 50, 50⟩, 7⟩)) (.signed 7)
    (Demo.at_ Demo.report) = .ok w' := by
  have ⟨_, h, _⟩ := C74_report (c := Demo.cfg) (Demo.reach Demo.report (by decide)) (a := 7) (s := ⟨7, .pub⟩) (op := 8)
    (A := 6) (e := ⟨18, [1]⟩) (r := ⟨⟨60, 50, 50, 50, 50⟩, 7⟩) rfl rfl rfl rfl (Or.inl (by decide))
  exact ⟨_, h⟩

/-- Six operators in two clusters; five ask to leave. -/
abbrev exodus : List Op :=
  [.call .root (.root (.tee (.createCluster .pub))), .call .root (.root (.tee (.createCluster .pub))), .era 5] ++
  ((List.range 6).map fun i => Demo.by_ (i + 1) (.tee (.register (i + 11) [1]))) ++
  ((List.range 6).map fun i => .call .root (.root (.tee (.assign (i + 1) (i / 3) i)))) ++
  ((List.range 5).map fun i => Demo.by_ (i + 1) (.tee .unregister))

/-- C73 fails for leaving: an operator cannot start the unbonding of its stake while as many others as the limit
wait for root's approval. -/
theorem C73_fails_leave : ∃ c w a e s, c.Ok ∧ Reach c w ∧ w.tee.data.get a = some e ∧
    w.tee.ledger.get a = some s ∧ s.unlocking = false ∧ a ∉ w.tee.unregs ∧
    (dispatch c (.tee .unregister) (.signed a) w).isOk = false :=
  ⟨Demo.cfg, Demo.at_ exodus, 6, ⟨16, [1]⟩, ⟨6, 50, false, 0⟩, Demo.cfg_ok, Demo.reach _ (by decide), by decide,
    by decide, rfl, by decide, by decide⟩

/-- C73 fails for refunds: when root sets the staking amount to 0, taking back the excess succeeds and records a
stake of 0, but the old stake stays locked. -/
theorem C73_fails_refund : ∃ c w w' a s s', c.Ok ∧ Reach c w ∧ w.tee.ledger.get a = some s ∧
    w.tee.stakingAmount < s.staked ∧ dispatch c (.tee .refundExcess) (.signed a) w = .ok w' ∧
    w'.tee.ledger.get a = some s' ∧ s'.staked = 0 ∧ w'.bal.tee.get a = some s.staked :=
  ⟨Demo.cfg, Demo.at_ (restaked 0), Demo.at_ (restaked 0 ++ [Demo.by_ 8 (.tee .refundExcess)]), 8,
    ⟨8, 50, false, 0⟩, ⟨8, 0, false, 0⟩, Demo.cfg_ok, Demo.reach _ (by decide), by decide, by decide, by rfl,
    by decide, rfl, by decide⟩

/-- operator 8 is assigned in era 0, and era 3 is reached -/
abbrev firstEra : List Op :=
  [Demo.by_ 8 (.tee (.register 18 [1])), .call .root (.root (.tee (.createCluster .pub))), .era 0,
   .call .root (.root (.tee (.assign 8 0 0))), .era 3]

/-- C73 fails for claims: the reward of era 0 can never be claimed, although the era is in the window. -/
theorem C73_fails_era : ∃ c w a A s, c.Ok ∧ Reach c w ∧ w.tee.data.get a ≠ none ∧ w.active = some A ∧
    w.tee.assignedEra.get a = some s ∧ s ≤ 0 ∧ 0 + 2 < A ∧ A < 0 + c.history ∧
    w.tee.claimed.get (0, a) = none ∧ Spec.CanPay c w c.teePot (Spec.reward w 0 a) ∧
    Spec.CanGet c w a (Spec.reward w 0 a) ∧ (dispatch c (.tee (.claim 0)) (.signed a) w).isOk = false :=
  ⟨Demo.cfg, Demo.at_ firstEra, 8, 3, 0, Demo.cfg_ok, Demo.reach _ (by decide), by decide, by decide, by decide,
    by decide, by decide, by decide, by decide, by unfold Spec.CanPay; decide, by unfold Spec.CanGet; decide,
    by decide⟩

/-- C73 fails for addresses: once root has approved a new address for an operator and the operator has left, nobody
runs an enclave at the old address, but nobody can register it any more. -/
theorem C73_fails_address : ∃ c w addr a, c.Ok ∧ Reach c w ∧ (∀ op e, w.tee.data.get op = some e → e.addr ≠ addr) ∧
    w.tee.data.get a = none ∧ w.tee.ledger.get a = none ∧ addr ≠ a ∧
    w.tee.stakingAmount + Spec.locked w.bal a ≤ w.bal.freeOf a ∧
    (dispatch c (.tee (.register addr [1])) (.signed a) w).isOk = false :=
  ⟨Demo.cfg, Demo.at_ (Demo.moved ++ [.call .root (.root (.tee (.forceRemove 8)))]), 18, 6, Demo.cfg_ok,
    Demo.reach _ (by decide), by
      intro op e h
      have hl : (Demo.at_ (Demo.moved ++ [.call .root (.root (.tee (.forceRemove 8)))])).tee.data.l =
        [(9, ⟨19, [1]⟩)] := by decide
      have := FMap.get_some_iff_mem.1 h
      rw [hl] at this; simp at this; rw [this.2]; decide,
    by decide, by decide, by decide, by decide, by decide⟩
