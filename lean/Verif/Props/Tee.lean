import Mathlib.Data.List.Perm.Subperm
import Verif.Props.Demo
import Verif.Props.Priv
import Verif.Proofs.TeeRew
/-
Properties C43 to C50: enclaves, stakes, reports, rewards.
-/
variable {c : Cfg} {w w' : World} {a : AccountId}
set_option maxRecDepth 10000

/- Specification -/
namespace Spec

/-- how often `op` is listed in cluster `k` -/
def seats (w : World) (k : ClusterId) (op : AccountId) : Nat :=
  match w.tee.clusters.get k with
  | some cl => (cl.enclaves.map Prod.fst).count op
  | none => 0

/-- `a` is the current enclave address of `op`, which is assigned to cluster `k` -/
def Current (w : World) (a : AccountId) (k : ClusterId) (op : AccountId) : Prop :=
  ∃ e, w.tee.data.get op = some e ∧ e.addr = a ∧ w.tee.opCluster.get op = some k

/-- `o` is an order `r` of root, or of the committee through a mandate -/
def orders (o : Op) (r : TeeM.RootCall) : Prop :=
  ∃ g x, o = .call g x ∧ (∀ a, g ≠ .signed a) ∧ innermost x = .root (.tee r)

/-- root gives the enclave address `addr` to `op` -/
inductive Gave (w : World) (op addr : AccountId) : TeeM.RootCall → Prop where
  | assign {k slot uri} : w.tee.registrations.get op = some ⟨addr, uri⟩ → Gave w op addr (.assign op k slot)
  | approve {uri} : w.tee.updates.get op = some ⟨addr, uri⟩ → Gave w op addr (.approveUpdate op)
  | force {uri} : Gave w op addr (.forceUpdate op (some addr) uri)

/-- The stake of `op` may be released, wholly or in part, by operation `o` in state `w`. -/
inductive MayRelease (c : Cfg) (w : World) (o : Op) (op : AccountId) (s : Ledger) (lock' : Balance) : Prop where
  /-- the operator withdraws their pending registration -/
  | withdrawn : w.tee.registrations.get op ≠ none → o = .call (.signed op) (.tee .unregister) →
      MayRelease c w o op s lock'
  /-- root removes the pending registration -/
  | removed : w.tee.registrations.get op ≠ none → orders o (.removeRegistration op) →
      MayRelease c w o op s lock'
  /-- unbonding is over -/
  | unbonded : o = .call (.signed op) (.tee .withdraw) → s.unlocking = true →
      s.unbondedAt + c.bonding ≤ w.now → MayRelease c w o op s lock'
  /-- root has lowered the staking amount, and the operator takes the excess back -/
  | excess : o = .call (.signed op) (.tee .refundExcess) → w.tee.stakingAmount < s.staked →
      w.tee.stakingAmount ≤ lock' → MayRelease c w o op s lock'

/-- the rewards paid for an era, by operator -/
def paid (E : Era) : List Ev → List (AccountId × Balance)
  | [] => []
  | .rewardClaimed e a x :: t => if e = E then (a, x) :: paid E t else paid E t
  | _ :: t => paid E t

/-- root calls that change the number of operators or the pool -/
def resizes : TeeM.RootCall → Prop
  | .assign _ _ _ => True
  | .approveUnregister _ => True
  | .forceRemove _ => True
  | .setPool _ => True
  | _ => False

end Spec

theorem orders_iff {o : Op} {r : TeeM.RootCall} : Spec.orders o r ↔ Orders o r := by
  unfold Spec.orders Orders; simp only [innermost_eq]

theorem paid_eq (E : Era) (l : List Ev) : Spec.paid E l = TeeM.paid E l := by
  induction l with
  | nil => rfl
  | cons e t ih =>
    cases e
    case rewardClaimed e a x =>
      simp only [Spec.paid, TeeM.paid, List.filterMap_cons]
      split
      · simp [ih, TeeM.paid]
      · exact ih
    all_goals exact ih

/-! ## C43 -/

/-- C43: an operator without enclave data is in no cluster and has no assignment era. -/
theorem C43_out (hr : Reach c w) {op : AccountId} (h : w.tee.data.get op = none) :
    w.tee.opCluster.get op = none ∧ w.tee.assignedEra.get op = none ∧ ∀ k, Spec.seats w k op = 0 := by
  have hi := hr.tinv
  have h1 := (hi.clu op).2 h
  refine ⟨h1, (hi.era op).2 h, fun k => ?_⟩
  unfold Spec.seats
  split
  · rename_i cl hk
    rw [List.count_eq_zero]
    intro hm; rw [hi.back k cl op hk hm] at h1; simp at h1
  · rfl

/-- C43: an operator with enclave data is in exactly one cluster, listed there once, has an assignment
era, no pending registration, and its enclave address resolves to it. -/
theorem C43_in (hr : Reach c w) {op : AccountId} {e : Enclave} (h : w.tee.data.get op = some e) :
    ∃ k, w.tee.opCluster.get op = some k ∧ (∀ k', Spec.seats w k' op = if k' = k then 1 else 0) ∧
      w.tee.assignedEra.get op ≠ none ∧ w.tee.registrations.get op = none ∧
      w.tee.accOp.get e.addr = some op := by
  have hi := hr.tinv
  cases hk : w.tee.opCluster.get op with
  | none => rw [(hi.clu op).1 hk] at h; simp at h
  | some k =>
    refine ⟨k, rfl, ?_, ?_, ?_, hi.addr op e h⟩
    · intro k'
      obtain ⟨cl, h1, h2⟩ := hi.mem op k hk
      split
      · subst_vars
        unfold Spec.seats; rw [h1]
        have := (List.nodup_iff_count.1 (hi.nodup _ cl h1)) op
        have := List.count_pos_iff.2 h2
        dsimp only; omega
      · rename_i hne
        unfold Spec.seats
        split
        · rename_i cl' h3
          rw [List.count_eq_zero]
          intro hm; rw [hi.back k' cl' op h3 hm] at hk; simp at hk; exact hne hk
        · rfl
    · intro h1; rw [(hi.era op).1 h1] at h; simp at h
    · cases hg : w.tee.registrations.get op with
      | none => rfl
      | some f => rw [hi.reg op f hg] at h; simp at h

/-- C43: clusters never exceed their size, and list only operators with enclave data. -/
theorem C43_cluster (hr : Reach c w) {k : ClusterId} {cl : Cluster} (h : w.tee.clusters.get k = some cl) :
    cl.enclaves.length ≤ c.clusterSize ∧
    ∀ op slot, (op, slot) ∈ cl.enclaves → w.tee.data.get op ≠ none ∧ w.tee.opCluster.get op = some k := by
  have hi := hr.tinv
  refine ⟨hi.size k cl h, fun op slot hm => ?_⟩
  have h1 := hi.back k cl op h (List.mem_map.2 ⟨_, hm, rfl⟩)
  refine ⟨fun h2 => ?_, h1⟩
  rw [(hi.clu op).2 h2] at h1; simp at h1

/-- C43: two operators never have the same enclave address, and none is its own enclave. -/
theorem C43_address (hr : Reach c w) {op op' : AccountId} {e e' : Enclave}
    (h : w.tee.data.get op = some e) (h' : w.tee.data.get op' = some e') :
    (e.addr = e'.addr → op = op') ∧ e.addr ≠ op := by
  have hi := hr.tinv
  refine ⟨fun he => ?_, (hi.dataNe op e h).1⟩
  have h1 := hi.addr op e h
  rw [he, hi.addr op' e' h'] at h1
  simpa using h1.symm

namespace Demo
/-- a third operator has only registered -/
abbrev third : List Op := enclaves ++ [by_ 6 (.tee (.register 16 [1]))]
end Demo

example : Reach Demo.cfg (Demo.at_ Demo.third) ∧ (Demo.at_ Demo.third).tee.data.get 8 = some ⟨18, [1]⟩ ∧
    (Demo.at_ Demo.third).tee.data.get 9 = some ⟨19, [1]⟩ ∧
    (Demo.at_ Demo.third).tee.data.get 6 = none ∧ (Demo.at_ Demo.third).tee.registrations.get 6 ≠ none ∧
    (Demo.at_ Demo.third).tee.clusters.get 0 = some ⟨[(8, 0), (9, 1)], .pub⟩ ∧
    Spec.seats (Demo.at_ Demo.third) 0 9 = 1 :=
  ⟨Demo.reach _ (by decide), by decide, by decide, by decide, by decide, by decide, by decide⟩

/-! ## C44 -/

/-- C44 (one direction): the current enclave address of an assigned operator passes the enclave check. -/
theorem C44_current (hr : Reach c w) {k : ClusterId} {op : AccountId} (h : Spec.Current w a k op) :
    NftM.ensureEnclave w a = some (k, op) := by
  obtain ⟨e, h1, rfl, h2⟩ := h
  simp [NftM.ensureEnclave, hr.tinv.addr op e h1, h2]

/-- C44 (partial): an address that passes the enclave check belongs to the assigned operator named by the
check, and was given to this operator by root.  Missing: that it is the operator's current address. -/
theorem C44_partial {w0 : World} (h0 : Genesis c w0) (l : List Op) (hl : ∀ o ∈ l, o.Ok c)
    {k : ClusterId} {op : AccountId} (h : NftM.ensureEnclave (run c w0 l) a = some (k, op)) :
    (∃ e, (run c w0 l).tee.data.get op = some e) ∧ (run c w0 l).tee.opCluster.get op = some k ∧
    ∃ l1 o l2 r, l = l1 ++ o :: l2 ∧ Spec.orders o r ∧ Spec.Gave (run c w0 l1) op a r ∧
      ∀ l3 l4, l2 = l3 ++ l4 → (run c w0 (l1 ++ o :: l3)).tee.accOp.get a = some op := by
  have hr : Reach c (run c w0 l) := (Reach.init h0).run l hl
  simp only [NftM.ensureEnclave, Option.bind_eq_bind, Option.bind_eq_some_iff] at h
  obtain ⟨op', h1, k', h2, h3⟩ := h
  simp only [Option.pure_def, Option.some.injEq, Prod.mk.injEq] at h3
  obtain ⟨rfl, rfl⟩ := h3
  refine ⟨?_, h2, ?_⟩
  · cases hd : (run c w0 l).tee.data.get op' with
    | none => rw [(hr.tinv.clu op').2 hd] at h2; simp at h2
    | some e => exact ⟨e, rfl⟩
  · obtain ⟨l1, o, l2, h3, ⟨r, h4, h5⟩, h6⟩ := run_since'
      (P := fun w => w.tee.accOp.get a = some op')
      (Q := fun w o => ∃ r, Orders o r ∧ TeeM.Gave w op' a r)
      (fun w o hr ho hx => step_accOp hr o ho hx) (.init h0)
      (by obtain ⟨_, _, _, _, e, _⟩ := h0.tee; simp [e]) l hl h1
    refine ⟨l1, o, l2, r, h3, orders_iff.2 h4, ?_, h6⟩
    cases h5 with
    | @assign k slot r h7 h8 => subst h8; exact .assign (uri := r.uri) h7
    | @approve u h7 h8 => subst h8; exact .approve (uri := u.uri) h7
    | force => exact .force

/-- C44 in histories in which root approves no update of an enclave: an address passes the enclave check
iff it is the current enclave address of an assigned operator. -/
theorem C44_exact {w0 : World} (h0 : Genesis c w0) (l : List Op) (hl : ∀ o ∈ l, o.Ok c)
    (hn : ∀ o ∈ l, ∀ op, ¬ Spec.orders o (.approveUpdate op)) {k : ClusterId} {op : AccountId} :
    NftM.ensureEnclave (run c w0 l) a = some (k, op) ↔ Spec.Current (run c w0 l) a k op := by
  have hr : Reach c (run c w0 l) := (Reach.init h0).run l hl
  refine ⟨fun h => ?_, C44_current hr⟩
  have hx : ∀ (l : List Op) (v : World), Reach c v → (∀ o ∈ l, o.Ok c) →
      (∀ o ∈ l, ∀ op, ¬ Spec.orders o (.approveUpdate op)) → TeeM.Exact v.tee →
      TeeM.Exact (run c v l).tee := by
    intro l
    induction l with
    | nil => intro v _ _ _ h; exact h
    | cons o t ih =>
      intro v hv hl hn h
      have ho := hl o (by simp)
      refine ih (step c v o) (hv.step o ho) (fun x hx => hl x (by simp [hx]))
        (fun x hx => hn x (by simp [hx])) ?_
      exact step_exact hv o ho (fun op h1 => hn o (by simp) op (orders_iff.2 h1)) h
  have he := hx l w0 (.init h0) hl hn (by
    obtain ⟨_, _, _, _, e, _⟩ := h0.tee
    intro x op; simp [e])
  simp only [NftM.ensureEnclave, Option.bind_eq_bind, Option.bind_eq_some_iff] at h
  obtain ⟨op', h1, k', h2, h3⟩ := h
  simp only [Option.pure_def, Option.some.injEq, Prod.mk.injEq] at h3
  obtain ⟨rfl, rfl⟩ := h3
  obtain ⟨e, h4, h5⟩ := he a op' h1
  exact ⟨e, h4, h5, h2⟩

namespace Demo
/-- operator 8 moves from enclave 18 to enclave 28, with root's approval -/
abbrev moved : List Op := enclaves ++
  [by_ 8 (.tee (.update 28 [2])), .call .root (.root (.tee (.approveUpdate 8)))]
/-- the same by a forced update -/
abbrev forced : List Op := enclaves ++ [.call .root (.root (.tee (.forceUpdate 8 (some 28) none)))]
end Demo

/-- C44 fails: after an approved update the old enclave address still passes the check. -/
theorem C44_fails : ∃ w, Reach Demo.cfg w ∧ NftM.ensureEnclave w 18 = some (0, 8) ∧
    w.tee.data.get 8 = some ⟨28, [2]⟩ ∧ ¬ Spec.Current w 18 0 8 :=
  ⟨Demo.at_ Demo.moved, Demo.reach _ (by decide), by decide, by decide, by
    rintro ⟨e, h1, h2, _⟩
    have h3 : (Demo.at_ Demo.moved).tee.data.get 8 = some ⟨28, [2]⟩ := by decide
    rw [h3] at h1; simp at h1; subst h1; simp at h2⟩

/-- without approved updates: the new address passes, the old one does not -/
example : Genesis Demo.cfg Demo.w0 ∧ (∀ o ∈ Demo.forced, o.Ok Demo.cfg) ∧
    (∀ o ∈ Demo.forced, ∀ op, ¬ Spec.orders o (.approveUpdate op)) ∧
    NftM.ensureEnclave (run Demo.cfg Demo.w0 Demo.forced) 28 = some (0, 8) ∧
    NftM.ensureEnclave (run Demo.cfg Demo.w0 Demo.forced) 18 = none :=
  ⟨Demo.genesis, by decide, by
    intro o ho op
    rintro ⟨g, x, rfl, hg, hx⟩
    simp [Demo.forced, Demo.enclaves, Demo.by_] at ho
    rcases ho with ⟨rfl, rfl⟩ | ⟨rfl, rfl⟩ | ⟨rfl, rfl⟩ | ⟨rfl, rfl⟩ | ⟨rfl, rfl⟩ | ⟨rfl, rfl⟩ | ⟨rfl, rfl⟩ <;>
      simp [Spec.innermost] at hx, by decide, by decide⟩

/-! ## C45 -/

/-- C45: the stake of an operator is in their account, and locked there. -/
theorem C45_locked (hr : Reach c w) {op : AccountId} {s : Ledger} (h : w.tee.ledger.get op = some s) :
    s.staked ≤ (w.bal.tee.get op).getD 0 ∧ s.staked ≤ w.bal.freeOf op := by
  have h1 := (hr.sinv.led op s h).2
  have h2 := hr.covered op
  unfold TeeM.lockOf at h1
  exact ⟨h1, by omega⟩

/-- C45: when part of a stake ceases to be locked, the pending registration is withdrawn or removed, or the
unbonding time is over, or the operator takes back the excess over a lowered staking amount. -/
theorem C45_release (hr : Reach c w) (o : Op) (ho : o.Ok c) {op : AccountId} {s : Ledger}
    (h : w.tee.ledger.get op = some s)
    (hl : ((step c w o).bal.tee.get op).getD 0 < s.staked) :
    Spec.MayRelease c w o op s (((step c w o).bal.tee.get op).getD 0) := by
  have hs := (hr.step o ho).sinv
  have hm := step_stake hr o ho op
  have ht := hr.sinv.time op
  rw [h] at hm
  generalize hx : (step c w o).tee.ledger.get op = x' at hm
  have key : ∀ s', x' = some s' → s'.staked ≤ ((step c w o).bal.tee.get op).getD 0 := by
    rintro s' rfl; exact (hs.led op s' hx).2
  generalize ((step c w o).bal.tee.get op).getD 0 = lock at *
  generalize hy : some s = y at hm
  cases hm with
  | same => subst hy; have := key s rfl; omega
  | register => simp at hy
  | unregister _ _ =>
    simp only [Option.some.injEq] at hy; subst hy
    have := key _ rfl; dsimp only at this; omega
  | forced _ _ =>
    simp only [Option.some.injEq] at hy; subst hy
    have := key _ rfl; dsimp only at this; omega
  | dropped h1 h2 h3 =>
    rcases h1 with h1 | h1
    · exact .withdrawn h2 h1
    · exact .removed h2 (orders_iff.2 h1)
  | withdrawn h1 h2 h3 =>
    simp only [Option.some.injEq] at hy; subst hy
    have := ht s h h2
    exact .unbonded h1 h2 (by omega)
  | bonded h1 h2 =>
    simp only [Option.some.injEq] at hy; subst hy
    have := key _ rfl; dsimp only at this; omega
  | refunded h1 h2 =>
    simp only [Option.some.injEq] at hy; subst hy
    exact .excess h1 h2 (key _ rfl)

/-- C45: unbonding counted from block `t` was started at block `t`, by the assigned operator or by root
removing them, and has not been restarted since. -/
theorem C45_started {w0 : World} (h0 : Genesis c w0) (l : List Op) (hl : ∀ o ∈ l, o.Ok c)
    {op : AccountId} {s : Ledger} (h : (run c w0 l).tee.ledger.get op = some s) (hu : s.unlocking = true) :
    ∃ l1 o l2, l = l1 ++ o :: l2 ∧ (run c w0 l1).now = s.unbondedAt ∧
      (run c w0 l1).tee.data.get op ≠ none ∧
      (o = .call (.signed op) (.tee .unregister) ∨ Spec.orders o (.forceRemove op)) ∧
      ∀ l3 l4, l2 = l3 ++ l4 → ∃ s', (run c w0 (l1 ++ o :: l3)).tee.ledger.get op = some s' ∧
        s'.unlocking = true ∧ s'.unbondedAt = s.unbondedAt := by
  obtain ⟨l1, o, l2, h1, ⟨h2, h3, h4⟩, h5⟩ := run_since'
    (P := fun w => ∃ s', w.tee.ledger.get op = some s' ∧ s'.unlocking = true ∧ s'.unbondedAt = s.unbondedAt)
    (Q := fun w o => w.now = s.unbondedAt ∧ w.tee.data.get op ≠ none ∧
      (o = .call (.signed op) (.tee .unregister) ∨ Orders o (.forceRemove op)))
    (fun w o hr ho => by
      rintro ⟨s', h1, h2, h3⟩
      have hm := step_stake hr o ho op
      rw [h1] at hm
      generalize w.tee.ledger.get op = x at hm ⊢
      generalize hy : some s' = y at hm
      cases hm with
      | same => subst hy; exact Or.inl ⟨s', rfl, h2, h3⟩
      | register => simp only [Option.some.injEq] at hy; subst hy; simp at h2
      | unregister h4 h5 =>
        simp only [Option.some.injEq] at hy; subst hy; exact Or.inr ⟨h3, h5, Or.inl h4⟩
      | forced h4 h5 =>
        simp only [Option.some.injEq] at hy; subst hy; exact Or.inr ⟨h3, h5, Or.inr h4⟩
      | dropped => simp at hy
      | withdrawn => simp at hy
      | bonded _ _ => simp only [Option.some.injEq] at hy; subst hy; exact Or.inl ⟨_, rfl, h2, h3⟩
      | refunded _ _ => simp only [Option.some.injEq] at hy; subst hy; exact Or.inl ⟨_, rfl, h2, h3⟩)
    (.init h0) (by obtain ⟨_, _, _, _, _, _, _, _, _, e, _⟩ := h0.tee; simp [e]) l hl ⟨s, h, hu, rfl⟩
  refine ⟨l1, o, l2, h1, h2, h3, ?_, h5⟩
  rcases h4 with h4 | h4
  · exact Or.inl h4
  · exact Or.inr (orders_iff.2 h4)

namespace Demo
/-- operator 8 unregisters at block 3; ten blocks later unbonding is over -/
abbrev unbonding : List Op := enclaves ++ ticks 3 ++ [by_ 8 (.tee .unregister)] ++ ticks 10
end Demo

example : Reach Demo.cfg (Demo.at_ Demo.unbonding) ∧
    (Demo.at_ Demo.unbonding).tee.ledger.get 8 = some ⟨8, 50, true, 3⟩ ∧
    ((Demo.at_ Demo.unbonding).bal.tee.get 8).getD 0 = 50 ∧
    ((step Demo.cfg (Demo.at_ Demo.unbonding) (Demo.by_ 8 (.tee .withdraw))).bal.tee.get 8).getD 0 < 50 :=
  ⟨Demo.reach _ (by decide), by decide, by decide, by decide⟩

/-! ## C46 -/

/-- C46 (partial): an operator with an active enclave that has not asked to be unregistered has a stake, it
is not being unbonded, and it is locked in their account.  Missing: operators whose unregistration is pending,
see `C46_fails`. -/
theorem C46_partial (hr : Reach c w) {op : AccountId} {e : Enclave} (h : w.tee.data.get op = some e)
    (hu : op ∉ w.tee.unregs) :
    ∃ s, w.tee.ledger.get op = some s ∧ s.unlocking = false ∧ s.staked ≤ (w.bal.tee.get op).getD 0 ∧
      s.staked ≤ w.bal.freeOf op := by
  obtain ⟨s, h1, h2⟩ := hr.sinv.act op e h hu
  obtain ⟨h3, h4⟩ := C45_locked hr h1
  exact ⟨s, h1, h2, h3, h4⟩

/-- A pending registration is staked as well. -/
theorem C46_registered (hr : Reach c w) {op : AccountId} {e : Enclave}
    (h : w.tee.registrations.get op = some e) :
    ∃ s, w.tee.ledger.get op = some s ∧ s.unlocking = false ∧ s.staked ≤ (w.bal.tee.get op).getD 0 ∧
      s.staked ≤ w.bal.freeOf op := by
  obtain ⟨s, h1, h2⟩ := hr.sinv.reg op e h
  obtain ⟨h3, h4⟩ := C45_locked hr h1
  exact ⟨s, h1, h2, h3, h4⟩

example : Reach Demo.cfg (Demo.at_ Demo.third) ∧
    (Demo.at_ Demo.third).tee.data.get 8 = some ⟨18, [1]⟩ ∧ 8 ∉ (Demo.at_ Demo.third).tee.unregs ∧
    (Demo.at_ Demo.third).tee.registrations.get 6 = some ⟨16, [1]⟩ :=
  ⟨Demo.reach _ (by decide), by decide, by decide, by decide⟩

/-- C46 fails: an operator whose unregistration root has not approved can withdraw the stake after the
unbonding time, keeps the active enclave and passes the enclave check; root cannot even remove them by force. -/
theorem C46_fails : ∃ w, Reach Demo.cfg w ∧ w.tee.data.get 8 = some ⟨18, [1]⟩ ∧
    NftM.ensureEnclave w 18 = some (0, 8) ∧ w.tee.ledger.get 8 = none ∧ w.bal.tee.get 8 = none ∧
    dispatch Demo.cfg (.root (.tee (.forceRemove 8))) .root w = .error (.e "StakingNotFound") :=
  ⟨Demo.at_ (Demo.unbonding ++ [Demo.by_ 8 (.tee .withdraw)]), Demo.reach _ (by decide), by decide,
    by decide, by decide, by decide, by rfl⟩

/-! ## C47 -/

/-- C47: for each era, each operator is paid at most once, over all histories. -/
theorem C47_once (hr : Reach c w) (E : Era) : ((Spec.paid E w.evs).map Prod.fst).Nodup := by
  rw [paid_eq]; exact (hr.once E).1

/-- C47: a reward is paid only to an operator with an active enclave that claims it itself, for a finished era
inside the window and not before its assignment; it is at most the operator's share (the pool divided by the
number of operators, rounded) and is taken from the tee account, from which nothing else is taken. -/
theorem C47_claim (o : Op) (ho : o.Ok c) {E : Era}
    (h : Spec.paid E (step c w o).evs ≠ Spec.paid E w.evs) :
    ∃ a x A s e, o = .call (.signed a) (.tee (.claim E)) ∧
      Spec.paid E (step c w o).evs = (a, x) :: Spec.paid E w.evs ∧
      w.active = some A ∧ E + 2 < A ∧ A < E + c.history ∧
      w.tee.assignedEra.get a = some s ∧ s ≤ E ∧ w.tee.data.get a = some e ∧
      2 * w.tee.data.card * x ≤ 2 * w.tee.pool + w.tee.data.card ∧ x ≤ w.tee.pool ∧
      x ≤ w.bal.freeOf c.teePot ∧
      (step c w o).bal.freeOf a = w.bal.freeOf a + x ∧
      ((step c w o).bal.freeOf c.teePot = w.bal.freeOf c.teePot - x ∨
        ((step c w o).bal.freeOf c.teePot = 0 ∧ w.bal.freeOf c.teePot - x < c.ed)) ∧
      ∀ b, b ≠ a → b ≠ c.teePot → (step c w o).bal.freeOf b = w.bal.freeOf b := by
  rw [paid_eq, paid_eq] at h
  rcases step_paid (c := c) w o E with h1 | ⟨a, rfl, hcl, h1⟩
  · exact absurd h1 h
  · obtain ⟨A, as, e, b, g1, g2, g3, g4, g5, g6, g7, g8, g9⟩ := TeeM.claim_ok hcl
    have hne : c.teePot ≠ a := by
      rintro rfl; exact ho Cfg.pot_tee
    have hcard : w.tee.data.card ≠ 0 := by
      intro e1
      have : w.tee.data.keys = [] := by simpa [FMap.card, FMap.keys] using e1
      have h2 : a ∈ w.tee.data.keys := FMap.get_ne_none_iff_mem_keys.1 (by simp [g7])
      rw [this] at h2; simp at h2
    have hle := TeeM.reward_le w.tee E a
    have hsh := TeeM.share_le w.tee hcard
    have hf := Bal.transfer_free g8 hne
    have hfb : ∀ j, (step c w (.call (.signed a) (.tee (.claim E)))).bal.freeOf j = b.freeOf j := by
      rw [g9]; intro j; rfl
    refine ⟨a, TeeM.reward w.tee E a, A, as, e, rfl, by rw [paid_eq, paid_eq]; exact h1, g2, by omega, by omega,
      g3, g6, g7, Nat.le_trans (Nat.mul_le_mul_left _ hle) hsh,
      Nat.le_trans hle (TeeM.share_le_pool _), Bal.transfer_le g8 hne, ?_, ?_, ?_⟩
    · rw [hfb, hf, if_pos rfl]
    · rw [hfb, hf, if_neg hne, if_pos rfl]
      split
      · rename_i e0; left; rw [e0]; rfl
      · split
        · right; exact ⟨rfl, by assumption⟩
        · exact Or.inl rfl
    · intro j h2 h3
      rw [hfb, hf, if_neg h2, if_neg h3]

namespace Demo
/-- era 8 has begun: rewards of era 5 can be claimed; operator 8 has done so -/
abbrev claims : List Op := enclaves ++ [.era 8, .hookTee, by_ 8 (.tee (.claim 5))]
end Demo

example : Reach Demo.cfg (Demo.at_ Demo.claims) ∧ Spec.paid 5 (Demo.at_ Demo.claims).evs = [(8, 50)] ∧
    Spec.paid 5 (step Demo.cfg (Demo.at_ Demo.claims) (Demo.by_ 8 (.tee (.claim 5)))).evs = [(8, 50)] ∧
    Spec.paid 5 (step Demo.cfg (Demo.at_ Demo.claims) (Demo.by_ 9 (.tee (.claim 5)))).evs = [(9, 50), (8, 50)] :=
  ⟨Demo.reach _ (by decide), by decide, by decide, by decide⟩

/-! ## C48 -/

/-- C48 fails by rounding: three operators share a pool of 2 and get 1 each. -/
theorem C48_fails : ∃ w, Reach Demo.cfg w ∧ w.tee.pool = 2 ∧ Spec.paid 5 w.evs = [(6, 1), (9, 1), (8, 1)] :=
  ⟨Demo.at_ (Demo.third ++ [.call .root (.root (.tee (.assign 6 0 2))), .call .root (.root (.tee (.setPool 2))),
      .era 8, Demo.by_ 8 (.tee (.claim 5)), Demo.by_ 9 (.tee (.claim 5)), Demo.by_ 6 (.tee (.claim 5))]),
    Demo.reach _ (by decide), by decide, by decide⟩

/-- C48 fails also because the share is computed when it is claimed: after one of two operators has claimed its
half and left, the other one gets the whole pool for the same era. -/
theorem C48_fails_shrinking : ∃ w, Reach Demo.cfg w ∧ w.tee.pool = 100 ∧
    Spec.paid 5 w.evs = [(9, 100), (8, 50)] :=
  ⟨Demo.at_ (Demo.claims ++ [Demo.by_ 8 (.tee .unregister), .call .root (.root (.tee (.approveUnregister 8))),
      Demo.by_ 9 (.tee (.claim 5))]),
    Demo.reach _ (by decide), by decide, by decide⟩

/-- C48 (partial): if neither the pool nor the set of operators changes while an era is claimed, the rewards of
this era exceed the pool by at most half a unit per operator.  Missing: changes of pool and operators, see
`C48_fails_shrinking`, and exactness, see `C48_fails`. -/
theorem C48_partial (hr : Reach c w) {E : Era} (h0 : Spec.paid E w.evs = []) (l : List Op)
    (hl : ∀ o ∈ l, o.Ok c) (hq : ∀ o ∈ l, ∀ r, Spec.orders o r → ¬ Spec.resizes r) :
    2 * ((Spec.paid E (run c w l).evs).map Prod.snd).sum ≤ 2 * w.tee.pool + w.tee.data.card := by
  have hn := C47_once (hr.run l hl) E
  rw [paid_eq] at h0 hn ⊢
  have hb := run_paid h0 l hl (fun o ho r h1 h2 => hq o ho r (orders_iff.2 h1) (by cases r <;> exact h2))
  generalize TeeM.paid E (run c w l).evs = p at *
  have hlen : p.length ≤ w.tee.data.card := by
    have h1 : (p.map Prod.fst).length ≤ w.tee.data.keys.length := by
      refine (List.subperm_of_subset hn ?_).length_le
      intro x hx
      obtain ⟨y, hy, rfl⟩ := List.mem_map.1 hx
      exact FMap.get_ne_none_iff_mem_keys.1 (hb y hy).1
    simpa [FMap.card, FMap.keys] using h1
  generalize w.tee.data.card = n at *
  generalize w.tee.pool = P at *
  have hs : 2 * n * (p.map Prod.snd).sum ≤ p.length * (2 * P + n) := by
    clear hn hlen h0
    induction p with
    | nil => simp
    | cons x t ih =>
      have h1 := (hb x (by simp)).2
      have h2 := ih (fun y hy => hb y (by simp [hy]))
      simp only [List.map_cons, List.sum_cons, List.length_cons]
      nlinarith
  rcases Nat.eq_zero_or_pos n with rfl | hpos
  · have hp0 : p = [] := List.length_eq_zero_iff.1 (by omega)
    subst hp0; simp
  · generalize (p.map Prod.snd).sum = S at *
    have h3 : n * (2 * S) ≤ n * (2 * P + n) := by
      have := Nat.mul_le_mul_right (2 * P + n) hlen
      nlinarith
    exact Nat.le_of_mul_le_mul_left h3 hpos

example : Reach Demo.cfg (Demo.at_ Demo.enclaves) ∧ Spec.paid 5 (Demo.at_ Demo.enclaves).evs = [] ∧
    (∀ o ∈ [Op.era 8, .hookTee, Demo.by_ 8 (.tee (.claim 5)), Demo.by_ 9 (.tee (.claim 5))], ∀ r,
      Spec.orders o r → ¬ Spec.resizes r) ∧
    Spec.paid 5 (run Demo.cfg (Demo.at_ Demo.enclaves)
      [Op.era 8, .hookTee, Demo.by_ 8 (.tee (.claim 5)), Demo.by_ 9 (.tee (.claim 5))]).evs =
      [(9, 50), (8, 50)] :=
  ⟨Demo.reach _ (by decide), by decide, by
    rintro o ho r ⟨g, x, rfl, hg, hx⟩
    simp at ho
    rcases ho with ⟨rfl, rfl⟩ | ⟨rfl, rfl⟩ <;> exact absurd rfl (hg _), by decide⟩

/-! ## C49 -/

/-- C49: a report for an era is recorded only while it is the last finished era, only by a registered metrics
server of public type, and only about an assigned operator.  (In era 0 reports count for era 0 itself.) -/
theorem C49_recorded (o : Op) (ho : o.Ok c) {E : Era} {op : AccountId} {l : List Report}
    (h : (step c w o).tee.reports.get (E, op) = some l) (hn : w.tee.reports.get (E, op) ≠ some l) :
    ∃ a r A s, o = .call (.signed a) (.tee (.submitReport op r)) ∧ s ∈ w.tee.servers ∧ s.addr = a ∧
      s.kind = .pub ∧ w.tee.data.get op ≠ none ∧ w.active = some A ∧ E = A - 1 ∧
      ∀ x ∈ l, x = r ∨ x ∈ (w.tee.reports.get (E, op)).getD [] := by
  have hm := step_reports w o ho E op
  rw [h] at hm
  generalize hx : w.tee.reports.get (E, op) = x at hm hn ⊢
  generalize hy : some l = y at hm
  cases hm with
  | same => exact absurd hy.symm hn
  | cleared => simp at hy
  | reported h1 h2 h3 h4 h5 h6 h7 h8 =>
    simp only [Option.some.injEq] at hy; subst hy
    exact ⟨_, _, _, _, h1, h2, h3, h4, h5, h6, h7, fun x hx => TeeM.addReport_mem h8 hx⟩

/-- C49: once the next era is over, the reports on an era never change any more, but for being cleared. -/
theorem C49_closed {A E : Era} (hA : w.active = some A) (hE : E + 1 < A) (l : List Op)
    (hl : ∀ o ∈ l, o.Ok c) (op : AccountId) :
    (run c w l).tee.reports.get (E, op) = w.tee.reports.get (E, op) ∨
    (run c w l).tee.reports.get (E, op) = none := by
  have key : ∀ (l : List Op) (v : World) (B : Era), v.active = some B → A ≤ B → (∀ o ∈ l, o.Ok c) →
      (v.tee.reports.get (E, op) = w.tee.reports.get (E, op) ∨ v.tee.reports.get (E, op) = none) →
      (run c v l).tee.reports.get (E, op) = w.tee.reports.get (E, op) ∨
      (run c v l).tee.reports.get (E, op) = none := by
    intro l
    induction l with
    | nil => intro v B _ _ _ h; exact h
    | cons o t ih =>
      intro v B hB hAB hl h
      have ho := hl o (by simp)
      obtain ⟨B', h1, h2⟩ := step_active v o ho hB
      refine ih (step c v o) B' h1 (by omega) (fun x hx => hl x (by simp [hx])) ?_
      have hm := step_reports v o ho E op
      generalize (step c v o).tee.reports.get (E, op) = y at hm ⊢
      generalize hx : v.tee.reports.get (E, op) = x at hm h
      cases hm with
      | same => exact h
      | cleared => exact Or.inr rfl
      | reported _ _ _ _ _ h6 h7 _ => rw [hB] at h6; simp at h6; subst h6; omega
  exact key l w A hA (Nat.le_refl _) hl (Or.inl rfl)

/-- C49: while rewards of an era can be claimed, no operation changes its reports. -/
theorem C49_claimable {A E : Era} (hA : w.active = some A) (hE : E + 2 < A) (hw : A < E + c.history)
    (o : Op) (ho : o.Ok c) (op : AccountId) :
    (step c w o).tee.reports.get (E, op) = w.tee.reports.get (E, op) := by
  have hm := step_reports w o ho E op
  generalize (step c w o).tee.reports.get (E, op) = y at hm ⊢
  generalize hx : w.tee.reports.get (E, op) = x at hm ⊢
  cases hm with
  | same => rfl
  | cleared _ h1 h2 h3 => rw [hA] at h1; simp at h1; subst h1; omega
  | reported _ _ _ _ _ h6 h7 _ => rw [hA] at h6; simp at h6; subst h6; omega

namespace Demo
/-- server 7 reports on operator 8 for era 5 -/
abbrev report : List Op := enclaves ++ [.era 6, by_ 7 (.tee (.submitReport 8 ⟨⟨50, 50, 50, 50, 50⟩, 7⟩))]
end Demo

example : Reach Demo.cfg (Demo.at_ Demo.report) ∧
    (Demo.at_ Demo.report).tee.reports.get (5, 8) = some [⟨⟨50, 50, 50, 50, 50⟩, 7⟩] ∧
    (Demo.at_ (Demo.report ++ [.era 8])).active = some 8 ∧ 5 + 2 < 8 ∧ 8 < 5 + Demo.cfg.history ∧
    (Demo.at_ (Demo.report ++ [.era 8])).tee.reports.get (5, 8) = some [⟨⟨50, 50, 50, 50, 50⟩, 7⟩] ∧
    (Demo.at_ (Demo.report ++ [.era 9, .hookTee])).tee.reports.get (5, 8) = none ∧
    Spec.paid 5 (Demo.at_ (Demo.report ++ [.era 8, Demo.by_ 8 (.tee (.claim 5))])).evs = [(8, 25)] :=
  ⟨Demo.reach _ (by decide), by decide, by decide, by decide, by decide, by decide, by decide, by decide⟩

/-! ## C50 -/

/-- C50 (partial): every recorded report was submitted by a registered metrics server of public type, in the era
after the one reported on.  Missing: that this is the server whose address the report carries. -/
theorem C50_partial {w0 : World} (h0 : Genesis c w0) (l : List Op) (hl : ∀ o ∈ l, o.Ok c)
    {E : Era} {op : AccountId} {m : List Report} {r : Report}
    (h : (run c w0 l).tee.reports.get (E, op) = some m) (hm : r ∈ m) :
    ∃ l1 l2 a s A, l = l1 ++ .call (.signed a) (.tee (.submitReport op r)) :: l2 ∧
      s ∈ (run c w0 l1).tee.servers ∧ s.addr = a ∧ s.kind = .pub ∧ (run c w0 l1).active = some A ∧
      E = A - 1 := by
  obtain ⟨l1, o, l2, h1, ⟨a, s, A, h2, h3, h4, h5, h6, h7⟩, _⟩ := run_since'
    (P := fun w => r ∈ (w.tee.reports.get (E, op)).getD [])
    (Q := fun w o => ∃ a s A, o = .call (.signed a) (.tee (.submitReport op r)) ∧ s ∈ w.tee.servers ∧
      s.addr = a ∧ s.kind = .pub ∧ w.active = some A ∧ E = A - 1)
    (fun w o hr ho hp => by
      have hm := step_reports w o ho E op
      generalize (step c w o).tee.reports.get (E, op) = y at hm hp
      generalize hx : w.tee.reports.get (E, op) = x at hm ⊢
      cases hm with
      | same => exact Or.inl hp
      | cleared => simp at hp
      | reported h1 h2 h3 h4 h5 h6 h7 h8 =>
        rcases TeeM.addReport_mem h8 (by simpa using hp) with rfl | h9
        · exact Or.inr ⟨_, _, _, h1, h2, h3, h4, h6, h7⟩
        · exact Or.inl h9)
    (.init h0) (by obtain ⟨_, _, _, _, _, _, _, _, _, _, e, _⟩ := h0.tee; simp [e]) l hl (by rw [h]; exact hm)
  subst h2
  exact ⟨l1, l2, a, s, A, h1, h3, h4, h5, h6, h7⟩

namespace Demo
/-- server 7 has reported; server 5 replaces the report in the name of server 7 -/
abbrev forged : List Op := report ++ [.call .root (.root (.tee (.registerServer ⟨5, .pub⟩))),
  by_ 5 (.tee (.submitReport 8 ⟨⟨0, 0, 0, 0, 0⟩, 7⟩))]
end Demo

example : Genesis Demo.cfg Demo.w0 ∧ (∀ o ∈ Demo.report, o.Ok Demo.cfg) ∧
    (run Demo.cfg Demo.w0 Demo.report).tee.reports.get (5, 8) = some [⟨⟨50, 50, 50, 50, 50⟩, 7⟩] :=
  ⟨Demo.genesis, by decide, by decide⟩

/-- C50 fails: a metrics server can overwrite the report of another one, in its name. -/
theorem C50_fails : ∃ w w', Reach Demo.cfg w ∧
    dispatch Demo.cfg (.tee (.submitReport 8 ⟨⟨0, 0, 0, 0, 0⟩, 7⟩)) (.signed 5) w = .ok w' ∧
    w.tee.reports.get (5, 8) = some [⟨⟨50, 50, 50, 50, 50⟩, 7⟩] ∧
    w'.tee.reports.get (5, 8) = some [⟨⟨0, 0, 0, 0, 0⟩, 7⟩] :=
  ⟨Demo.at_ Demo.forged.dropLast, Demo.at_ Demo.forged, Demo.reach _ (by decide), by rfl, by decide, by decide⟩

example := C43_out (Demo.reach Demo.third (by decide)) (op := 6) rfl

example := C43_in (Demo.reach Demo.third (by decide)) (op := 8) (e := _) rfl

example := C43_cluster (Demo.reach Demo.third (by decide)) (k := 0) (cl := _) rfl

example := C43_address (Demo.reach Demo.third (by decide)) (op := 8) (op' := 9) (e := _) (e' := _) rfl rfl

example := C44_partial Demo.genesis Demo.forced (by decide) (a := 28) (k := 0) (op := 8) rfl

example := C45_locked (Demo.reach Demo.unbonding (by decide)) (op := 8) (s := _) rfl

example := C45_release (Demo.reach Demo.unbonding (by decide)) (Demo.by_ 8 (.tee .withdraw)) (by decide)
  (op := 8) (s := ⟨8, 50, true, 3⟩) rfl (by decide)

example := C45_started Demo.genesis Demo.unbonding (by decide) (op := 8) (s := ⟨8, 50, true, 3⟩) rfl rfl

example := C46_partial (Demo.reach Demo.third (by decide)) (op := 8) (e := _) rfl (by decide)

example := C47_once (Demo.reach Demo.claims (by decide)) 5

example := C47_claim (c := Demo.cfg) (w := Demo.at_ Demo.claims) (Demo.by_ 9 (.tee (.claim 5))) (by decide)
  (E := 5) (by decide)

example := C49_recorded (c := Demo.cfg) (w := Demo.at_ (Demo.enclaves ++ [.era 6]))
  (Demo.by_ 7 (.tee (.submitReport 8 ⟨⟨50, 50, 50, 50, 50⟩, 7⟩))) (by decide) (E := 5) (op := 8)
  (l := [⟨⟨50, 50, 50, 50, 50⟩, 7⟩]) (by decide) (by decide)

example := C49_closed (c := Demo.cfg) (w := Demo.at_ (Demo.report ++ [.era 8])) (A := 8) (E := 5) rfl (by decide)
  [.hookTee, .era 9] (by decide) 8

example := C49_claimable (c := Demo.cfg) (w := Demo.at_ (Demo.report ++ [.era 8])) (A := 8) (E := 5) rfl
  (by decide) (by decide) .hookTee (by decide) 8

example := C50_partial Demo.genesis Demo.report (by decide) (E := 5) (op := 8)
  (m := [⟨⟨50, 50, 50, 50, 50⟩, 7⟩]) (r := ⟨⟨50, 50, 50, 50, 50⟩, 7⟩) (by decide) (by simp)
