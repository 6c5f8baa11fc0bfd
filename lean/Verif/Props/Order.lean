import Verif.Proofs.Order
import Verif.Props.Work
/-
The hooks work in the order of the schedules: first come, first served.
-/
open Spec

variable {c : Cfg} {w : World} {x y : NFTId × Block}

/-! ## C123 -/

/-- C123, order: each schedule is in the order of the blocks. -/
theorem C123_sorted (hc : c.Ok) (hr : Reach c w) (k : Work) (h : Ahead (schedule w k) x y) : x.2 ≤ y.2 := by
  have key : ∀ {q : Queue}, q.WF → Ahead q x y → x.2 ≤ y.2 := by
    intro q hq h
    have := hq.sorted.sublist h
    simpa using this
  have hi := hr.inv hc
  cases k with
  | auction => exact key (hr.auc hc).wf h
  | fixed => exact key hi.rent.q.wfF h
  | subscription => exact key hi.rent.q.wfS h
  | unused => exact key hi.rent.q.wfA h
  | transmission => exact key hi.tr.wf h

/-- C123, service: whatever is ahead of an entry the hook takes out is taken out too. -/
theorem C123_served (hc : c.Ok) (hr : Reach c w) (k : Work) (h : Ahead (schedule w k) x y)
    (hy : y ∉ schedule (step c w (hookFor k)) k) : x ∉ schedule (step c w (hookFor k)) k := by
  intro hx
  refine hy ?_
  have := hook_ind (P := fun q => Ahead q x y) (fun _ _ h hx => Queue.Ahead_tail h hx)
    (fun n b _ _ _ ha => Queue.Ahead_ins n b ha) hc hr k (h.subset (by simp)) hx h
  exact this.subset (by simp)

/-- C123, no overtaking: whatever anyone does, an entry for a later block or a newer one for the same block does not get
ahead of one that stays in the schedule, unless that one is put into the schedule anew. -/
theorem C123_no_overtaking (hc : c.Ok) (hr : Reach c w) (o : Op) (ho : o.Ok c) (k : Work) (hx : x ∈ schedule w k)
    (hx' : x ∈ schedule (step c w o) k) (hxy : x.2 ≤ y.2) (hb : y ∈ schedule w k → Ahead (schedule w k) x y)
    (hrq : ¬ Requeues x o) (hy : y ∈ schedule (step c w o) k) : Ahead (schedule (step c w o) k) x y :=
  step_before hc hr o ho k hx hx' hxy hrq hb hy

/-- C123: first come, first served.  If `x` waits for a block not later than `y`'s and `y` is not ahead of it, then by the
time the hook takes out `y`, be it after any number of operations, `x` has left the schedule, at the latest in the same run
of the hook. -/
theorem C123 (hc : c.Ok) (hr : Reach c w) (k : Work) (hx : x ∈ schedule w k) (hxy : x.2 ≤ y.2)
    (hb : y ∈ schedule w k → Ahead (schedule w k) x y) (l : List Op) (hl : ∀ o ∈ l, o.Ok c)
    (hrq : ∀ o ∈ l, ¬ Requeues x o) (hy : y ∈ schedule (run c w l) k)
    (hy' : y ∉ schedule (run c w (l ++ [hookFor k])) k) :
    (∃ l1 l2, l = l1 ++ l2 ∧ x ∉ schedule (run c w l1) k) ∨ x ∉ schedule (run c w (l ++ [hookFor k])) k := by
  induction l generalizing w with
  | nil => exact .inr (C123_served hc hr k (hb hy) hy')
  | cons o t ih =>
    have ho := hl o (by simp)
    by_cases hx' : x ∈ schedule (step c w o) k
    · rcases ih (.step o hr ho) hx'
        (C123_no_overtaking hc hr o ho k hx hx' hxy hb (hrq o (by simp)))
        (fun o' h' => hl o' (by simp [h'])) (fun o' h' => hrq o' (by simp [h'])) hy hy' with ⟨l1, l2, e, h⟩ | h
      · exact .inl ⟨o :: l1, l2, by rw [e]; rfl, h⟩
      · exact .inr h
    · exact .inl ⟨[o], t, rfl, hx'⟩

/-- account 1 schedules two transmissions for block 5, then one for block 4 -/
abbrev threeDue : List Op :=
  [Demo.mint1, Demo.mint1, Demo.mint1, Demo.by_ 1 (.tr (.set 0 2 (.atBlock 5) .none)),
   Demo.by_ 1 (.tr (.set 1 2 (.atBlock 5) .none)), Demo.by_ 1 (.tr (.set 2 2 (.atBlock 4) .none))]

-- the newer entry for block 5 comes last, the one for block 4 first
example : ∃ w, Reach Demo.slow w ∧ schedule w .transmission = [(2, 4), (0, 5), (1, 5)] :=
  ⟨run Demo.slow Demo.w0 threeDue, (Reach.init Demo.slow_genesis).run _ (by decide), by decide⟩

-- with one action per block the hook takes them in this order: when it takes out the newer one, the older one has left
example : (∃ l1 l2, Demo.ticks 5 ++ [.hookTr, .hookTr] = l1 ++ l2 ∧
      (0, 5) ∉ schedule (run Demo.slow (run Demo.slow Demo.w0 threeDue) l1) .transmission) ∨
    (0, 5) ∉ schedule (run Demo.slow (run Demo.slow Demo.w0 threeDue) ((Demo.ticks 5 ++ [.hookTr, .hookTr]) ++
      [.hookTr])) .transmission :=
  C123 (c := Demo.slow) (x := (0, 5)) (y := (1, 5)) Demo.slow_ok
    ((Reach.init Demo.slow_genesis).run _ (by decide)) .transmission (by decide) (by decide)
    (fun _ => show List.Sublist _ _ by decide) (Demo.ticks 5 ++ [.hookTr, .hookTr]) (by decide) (by rintro o ho ⟨a, rfl⟩; simp [Demo.ticks] at ho) (by decide) (by decide)

/-- contracts of account 1: two rentals for a fixed time, that end in blocks 10 and 11, and a subscription whose next
period starts in block 12 -/
abbrev mixedRents : List Op :=
  [Demo.mint1, Demo.mint1, Demo.mint1,
   Demo.by_ 1 (.rent (.create 0 (.fixed 10) (.auto none) true (.tokens 100) .none .none)),
   Demo.by_ 1 (.rent (.create 1 (.fixed 11) (.auto none) true (.tokens 100) .none .none)),
   Demo.by_ 1 (.rent (.create 2 (.sub 12 (some 50) true) (.auto none) true (.tokens 100) .none .none)),
   Demo.by_ 2 (.rent (.rent 0 0)), Demo.by_ 2 (.rent (.rent 1 0)), Demo.by_ 2 (.rent (.rent 2 0))]

/-- C123 does not extend across the three schedules of rentals, which one hook works through one after the other: with one action per
block it renews the subscription due in block 12 and leaves the rental that was to end in block 11. -/
theorem C123_not_across : ∃ w, Reach Demo.slow w ∧ (1, 11) ∈ schedule w .fixed ∧ (2, 12) ∈ schedule w .subscription ∧
    w.now = 12 ∧ (2, 12) ∉ schedule (step Demo.slow w .hookRent) .subscription ∧
    (1, 11) ∈ schedule (step Demo.slow w .hookRent) .fixed :=
  ⟨run Demo.slow Demo.w0 (mixedRents ++ Demo.ticks 12), (Reach.init Demo.slow_genesis).run _ (by decide), by decide,
    by decide, by decide, by decide, by decide⟩

/-- C123: the exception is real.  Setting the timer to the block it is set to gives up one's place. -/
theorem C123_requeue : ∃ w o, Reach Demo.cfg w ∧ schedule w .transmission = [(0, 5), (1, 5)] ∧ Requeues (0, 5) o ∧
    schedule (step Demo.cfg w o) .transmission = [(1, 5), (0, 5)] :=
  ⟨Demo.at_ [Demo.mint1, Demo.mint1, Demo.by_ 1 (.tr (.set 0 2 (.atBlockWithReset 5) .none)),
    Demo.by_ 1 (.tr (.set 1 2 (.atBlock 5) .none))], Demo.by_ 1 (.tr (.resetTimer 0 5)), Demo.reach _ (by decide),
    by decide, ⟨1, rfl⟩, by decide⟩
