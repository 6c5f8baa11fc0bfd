import Verif.Proofs.Registry
/-
C85: who sees only the events of the TEE pallet knows its registry.  C86: the amounts in those events are true, except one.
-/
open Spec

variable {c : Cfg} {w : World}

/-- Who knows the registry at some time, and reads all events from then on, knows it later. -/
theorem C85_events_keep_the_registry (hr : Reach c w) (ops : List Op) (ho : ∀ o ∈ ops, o.Ok c) :
    registry (run c w ops) = notes (registry w) (teeHistory c w ops) := by
  induction ops generalizing w with
  | nil => rfl
  | cons o t ih =>
    rw [run, teeHistory, notes_append, notes_map, ← step_noted hr o (ho o (List.mem_cons_self ..))]
    exact ih (.step o hr (ho o (List.mem_cons_self ..))) fun x hx => ho x (List.mem_cons_of_mem _ hx)

/-- Who has read all events since the beginning, and knows the parameters set at genesis, knows every registration, enclave,
requested update, operator who asked to leave, taken address, assignment, cluster, stake and metrics server, and the
parameters. -/
theorem C85_events_tell_the_registry (hg : Genesis c w) (ops : List Op) (ho : ∀ o ∈ ops, o.Ok c) :
    registry (run c w ops) = notes
      { registration := fun _ => none, enclave := fun _ => none, update := fun _ => none, leaving := fun _ => false
        taken := fun _ => none, cluster := fun _ => none, since := fun _ => none, kind := fun _ => none
        stake := fun _ => none, server := fun _ => none, weights := w.tee.weights
        stakingAmount := w.tee.stakingAmount, pool := w.tee.pool }
      (teeHistory c w ops) := by
  rw [C85_events_keep_the_registry (.init hg) ops ho]
  congr 1
  obtain ⟨h1, h2, h3, h4, h5, h6, _, h7, h8, h9, _, _, h10⟩ := hg.tee
  apply Registry.ext <;> first | rfl | (funext m; simp [registry, h1, h2, h3, h4, h5, h6, h7, h8, h9, h10])

/-- operator 8 moves to another address, operator 9 is removed, operator 6 gives up -/
def Demo.moves : List Op := open Demo in pending ++
  [.call .root (.root (.tee (.approveUpdate 8))), .call .root (.root (.tee (.forceRemove 9))),
   .call .ext (.mandate (.root (.tee (.setStakingAmount 60)))), by_ 8 (.tee .bondExtra), by_ 6 (.tee .unregister)]

/-- what the events alone say about it -/
example :
    (∀ o ∈ Demo.moves, o.Ok Demo.cfg) ∧
    let r := notes (registry Demo.w0) (teeHistory Demo.cfg Demo.w0 Demo.moves)
    r.enclave 8 = some ⟨28, [2]⟩ ∧ r.taken 28 = some 8 ∧ r.cluster 8 = some 0 ∧ r.since 8 = some 5 ∧
    (r.stake 8).map (·.staked) = some 60 ∧ r.enclave 9 = none ∧ (r.stake 9).map (·.unlocking) = some true ∧
    r.registration 6 = none ∧ r.stake 6 = none ∧ r.server 7 = some .pub ∧ r.stakingAmount = 60 := by decide

/-- The slot an enclave is assigned to is not told: here two histories with the same events differ in it. -/
theorem C85_slot_not_told : ∃ l l' : List Op, (∀ o ∈ l, o.Ok Demo.cfg) ∧ (∀ o ∈ l', o.Ok Demo.cfg) ∧
    teeHistory Demo.cfg Demo.w0 l = teeHistory Demo.cfg Demo.w0 l' ∧
    ((run Demo.cfg Demo.w0 l).tee.clusters.get 0).map (·.enclaves) = some [(8, 0)] ∧
    ((run Demo.cfg Demo.w0 l').tee.clusters.get 0).map (·.enclaves) = some [(8, 1)] :=
  let ops (s : SlotId) : List Op :=
    [Demo.by_ 8 (.tee (.register 18 [1])), .call .root (.root (.tee (.createCluster .pub))), .era 5,
     .call .root (.root (.tee (.assign 8 0 s)))]
  ⟨ops 0, ops 1, by decide, by decide, by decide, by decide, by decide⟩

/-- Events about stakes state the true amount.  `Withdrawn` does if the operator had staked what is the staking amount now;
in general it does not, see `C86_fails`. -/
theorem C86_partial (hr : Reach c w) (o : Op) {e : TeeEvent} (he : e ∈ teeEmit c w o)
    (hw : ∀ op x s, e = .withdrawn op x → w.tee.ledger.get op = some s → s.staked = w.tee.stakingAmount) :
    Truthful (registry w) (registry (step c w o)) e :=
  step_truthful hr o he hw

/-- A registered operator who leaves after the staking amount has been changed: the event says that 60 have been withdrawn,
but 50 were staked. -/
theorem C86_fails : ∃ w, Reach Demo.cfg w ∧ (w.tee.ledger.get 8).map (·.staked) = some 50 ∧
    teeEmit Demo.cfg w (Demo.by_ 8 (.tee .unregister)) = [.registrationRemoved 8, .withdrawn 8 60] :=
  ⟨Demo.at_ [Demo.by_ 8 (.tee (.register 18 [1])), .call .root (.root (.tee (.setStakingAmount 60)))],
    Demo.reach _ (by decide), by decide, by decide⟩

example : Reach Demo.cfg (Demo.at_ (Demo.moves.take 13)) ∧
    TeeEvent.bondedExtra 8 10 ∈ teeEmit Demo.cfg (Demo.at_ (Demo.moves.take 13)) (Demo.by_ 8 (.tee .bondExtra)) ∧
    TeeEvent.withdrawn 6 50 ∈ teeEmit Demo.cfg (Demo.at_ (Demo.moves.take 10)) (Demo.by_ 6 (.tee .unregister)) :=
  ⟨Demo.reach _ (by decide), by decide, by decide⟩
