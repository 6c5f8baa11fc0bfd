import Verif.Proofs.Horizon
import Verif.Props.Demo
/-
C88: nothing is planned beyond the configured limits, so block numbers do not overflow.
-/
namespace Spec

/-- The block numbers in the storages that are compared with the current block, `now` being the current one. -/
structure OnTime (c : Cfg) (w : World) : Prop where
  /-- an auction starts and ends within the delay and duration allowed; a late bid moves the end to at most a grace period
  from now -/
  auction : ∀ n x, w.auc.auctions.get n = some x →
    x.start ≤ w.now + c.maxDelay ∧ x.fin ≤ w.now + max (c.maxDelay + c.maxDur) c.grace
  deadline : ∀ n b, (n, b) ∈ w.auc.deadlines → b ≤ w.now + max (c.maxDelay + c.maxDur) c.grace
  /-- an offer to rent ends within its availability period, a rental or a period of it within the longest duration -/
  offered : ∀ n b, (n, b) ∈ w.rent.availQ → b ≤ w.now + c.rentAvail
  fixed : ∀ n b, (n, b) ∈ w.rent.fixedQ → b ≤ w.now + c.rentMaxDur
  sub : ∀ n b, (n, b) ∈ w.rent.subQ → b ≤ w.now + c.rentMaxDur
  /-- contracts were made, and started, in the past -/
  contract : ∀ n k, w.rent.contracts.get n = some k → k.creation ≤ w.now ∧ ∀ s, k.start = some s → k.creation ≤ s ∧ s ≤ w.now
  /-- a transmission happens within the longest duration -/
  transmission : ∀ n b, (n, b) ∈ w.tr.queue → b ≤ w.now + c.trMaxDur
  /-- a proposal expires within its lifetime -/
  proposal : ∀ k p, w.br.votes.get k = some p → p.expiry ≤ w.now + c.proposalLife
  /-- unbonding began in the past -/
  unbonding : ∀ a s, w.tee.ledger.get a = some s → s.unbondedAt ≤ w.now

/-- the farthest block anything can be planned for -/
def horizon (c : Cfg) (w : World) : Block :=
  w.now + max (max (max (c.maxDelay + c.maxDur) c.grace) (max c.rentAvail c.rentMaxDur)) (max c.trMaxDur c.proposalLife)

/-- all these block numbers are at most `m` -/
structure BlocksBelow (w : World) (m : Block) : Prop where
  auction : ∀ n x, w.auc.auctions.get n = some x → x.start ≤ m ∧ x.fin ≤ m
  deadline : ∀ n b, (n, b) ∈ w.auc.deadlines → b ≤ m
  rent : ∀ n b, (n, b) ∈ w.rent.availQ ∨ (n, b) ∈ w.rent.fixedQ ∨ (n, b) ∈ w.rent.subQ → b ≤ m
  contract : ∀ n k, w.rent.contracts.get n = some k → k.creation ≤ m ∧ ∀ s, k.start = some s → s ≤ m
  transmission : ∀ n b, (n, b) ∈ w.tr.queue → b ≤ m
  proposal : ∀ k p, w.br.votes.get k = some p → p.expiry ≤ m
  unbonding : ∀ a s, w.tee.ledger.get a = some s → s.unbondedAt ≤ m

end Spec

variable {c : Cfg} {w : World}

/-- C88: in every reachable world, whatever has happened, nothing is planned later than the configured limits from now, and
what is said to have happened happened in the past. -/
theorem C88 (hc : c.Ok) (hr : Reach c w) : Spec.OnTime c w := by
  have hi := hr.inv hc
  refine ⟨hr.aucNear, ?_, ?_, ?_, hr.rentNear hc, ?_, ?_, hr.brNear, hr.teePast⟩
  · intro n b h
    obtain ⟨x, hx, rfl⟩ := (hr.auc hc).inQ n b h
    exact (hr.aucNear n x hx).2
  · intro n b h
    obtain ⟨k, hk, _, rfl⟩ := hi.rent.q.inA n b h
    have := (hi.rent.q.con n k hk).creation
    omega
  · intro n b h
    obtain ⟨k, s, d, hk, _, hs, hd, rfl⟩ := hi.rent.q.inF n b h
    have h1 := (hi.rent.q.con n k hk).started s hs
    have h2 := (hi.rent.q.con n k hk).full
    rw [hd] at h2
    simp only [RentM.full] at h2
    omega
  · intro n k hk
    have h := hi.rent.q.con n k hk
    exact ⟨h.creation, h.started⟩
  · intro n b h
    obtain ⟨x, hx, hb, _⟩ := hi.tr.inQ n b h
    exact hr.trNear hc n x b hx hb

-- an auction at the latest possible time
example := C88 Demo.cfg_ok (Demo.reach [Demo.mint1, Demo.by_ 1 (.mkt (.create .pub)),
  Demo.by_ 1 (.auc (.create 0 0 20 120 50 none))] (by decide))

/-- C88: so as long as the horizon is below the largest block number, every block number the pallets compute is too, and
saturating or wrapping arithmetic on them is exact. -/
theorem C88_fits (hc : c.Ok) (hr : Reach c w) {m : Block} (hm : Spec.horizon c w ≤ m) : Spec.BlocksBelow w m := by
  have h := C88 hc hr
  unfold Spec.horizon at hm
  constructor
  · intro n x hx; have := h.auction n x hx; omega
  · intro n x hx; have := h.deadline n x hx; omega
  · rintro n x (hx | hx | hx)
    · have := h.offered n x hx; omega
    · have := h.fixed n x hx; omega
    · have := h.sub n x hx; omega
  · intro n k hk
    obtain ⟨h1, h2⟩ := h.contract n k hk
    refine ⟨by omega, fun s hs => ?_⟩
    have := h2 s hs; omega
  · intro n x hx; have := h.transmission n x hx; omega
  · intro n x hx; have := h.proposal n x hx; omega
  · intro n x hx; have := h.unbonding n x hx; omega

-- the bounds are reached: an auction as late and long as allowed, a rental, a transmission and a stake being unbonded
example : let w := Demo.at_ ([Demo.mint1, Demo.mint1, Demo.mint1] ++ Demo.enclaves ++ Demo.ticks 3 ++
      [Demo.by_ 1 (.mkt (.create .pub)), Demo.by_ 1 (.auc (.create 0 0 23 123 50 none)),
       Demo.by_ 1 (.rent (.create 1 (.fixed 100) (.auto none) false (.tokens 5) .none .none)), Demo.by_ 2 (.rent (.rent 1 3)),
       Demo.by_ 1 (.tr (.set 2 3 (.atBlock 103) .none)), Demo.by_ 8 (.tee .unregister)])
    Reach Demo.cfg w ∧ w.now = 3 ∧ Spec.horizon Demo.cfg w = 123 ∧ w.auc.deadlines = [(0, 123)] ∧ w.rent.fixedQ = [(1, 103)] ∧
      w.tr.queue = [(2, 103)] ∧ (w.tee.ledger.get 8).map (·.unbondedAt) = some 3 :=
  ⟨Demo.reach _ (by decide), by decide, by decide, by decide, by decide, by decide, by decide⟩
