import Verif.Proofs.Weights
/-
C96: the weights that block hooks report.
-/
open Spec

variable {c : Cfg} {w : World}

/-- C96, transmissions: the hook does not write more storage items than it reports, and it never reports more than two for
each of `ActionsInBlockLimit` actions and one for the schedule. -/
theorem C96_transmission (hc : c.Ok) (hr : Reach c w) :
    AtMost (TrM.weight c w).2 w (step c w .hookTr) ∧
    (TrM.weight c w).1 ≤ 2 * max 1 c.trActions + 2 ∧ (TrM.weight c w).2 ≤ 2 * max 1 c.trActions + 1 := by
  refine ⟨TrM.hook_only, ?_⟩
  have hi := hr.inv hc
  have h := TrM.loop_few (c := c) w.tr.queue w 0 hi.tr.wf.nd (fun n hn => by
    obtain ⟨b, hb⟩ := Queue.mem_ids.1 hn
    obtain ⟨x, hx, _⟩ := hi.tr.inQ n b hb
    exact ⟨by rw [hx]; simp, good_tr hi.good hx⟩)
  obtain ⟨h1, _, h3⟩ := h
  simp only [TrM.weight]
  split <;> omega

/-- C96, rentals: the hook writes at most three times as many storage items as it reports, and reports at most three reads
and five writes for each of `ActionsInBlockLimit + 2` actions, one read and one write for the schedules.  Missing: that
it writes no more than it reports, see `C96_fails_rent`. -/
theorem C96_rent_partial :
    AtMost (3 * (RentM.weight c w).2) w (step c w .hookRent) ∧
    (RentM.weight c w).1 ≤ 3 * (max 1 c.rentActions + 2) + 1 ∧
    (RentM.weight c w).2 ≤ 5 * (max 1 c.rentActions + 2) + 1 := by
  refine ⟨RentM.hook_only, ?_⟩
  obtain ⟨f1, f2, f3⟩ := RentM.finish_few (c := c) .contractEnded w.rent.fixedQ w 0
  simp only [RentM.weight]
  generalize RentM.finishLoop c w w.rent.fixedQ 0 = f at *
  obtain ⟨s1, s2, s3⟩ := RentM.sub_few (c := c) (max 1 (c.rentActions - f.2.2)) f.1 w.rent.subQ f.2.2
  generalize RentM.subLoop c f.1 w.rent.subQ f.2.2 (max 1 (c.rentActions - f.2.2)) = s at *
  obtain ⟨a1, a2, a3⟩ := RentM.finish_few (c := c) .contractExpired w.rent.availQ s.1 s.2.2
  generalize RentM.finishLoop c s.1 w.rent.availQ s.2.2 = a at *
  constructor
  · omega
  · split <;> omega

/-- C96, auctions: if no payout aborts, the hook writes at most two storage items more than the reads and writes it reports
together, and it reports at most `BidderListLengthLimit + 3` reads and two writes for each of `ActionsInBlockLimit`
auctions.  Missing: that it writes no more than it reports as writes, see `C96_fails_auction`; and runs of the hook in which payouts
abort, see `C96_fails_auction_unbounded`. -/
theorem C96_auction_partial (hc : c.Ok) (hr : Reach c w) :
    (Clean c w .hookAuc → AtMost ((AucM.weight c w).1 + (AucM.weight c w).2 + 2) w (step c w .hookAuc)) ∧
    (AucM.weight c w).1 ≤ max 1 c.aucActions * (c.bidLimit + 3) + 1 ∧ (AucM.weight c w).2 ≤ 2 * max 1 c.aucActions := by
  have hi := hr.auc hc
  refine ⟨fun hcl => AucM.hook_only hi.wf.nd (fun n hn => ?_) hcl.settled, ?_⟩
  · obtain ⟨b, hb⟩ := Queue.mem_ids.1 hn
    obtain ⟨x, hx, _⟩ := hi.inQ n b hb
    exact ⟨by rw [hx]; simp, good_auc (hr.inv hc).good hx⟩
  · have h := AucM.loop_weight (c := c) w.auc.deadlines w 0 fun m x hx => (hi.ok m x hx).len
    simp only [AucM.weight]
    simp only [Nat.sub_zero] at h
    omega

/-- C96, TEE: the hook writes nothing but records of one era.  Missing: that it writes no more than it reports, see
`C96_fails_tee`. -/
theorem C96_tee_partial :
    (∃ e, ∀ s, Changed w (step c w .hookTee) s → ∃ a, s = .report e a ∨ s = .claimed e a) ∧ (TeeM.weight w).1 ≤ 1 := by
  refine ⟨TeeM.hook_only, ?_⟩
  unfold TeeM.weight
  dsimp only
  split <;> omega

/-- C96: the auction hook reports two writes for an auction without bids and writes three storage items. -/
theorem C96_fails_auction : ∃ w, Reach Demo.slow w ∧ (AucM.weight Demo.slow w).2 = 2 ∧
    MoreThan 2 w (step Demo.slow w .hookAuc) :=
  ⟨run Demo.slow Demo.w0 (twoDoomed.take 6 ++ Demo.ticks 10), (Reach.init Demo.slow_genesis).run _ (by decide), by decide,
    [.nft 0, .auction 0, .deadlines], by decide, by decide, by
      simp only [List.mem_cons, List.not_mem_nil, or_false, forall_eq_or_imp, forall_eq, Changed]
      decide⟩

/-- C96: payouts that abort are not reported at all: the hook reports no write and has changed the balances of the pallet's
account and of the marketplace owner, and the schedule. -/
theorem C96_fails_auction_unbounded : ∃ w, Reach Demo.slow w ∧ (AucM.weight Demo.slow w).2 = 0 ∧
    MoreThan 2 w (step Demo.slow w .hookAuc) :=
  ⟨run Demo.slow Demo.w0 (twoDoomed ++ Demo.ticks 10), (Reach.init Demo.slow_genesis).run _ (by decide), by decide,
    [.account Demo.slow.aucPot, .account 3, .deadlines], by decide, by decide, by
      simp only [List.mem_cons, List.not_mem_nil, or_false, forall_eq_or_imp, forall_eq, Changed]
      decide⟩

/-- a fixed contract of account 1 with deposits from both sides, taken by account 2 -/
abbrev bothDeposits : List Op :=
  [Demo.mint1, Demo.by_ 1 (.rent (.create 0 (.fixed 10) (.auto none) true (.tokens 100) (.fixed 40) (.fixed 30))),
   Demo.by_ 2 (.rent (.rent 0 0))]

/-- C96: the rent hook reports five writes for ending a fixed contract with deposits and writes six storage items. -/
theorem C96_fails_rent : ∃ w, Reach Demo.slow w ∧ (RentM.weight Demo.slow w).2 = 5 ∧
    MoreThan 5 w (step Demo.slow w .hookRent) :=
  ⟨run Demo.slow Demo.w0 (bothDeposits ++ Demo.ticks 20), (Reach.init Demo.slow_genesis).run _ (by decide), by decide,
    [.nft 0, .contract 0, .rentQueues, .account Demo.slow.rentPot, .account 1, .account 2], by decide, by decide, by
      simp only [List.mem_cons, List.not_mem_nil, or_false, forall_eq_or_imp, forall_eq, Changed]
      decide⟩

/-- C96: the TEE hook reports no write and drops a report. -/
theorem C96_fails_tee : ∃ w, Reach Demo.cfg w ∧ (TeeM.weight w).2 = 0 ∧ MoreThan 0 w (step Demo.cfg w .hookTee) :=
  ⟨Demo.at_ (Demo.report ++ [.era 9]), Demo.reach _ (by decide), by decide, [.report 5 8], by decide, by decide, by
      simp only [List.mem_cons, List.not_mem_nil, or_false, forall_eq, Changed]
      decide⟩

-- of two transmissions that are due the hook does one: it reports three writes and makes them
example : ∃ w, Reach Demo.slow w ∧ (TrM.weight Demo.slow w).2 = 3 ∧ MoreThan 2 w (step Demo.slow w .hookTr) :=
  ⟨run Demo.slow Demo.w0 ([Demo.mint1, Demo.mint1, Demo.by_ 1 (.tr (.set 0 2 (.atBlock 5) .none)),
      Demo.by_ 1 (.tr (.set 1 2 (.atBlock 5) .none))] ++ Demo.ticks 5),
    (Reach.init Demo.slow_genesis).run _ (by decide), by decide,
    [.nft 0, .transmission 0, .transmissionQueue], by decide, by decide, by
      simp only [List.mem_cons, List.not_mem_nil, or_false, forall_eq_or_imp, forall_eq, Changed]
      decide⟩
