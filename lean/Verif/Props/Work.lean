import Verif.Model.Events
import Verif.Proofs.Cash
import Verif.Props.Transmission
import Verif.Props.Auction
import Verif.Props.Rent
import Verif.Props.Tee
/-
What block hooks do at most in one block.
-/
open Spec

variable {c : Cfg} {w : World}

/-! ## helpers -/

theorem AucM.loop_few (q : Queue) (w : World) (k : Nat) : (hookEmit c w q k).length ≤ max 1 (c.aucActions - k) := by
  induction q generalizing w k with
  | nil => simp [hookEmit]
  | cons x q ih =>
    obtain ⟨n, b⟩ := x
    have h1 : (settleEmit c w n).length ≤ (if (settleOne c w n).2 then 1 else 0) := by
      unfold settleEmit settleOne
      cases hx : w.auc.auctions.get n with
      | none => simp
      | some x =>
        cases hd : w.nfts.get n with
        | none => simp
        | some d =>
          have ht : x.bids.getLast? = none ∨ ∃ top, x.bids.getLast? = some top := by
            cases x.bids.getLast? <;> simp
          rcases ht with ht | ⟨top, ht⟩
          · simp [ht]
          · simp only [ht]
            rcases hp : payForNft c w n c.aucPot top.2 d x with ⟨b, _ | _⟩ <;> simp
    simp only [hookEmit]
    split
    · rw [List.length_append]
      split
      · rename_i h2
        rw [if_pos h2] at h1
        split
        · simp; omega
        · have := ih (settleOne c w n).1 (k + 1)
          omega
      · rename_i h2
        rw [if_neg h2] at h1
        have := ih (settleOne c w n).1 k
        omega
    · simp

theorem RentM.finish_few (e : NFTId → Event) (q : Queue) (w : World) (k : Nat) :
    (finishEmit c e w q k).length ≤ max 1 (c.rentActions - k) ∧
    (finishLoop c w q k).2.2 = k + (finishEmit c e w q k).length ∧
    q.length = (finishLoop c w q k).2.1.length + (finishEmit c e w q k).length := by
  induction q generalizing w k with
  | nil => simp [finishEmit, finishLoop]
  | cons x q ih =>
    obtain ⟨n, b⟩ := x
    simp only [finishEmit, finishLoop]
    split
    · split
      · simp
      · obtain ⟨h1, h2, h3⟩ := ih (handleFinished c n w).1 (k + 1)
        simp only [List.length_cons]
        refine ⟨by omega, by omega, by omega⟩
    · simp

theorem RentM.sub_few (fuel : Nat) (w : World) (q : Queue) (k : Nat) :
    (subEmit c w q k fuel).length ≤ max 1 (c.rentActions - k) ∧
    (subLoop c w q k fuel).2.2 = k + (subEmit c w q k fuel).length ∧
    q.length ≤ (subLoop c w q k fuel).2.1.length + (subEmit c w q k fuel).length := by
  induction fuel generalizing w q k with
  | zero => simp [subEmit, subLoop]
  | succ f ih =>
    unfold subEmit subLoop
    cases q with
    | nil => simp
    | cons x q =>
      obtain ⟨n, b⟩ := x
      have hl : q.length ≤ (subOne c w n q).2.length := by
        unfold subOne
        rcases handleSub c w n with ⟨w1, _ | b1⟩
        · simp
        · simp only
          cases hi : Queue.insert c.rentLimit q n b1 with
          | none => simp
          | some q' =>
            obtain rfl := (Queue.insert_some hi).2
            simp only [Option.getD_some]
            rw [Queue.length_ins]; omega
      dsimp only
      split
      · split
        · simp only [List.length_cons, List.length_nil]; exact ⟨by omega, trivial, by omega⟩
        · obtain ⟨h1, h2, h3⟩ := ih (subOne c w n q).1 (subOne c w n q).2 (k + 1)
          simp only [List.length_cons]
          refine ⟨by omega, by omega, by omega⟩
      · simp


theorem AucM.settle_nfts (n m : NFTId) (h : w.nfts.get m ≠ none) : (settleOne c w n).1.nfts.get m ≠ none := by
  unfold settleOne
  cases hx : w.auc.auctions.get n with
  | none => exact h
  | some x =>
    cases hd : w.nfts.get n with
    | none => exact h
    | some d =>
      have ht : x.bids.getLast? = none ∨ ∃ top, x.bids.getLast? = some top := by
        cases x.bids.getLast? <;> simp
      rcases ht with ht | ⟨top, ht⟩
      · simp only [ht, World.putNft, World.ev, FMap.get_insert]; split <;> simp_all
      · simp only [ht]
        rcases hp : payForNft c w n c.aucPot top.2 d x with ⟨b, _ | _⟩
        · exact h
        · simp only [World.putNft, World.putBal, World.ev, FMap.get_insert]; split <;> simp_all

theorem AucM.settle_counted (n : NFTId) (h : w.auc.auctions.get n ≠ none) (h' : w.nfts.get n ≠ none)
    (hs : (settleOne c w n).1.auc.auctions.get n = none) : (settleOne c w n).2 = true := by
  unfold settleOne at hs ⊢
  cases hx : w.auc.auctions.get n with
  | none => exact absurd hx h
  | some x =>
    simp only [hx] at hs
    cases hd : w.nfts.get n with
    | none => exact absurd hd h'
    | some d =>
      simp only [hd] at hs
      have ht : x.bids.getLast? = none ∨ ∃ top, x.bids.getLast? = some top := by
        cases x.bids.getLast? <;> simp
      rcases ht with ht | ⟨top, ht⟩
      · simp [ht]
      · simp only [ht] at hs ⊢
        rcases hp : payForNft c w n c.aucPot top.2 d x with ⟨b, _ | _⟩
        · simp [hp, World.putBal, hx] at hs
        · rfl

theorem AucM.loop_pops (q : Queue) (w : World) (k : Nat) (hq : q.ids.Nodup)
    (he : ∀ n ∈ q.ids, w.auc.auctions.get n ≠ none ∧ w.nfts.get n ≠ none)
    (hs : ∀ n ∈ q.ids, n ∉ Queue.ids (hookLoop c w q k).2 → (hookLoop c w q k).1.auc.auctions.get n = none) :
    q.length ≤ (hookLoop c w q k).2.length + max 1 (c.aucActions - k) := by
  induction q generalizing w k with
  | nil => simp
  | cons x q ih =>
    obtain ⟨n, e⟩ := x
    simp only [Queue.ids, List.map_cons, List.nodup_cons] at hq
    simp only [hookLoop] at hs ⊢
    obtain ⟨e1, e2⟩ := he n (by simp [Queue.ids])
    have he' : ∀ m ∈ Queue.ids q, (settleOne c w n).1.auc.auctions.get m ≠ none ∧ (settleOne c w n).1.nfts.get m ≠ none := by
      intro m hm
      obtain ⟨x1, x2⟩ := he m (by simp only [Queue.ids, List.map_cons, List.mem_cons]; exact .inr hm)
      have : m ≠ n := by rintro rfl; exact hq.1 hm
      rw [settle_others n m this]
      exact ⟨x1, settle_nfts n m x2⟩
    split
    · rename_i hn
      simp only [if_pos hn] at hs
      have hz : ∀ k', (∀ m ∈ Queue.ids ((n, e) :: q), m ∉ Queue.ids (hookLoop c (settleOne c w n).1 q k').2 →
            (hookLoop c (settleOne c w n).1 q k').1.auc.auctions.get m = none) →
          (settleOne c w n).1.auc.auctions.get n = none := by
        intro k' hs
        have := hs n (by simp [Queue.ids]) fun h => hq.1 (loop_rest _ _ h)
        rwa [loop_others q k' hq.1] at this
      split
      · rename_i hr
        rw [if_pos hr] at hs
        split
        · simp
        · rename_i hk
          rw [if_neg hk] at hs
          have := ih (settleOne c w n).1 (k + 1) hq.2 he' fun m hm =>
            hs m (by simp only [Queue.ids, List.map_cons, List.mem_cons]; exact .inr hm)
          simp only [List.length_cons]; omega
      · rename_i hr
        rw [if_neg hr] at hs
        exact absurd (settle_counted n e1 e2 (hz _ hs)) hr
    · simp

theorem TrM.loop_few (q : Queue) (w : World) (k : Nat) (hq : q.ids.Nodup)
    (h : ∀ n ∈ q.ids, w.tr.trans.get n ≠ none ∧ w.nfts.get n ≠ none) :
    (hookEmit c w q k).length ≤ max 1 (c.trActions - k) ∧
    q.length = (hookLoop c w q k).2.1.length + (hookEmit c w q k).length ∧
    (hookLoop c w q k).2.2 = k + (hookEmit c w q k).length := by
  induction q generalizing w k with
  | nil => simp [hookEmit, hookLoop]
  | cons x q ih =>
    obtain ⟨n, b⟩ := x
    simp only [Queue.ids, List.map_cons, List.nodup_cons] at hq
    simp only [hookEmit, hookLoop]
    split
    · obtain ⟨e1, e2⟩ := h n (by simp [Queue.ids])
      obtain ⟨t, ht⟩ := Option.ne_none_iff_exists'.1 e1
      obtain ⟨d, hd, h1⟩ := hookOne_succeeds ht e2
      have hh : (hookOne w n).2 = true := by rw [h1]
      have hw : ∀ m ∈ Queue.ids q, (hookOne w n).1.tr.trans.get m ≠ none ∧ (hookOne w n).1.nfts.get m ≠ none := by
        intro m hm
        obtain ⟨x1, x2⟩ := h m (by simp only [Queue.ids, List.map_cons, List.mem_cons]; exact .inr hm)
        have : m ≠ n := by rintro rfl; exact hq.1 hm
        rw [h1]
        simp only [FMap.get_erase, FMap.get_insert, if_neg this]
        exact ⟨x1, x2⟩
      simp only [hh, if_true]
      split
      · simp
      · obtain ⟨i1, i2, i3⟩ := ih (hookOne w n).1 (k + 1) hq.2 hw
        simp only [List.length_cons]
        refine ⟨by omega, by omega, by omega⟩
    · simp

theorem Spec.good_auc {c : Cfg} (h : ∀ n, Good c (slice w n)) {n x} (hx : w.auc.auctions.get n = some x) :
    w.nfts.get n ≠ none := by
  intro e
  have := congrArg Slice.auc ((h n).gone e)
  simp [slice, Slice.blank, hx] at this

theorem Spec.good_tr {c : Cfg} (h : ∀ n, Good c (slice w n)) {n x} (hx : w.tr.trans.get n = some x) :
    w.nfts.get n ≠ none := by
  intro e
  have := congrArg Slice.tr ((h n).gone e)
  simp [slice, Slice.blank, hx] at this

/-! ## C92 -/

/-- C92, auctions: in one block the hook completes at most `ActionsInBlockLimit` auctions, but at least one. -/
theorem C92_auction : (emit c w .hookAuc).length ≤ max 1 c.aucActions := AucM.loop_few ..

/-- C92, auctions: if no payout aborts, the hook does not work on more auctions than that either.  Missing: runs of the hook
in which payouts abort, see `C92_fails_auction`. -/
theorem C92_auction_work_partial (hc : c.Ok) (hr : Reach c w) (hcl : Clean c w .hookAuc) :
    w.auc.deadlines.length ≤ (step c w .hookAuc).auc.deadlines.length + max 1 c.aucActions := by
  have hi := hr.auc hc
  refine AucM.loop_pops w.auc.deadlines w 0 hi.wf.nd (fun n hn => ?_) hcl.settled
  obtain ⟨b, hb⟩ := Queue.mem_ids.1 hn
  obtain ⟨x, hx, _⟩ := hi.inQ n b hb
  exact ⟨by rw [hx]; simp, good_auc (hr.inv hc).good hx⟩

/-- C92, transmissions: in one block the hook transmits at most `ActionsInBlockLimit` NFTs, but at least one, and takes no
other entries from the schedule. -/
theorem C92_transmission (hc : c.Ok) (hr : Reach c w) :
    (emit c w .hookTr).length ≤ max 1 c.trActions ∧
    w.tr.queue.length = (step c w .hookTr).tr.queue.length + (emit c w .hookTr).length := by
  have hi := hr.inv hc
  have h := TrM.loop_few (c := c) w.tr.queue w 0 hi.tr.wf.nd (fun n hn => by
    obtain ⟨b, hb⟩ := Queue.mem_ids.1 hn
    obtain ⟨x, hx, _⟩ := hi.tr.inQ n b hb
    exact ⟨by rw [hx]; simp, good_tr hi.good hx⟩)
  refine ⟨h.1, ?_⟩
  show _ = (TrM.hook c w).tr.queue.length + _
  unfold TrM.hook
  simp only
  split
  · exact h.2.1
  · rename_i hz
    have e : (TrM.hookEmit c w w.tr.queue 0) = [] := List.eq_nil_of_length_eq_zero (by omega)
    have e2 := (TrM.TrInv.loop (c := c) w.tr.queue w 0 hi.tr (fun n hn => by
      obtain ⟨x, hx⟩ := Option.ne_none_iff_exists'.1 hn
      exact good_tr hi.good hx)).2.2 (by omega)
    rw [e2]
    simp [emit, e]

/-- C92, rentals: in one block the hook ends or renews at most `ActionsInBlockLimit + 2` contracts, and does not take more
entries from the schedules.  Missing: the bound without `+ 2`, see `C92_fails_rent`. -/
theorem C92_rent_partial :
    (emit c w .hookRent).length ≤ max 1 c.rentActions + 2 ∧
    w.rent.fixedQ.length + w.rent.subQ.length + w.rent.availQ.length ≤
      (step c w .hookRent).rent.fixedQ.length + (step c w .hookRent).rent.subQ.length +
        (step c w .hookRent).rent.availQ.length + (emit c w .hookRent).length := by
  have he := RentM.hook_eq (c := c) w
  dsimp only at he
  simp only [step]
  rw [he]
  obtain ⟨f1, f2, f3⟩ := RentM.finish_few (c := c) .contractEnded w.rent.fixedQ w 0
  obtain ⟨s1, s2, s3⟩ := RentM.sub_few (c := c) (max 1 (c.rentActions - (RentM.finishLoop c w w.rent.fixedQ 0).2.2))
    (RentM.finishLoop c w w.rent.fixedQ 0).1 w.rent.subQ (RentM.finishLoop c w w.rent.fixedQ 0).2.2
  obtain ⟨a1, a2, a3⟩ := RentM.finish_few (c := c) .contractExpired w.rent.availQ
    (RentM.subLoop c (RentM.finishLoop c w w.rent.fixedQ 0).1 w.rent.subQ (RentM.finishLoop c w w.rent.fixedQ 0).2.2
      (max 1 (c.rentActions - (RentM.finishLoop c w w.rent.fixedQ 0).2.2))).1
    (RentM.subLoop c (RentM.finishLoop c w w.rent.fixedQ 0).1 w.rent.subQ (RentM.finishLoop c w w.rent.fixedQ 0).2.2
      (max 1 (c.rentActions - (RentM.finishLoop c w w.rent.fixedQ 0).2.2))).2.2
  simp only [emit, RentM.hookEmit, List.length_append, RentM.setQ]
  constructor
  · omega
  · omega

/-- C92, TEE: the hook drops records of at most one era. -/
theorem C92_tee : ∃ old, ∀ e, e ≠ old →
    (∀ y, (step c w .hookTee).tee.reports.get (e, y) = w.tee.reports.get (e, y)) ∧
    ∀ y, (step c w .hookTee).tee.claimed.get (e, y) = w.tee.claimed.get (e, y) := by
  simp only [step, TeeM.hook]
  cases w.active with
  | none => exact ⟨0, fun e _ => ⟨fun _ => rfl, fun _ => rfl⟩⟩
  | some x =>
    refine ⟨x - c.history, fun e he => ?_⟩
    dsimp only
    split
    · simp [TeeM.clearEra, FMap.get_filterKeys, he]
    · exact ⟨fun _ => rfl, fun _ => rfl⟩

/- a chain whose hooks may do one action per block -/
def Demo.slow : Cfg := { Demo.cfg with aucActions := 1, rentActions := 1, trActions := 1 }

theorem Demo.slow_ok : Demo.slow.Ok := by constructor <;> decide

theorem Demo.slow_genesis : Genesis Demo.slow Demo.w0 :=
  have h := Demo.genesis
  ⟨⟨h.bal.1, h.bal.2, h.bal.3, h.bal.4, h.bal.5⟩, h.nfts, h.nft, h.mkt, h.auc, h.rent, h.tr, h.tee, h.br, h.rew, h.evs⟩

instance (o : Op) : Decidable (o.Ok Demo.slow) := by
  unfold Op.Ok; split <;> infer_instance

/-- contracts of account 1 for NFTs 0, 1 and 2: one fixed, one subscription, one nobody takes -/
abbrev threeRents : List Op :=
  [Demo.mint1, Demo.mint1, Demo.mint1,
   Demo.by_ 1 (.rent (.create 0 (.fixed 10) (.auto none) true (.tokens 100) .none .none)),
   Demo.by_ 1 (.rent (.create 1 (.sub 5 (some 50) true) (.auto none) true (.tokens 100) .none .none)),
   Demo.by_ 1 (.rent (.create 2 (.fixed 10) (.auto none) true (.tokens 100) .none .none)),
   Demo.by_ 2 (.rent (.rent 0 0)), Demo.by_ 2 (.rent (.rent 1 0))]

/-- C92: the rent hook can do two actions more than its limit. -/
theorem C92_fails_rent : ∃ w, Reach Demo.slow w ∧ Demo.slow.rentActions = 1 ∧
    (emit Demo.slow w .hookRent).length = 3 :=
  ⟨run Demo.slow Demo.w0 (threeRents ++ Demo.ticks 20), (Reach.init Demo.slow_genesis).run _ (by decide), rfl, by decide⟩

/-- two auctions of account 5, who has spent all their money since, so that paying them less than the existential deposit
fails -/
abbrev twoDoomed : List Op :=
  [Demo.by_ 5 (.nft (.createNft [1] .zero none false)), Demo.by_ 5 (.nft (.createNft [2] .zero none false)),
   Demo.by_ 3 (.mkt (.create .pub)),
   Demo.by_ 3 (.mkt (.setConfig 0 (.set (.flat 95)) .noop .noop .noop .noop)),
   Demo.by_ 5 (.auc (.create 0 0 0 10 95 none)), Demo.by_ 5 (.auc (.create 1 0 0 10 95 none)),
   Demo.by_ 2 (.auc (.addBid 0 100)), Demo.by_ 4 (.auc (.addBid 1 100)), Demo.by_ 5 (.bal 6 9990 .allowDeath)]

/-- C92: auctions whose payout aborts do not count: the auction hook can work on any number of them in one block, here on
two where the limit is one. -/
theorem C92_fails_auction : ∃ w, Reach Demo.slow w ∧ Demo.slow.aucActions = 1 ∧
    w.auc.deadlines.length = 2 ∧ (step Demo.slow w .hookAuc).auc.deadlines = [] :=
  ⟨run Demo.slow Demo.w0 (twoDoomed ++ Demo.ticks 10), (Reach.init Demo.slow_genesis).run _ (by decide), rfl,
    by decide, by decide⟩

-- two transmissions are due where the limit is one: the hook does one of them
example : ∃ w, Reach Demo.slow w ∧ w.tr.queue.length = 2 ∧ (emit Demo.slow w .hookTr).length = 1 ∧
    (step Demo.slow w .hookTr).tr.queue.length = 1 :=
  ⟨run Demo.slow Demo.w0 ([Demo.mint1, Demo.mint1, Demo.by_ 1 (.tr (.set 0 2 (.atBlock 5) .none)),
      Demo.by_ 1 (.tr (.set 1 2 (.atBlock 5) .none))] ++ Demo.ticks 5),
    (Reach.init Demo.slow_genesis).run _ (by decide), by decide, by decide, by decide⟩

-- two auctions without bids are due
example : ∃ w, Reach Demo.slow w ∧ Clean Demo.slow w .hookAuc ∧ w.auc.deadlines.length = 2 ∧
    (emit Demo.slow w .hookAuc).length = 1 ∧ (step Demo.slow w .hookAuc).auc.deadlines.length = 1 := by
  refine ⟨run Demo.slow Demo.w0 (twoDoomed.take 6 ++ Demo.ticks 10),
    (Reach.init Demo.slow_genesis).run _ (by decide), ?_, by decide, by decide, by decide⟩
  intro _ n ⟨b, hb⟩ _
  have e : (run Demo.slow Demo.w0 (twoDoomed.take 6 ++ Demo.ticks 10)).auc.deadlines = [(0, 10), (1, 10)] := by decide
  have e' : (step Demo.slow (run Demo.slow Demo.w0 (twoDoomed.take 6 ++ Demo.ticks 10)) .hookAuc).auc.deadlines =
    [(1, 10)] := by decide
  rw [e] at hb
  simp only [List.mem_cons, Prod.mk.injEq, List.not_mem_nil, or_false] at hb
  rcases hb with ⟨rfl, _⟩ | ⟨rfl, _⟩
  · decide
  · rename_i h
    exact absurd ⟨10, by rw [e']; simp⟩ h

-- the records of era 5 are dropped in era 9
example : Reach Demo.cfg (Demo.at_ (Demo.report ++ [.era 9])) ∧
    (Demo.at_ (Demo.report ++ [.era 9])).tee.reports.get (5, 8) ≠ none ∧
    (step Demo.cfg (Demo.at_ (Demo.report ++ [.era 9])) .hookTee).tee.reports.get (5, 8) = none :=
  ⟨Demo.reach _ (by decide), by decide, by decide⟩
