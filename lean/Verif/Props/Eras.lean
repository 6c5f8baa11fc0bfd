import Verif.Proofs.Eras
import Verif.Proofs.Leftover
import Verif.Props.Operate
/-
C131: no era is special, but the first.
-/
open Spec

variable {c : Cfg} {w : World}

/-- C131, as far as it holds: move a state `k` eras into the future, with every era of a report, claim or assignment it holds,
and any call with the eras among its arguments.  The call then does the same, `k` eras later, and fails with the same error if it
fails.  Missing: two calls in the first eras of a chain (`Eras.First`), see `C131_fails` and `C131_fails_report`. -/
theorem C131_calls_partial (k : Era) (x : Call) (o : Origin) (hx : ∀ a, o = .signed a → ¬ Eras.First c w x) :
    dispatch c (Eras.call k x) o (Eras.world k w) = (dispatch c x o w).map (Eras.world k) :=
  _root_.Eras.dispatch k c w x o hx

/-- … and so do block hooks, fees, payouts and whole histories, with the changes of era in them. -/
theorem C131_histories_partial (k : Era) (l : List Op) (hl : Eras.Usual c w l) :
    run c (Eras.world k w) (l.map (Eras.op k)) = Eras.world k (run c w l) :=
  _root_.Eras.run k l hl

/-- In particular everybody has the same tokens, stakes and NFTs then, and a reward was claimed for an era if and only if it was
claimed, with the same amount, for the era `k` later. -/
theorem C131_assets_partial (k : Era) (l : List Op) (hl : Eras.Usual c w l) :
    let w1 := run c w l
    let w2 := run c (Eras.world k w) (l.map (Eras.op k))
    w2.bal = w1.bal ∧ w2.nfts = w1.nfts ∧ w2.tee.ledger = w1.tee.ledger ∧ w2.active = w1.active.map (· + k) ∧
      (∀ e a, w2.tee.claimed.get (e + k, a) = w1.tee.claimed.get (e, a)) ∧
      (∀ e a, w2.tee.reports.get (e + k, a) = w1.tee.reports.get (e, a)) ∧
      ∀ a, w2.tee.assignedEra.get a = (w1.tee.assignedEra.get a).map (· + k) := by
  intro w1 w2
  have h : w2 = Eras.world k w1 := C131_histories_partial k l hl
  rw [h]
  refine ⟨rfl, rfl, rfl, rfl, fun e a => ?_, fun e a => ?_, fun a => FMap.mapv_get _ _ _⟩
  · exact (FMap.mapk_get (f := Eras.key k) (hf := Eras.key_inj k) (g := id) w1.tee.claimed (e, a)).trans Option.map_id'
  · exact (FMap.mapk_get (f := Eras.key k) (hf := Eras.key_inj k) (g := id) w1.tee.reports (e, a)).trans Option.map_id'

/-- Once the chain is as old as its history reaches, nothing is missing. -/
theorem C131_settled {e : Era} (he : w.active = some e) (h1 : c.history ≤ e) (h2 : 1 ≤ e) (l : List Op)
    (hl : ∀ o ∈ l, o.Ok c) : Eras.Usual c w l := by
  induction l generalizing w e with
  | nil => trivial
  | cons o l ih =>
    have ho := hl o List.mem_cons_self
    refine ⟨?_, ?_⟩
    · rintro a x rfl hx
      cases x with
      | tee x =>
        cases x with
        | claim e' => have := hx.2 e he; omega
        | submitReport o r =>
          have h : w.active = some 0 := hx
          rw [he] at h; cases h; omega
        | _ => exact hx
      | _ => exact hx
    · obtain ⟨e', h3, h4⟩ := step_active w o ho he
      exact ih h3 (by omega) (by omega) fun o h => hl o (List.mem_cons_of_mem _ h)

/-- A chain whose first era is not era 0 has no special era from the start, if nobody claims a reward of era 0 (which is refused
anyway): launched with the eras counted from elsewhere, it does the same for ever, `k` eras later. -/
theorem C131_launch (k : Era) (hg : Genesis c w) (h0 : w.active = none) (l : List Op) (hl : ∀ o ∈ l, o.Ok c)
    (h1 : Op.era 0 ∉ l) (h2 : ∀ a, Op.call (.signed a) (.tee (.claim 0)) ∉ l) :
    run c w (l.map (Eras.op k)) = Eras.world k (run c w l) := by
  have hu : Eras.Usual c w l := by
    have h0' : w.active ≠ some 0 := by rw [h0]; simp
    clear h0 hg
    induction l generalizing w with
    | nil => trivial
    | cons o l ih =>
      have ho := hl o List.mem_cons_self
      refine ⟨?_, ih ?_ (fun h => h1 (List.mem_cons_of_mem _ h)) (fun a h => h2 a (List.mem_cons_of_mem _ h)) ?_⟩
      · rintro a x rfl hx
        cases x with
        | tee x =>
          cases x with
          | claim e' => obtain ⟨rfl, _⟩ := hx; exact h2 a List.mem_cons_self
          | submitReport o r => exact h0' hx
          | _ => exact hx
        | _ => exact hx
      · exact fun o h => hl o (List.mem_cons_of_mem _ h)
      · by_cases he : ∃ e, o = .era e
        · obtain ⟨e, rfl⟩ := he
          have : e ≠ 0 := fun h => h1 (h ▸ List.mem_cons_self)
          simp only [step]
          split
          · simpa using this
          · exact h0'
        · rw [step_active_eq w o ho fun e h => he ⟨e, h⟩]
          exact h0'
  rw [← C131_histories_partial k l hu]
  congr 1
  obtain ⟨-, -, -, -, -, -, -, ⟨-, -, -, -, -, -, -, -, -, -, e1, e2, e3⟩, -, -, e4⟩ := hg
  obtain ⟨now, active, bal, nfts, nft, mkt, auc, rent, tr, ⟨⟩, br, rew, evs⟩ := w
  simp only at h0 e1 e2 e3 e4
  subst h0 e1 e2 e3 e4
  rfl

/-- C131 fails in the first eras: the reward of era 0 is refused to an operator, and one era later everywhere it is paid. -/
theorem C131_fails : ∃ c w a, c.Ok ∧ Reach c w ∧ Reach c (Eras.world 1 w) ∧
    dispatch c (.tee (.claim 0)) (.signed a) w = .error (.e "InvalidEraToClaimRewards") ∧
    (dispatch c (Eras.call 1 (.tee (.claim 0))) (.signed a) (Eras.world 1 w)).isOk = true :=
  ⟨Demo.cfg, Demo.at_ firstEra, 8, Demo.cfg_ok, Demo.reach _ (by decide),
    Demo.reach (firstEra.map (Eras.op 1)) (by decide), rfl, by decide +kernel⟩

/-- operator 8 is assigned in era 0, and server 7 registered -/
abbrev Demo.era0 : List Op := firstEra.take 4 ++ [.call .root (.root (.tee (.registerServer ⟨7, .pub⟩)))]

/-- A report in era 0 counts for era 0 itself and, one era later everywhere, for the era before. -/
theorem C131_fails_report : ∃ c w a op r, c.Ok ∧ Reach c w ∧ Reach c (Eras.world 1 w) ∧ w.active = some 0 ∧
    ((step c w (.call (.signed a) (.tee (.submitReport op r)))).tee.reports.get (0, op)).isSome = true ∧
    (step c (Eras.world 1 w) (.call (.signed a) (.tee (.submitReport op r)))).tee.reports.get (0 + 1, op) = none ∧
    ((step c (Eras.world 1 w) (.call (.signed a) (.tee (.submitReport op r)))).tee.reports.get (0, op)).isSome = true :=
  ⟨Demo.cfg, Demo.at_ Demo.era0, 7, 8,
    ⟨⟨10, 20, 30, 40, 50⟩, 7⟩, Demo.cfg_ok, Demo.reach _ (by decide),
    Demo.reach (Demo.era0.map (Eras.op 1)) (by decide),
    by decide, by decide +kernel, by decide +kernel, by decide +kernel⟩

/-- The server reports on operator 8 in era 6; in era 8 the reward of era 5 is claimed, and again, which is refused. -/
abbrev Demo.eraRun : List Op :=
  [.era 6, Demo.by_ 7 (.tee (.submitReport 8 ⟨⟨10, 20, 30, 40, 50⟩, 7⟩)), .era 8, Demo.by_ 8 (.tee (.claim 5)),
   Demo.by_ 8 (.tee (.claim 5))]

example :
    let w := Demo.at_ Demo.enclaves
    let w' := run Demo.cfg (Eras.world 100 w) (Demo.eraRun.map (Eras.op 100))
    w.active = some 5 ∧ Demo.cfg.history ≤ 5 ∧ (∀ o ∈ Demo.eraRun, o.Ok Demo.cfg) ∧ w'.active = some 108 ∧
      (w'.tee.claimed.get (105, 8)).isSome = true ∧ w'.tee.claimed.get (5, 8) = none ∧
      w'.tee.reports.get (105, 8) = some [⟨⟨10, 20, 30, 40, 50⟩, 7⟩] ∧
      Eras.op 100 (Demo.by_ 8 (.tee (.claim 5))) = Demo.by_ 8 (.tee (.claim 105)) ∧
      (w'.tee.assignedEra.get 8) = some 105 := by
  refine ⟨by decide, by decide, by decide, ?_, ?_, ?_, ?_, rfl, ?_⟩
  all_goals decide +kernel

/-- the conditions of a launch hold of this history as a whole, too -/
example : Genesis Demo.cfg Demo.w0 ∧ Demo.w0.active = none ∧ (∀ o ∈ Demo.enclaves ++ Demo.eraRun, o.Ok Demo.cfg) ∧
    Op.era 0 ∉ Demo.enclaves ++ Demo.eraRun ∧
    ∀ a, Op.call (.signed a) (.tee (.claim 0)) ∉ Demo.enclaves ++ Demo.eraRun :=
  ⟨Demo.genesis, rfl, by decide, by simp [Demo.by_], by simp [Demo.by_]⟩

/-- A second claim fails for the same reason in both. -/
example :
    let w := Demo.at_ (Demo.enclaves ++ Demo.eraRun)
    dispatch Demo.cfg (.tee (.claim 5)) (.signed 8) w = .error (.e "RewardsAlreadyClaimedForEra") ∧
      dispatch Demo.cfg (.tee (.claim 105)) (.signed 8) (Eras.world 100 w) = .error (.e "RewardsAlreadyClaimedForEra") := by
  have h : dispatch Demo.cfg (.tee (.claim 5)) (.signed 8) (Demo.at_ (Demo.enclaves ++ Demo.eraRun)) =
    .error (.e "RewardsAlreadyClaimedForEra") := rfl
  refine ⟨h, ?_⟩
  have := C131_calls_partial 100 (c := Demo.cfg) (w := Demo.at_ (Demo.enclaves ++ Demo.eraRun)) (.tee (.claim 5)) (.signed 8)
    (by rintro _ _ ⟨h, _⟩; cases h)
  rw [h] at this
  exact this
