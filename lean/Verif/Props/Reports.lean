import Verif.Proofs.Reports
/-
C133: the order in which metrics servers report does not matter.
-/
open Spec
variable {c : Cfg} {w : World} {A : Era}

/-- C133: what is on record after any reports, each submitter naming an operator at most once: in the era before the active one,
the reports of registered servers on assigned operators, and those that stood before by other submitters.  Nothing else changes. -/
theorem C133_record_partial (hr : Reach c w) (hA : w.active = some A) {l : List Submission} (hs : ∀ s ∈ l, ¬ c.pot s.server)
    (hroom : Room c w (A - 1) l) (hn : (l.map fun s => (s.op, s.report.by_)).Nodup) :
    let w' := run c w (reporting l)
    apartFromReports w' = apartFromReports w ∧
      ∀ E op x, x ∈ reportsOn w' E op ↔ (E = A - 1 ∧ ∃ s ∈ l, Heard w s ∧ s.op = op ∧ s.report = x) ∨
        (x ∈ reportsOn w E op ∧ ¬ (E = A - 1 ∧ ∃ s ∈ l, Heard w s ∧ s.op = op ∧ s.report.by_ = x.by_)) :=
  have h := Reports.all l hr hA hs hroom hn
  ⟨h.2.1, h.2.2.2⟩

/-- C133, as far as it holds: two orders of the same reports leave the same state but for events and the order on record, and
everybody has the same reward for every era.  Missing: more reports than there is room for, see `C133_fails`. -/
theorem C133_partial (hr : Reach c w) (hA : w.active = some A) {l l' : List Submission} (hp : l.Perm l')
    (hs : ∀ s ∈ l, ¬ c.pot s.server) (hroom : Room c w (A - 1) l) (hn : (l.map fun s => (s.op, s.report.by_)).Nodup) :
    let w1 := run c w (reporting l)
    let w2 := run c w (reporting l')
    apartFromReports w1 = apartFromReports w2 ∧ (∀ E op, (reportsOn w1 E op).Perm (reportsOn w2 E op)) ∧
      ∀ E op, Spec.reward w1 E op = Spec.reward w2 E op := by
  intro w1 w2
  obtain ⟨r1, u1, n1, m1⟩ := Reports.all l hr hA hs hroom hn
  obtain ⟨r2, u2, n2, m2⟩ := Reports.all l' hr hA (fun s h => hs s (hp.mem_iff.2 h))
    (fun op => by rw [← (hp.filter _).length_eq]; exact hroom op) ((hp.map _).nodup_iff.1 hn)
  have hu : apartFromReports w1 = apartFromReports w2 := u1.trans u2.symm
  have hm : ∀ E op x, x ∈ reportsOn w1 E op ↔ x ∈ reportsOn w2 E op := by
    intro E op x
    rw [m1, m2]
    simp only [hp.mem_iff]
  have hnone : ∀ E op, w1.tee.reports.get (E, op) = none ↔ w2.tee.reports.get (E, op) = none := by
    intro E op
    rw [n1, n2]
    simp only [hp.mem_iff]
  have hnd : ∀ {v : World}, Reach c v → ∀ E op, (reportsOn v E op).Nodup := by
    intro v hv E op
    unfold reportsOn
    rcases h : v.tee.reports.get (E, op) with _ | l
    · exact List.nodup_nil
    · exact List.Nodup.of_map _ (C74_one hv h)
  refine ⟨hu, fun E op => (List.perm_ext_iff_of_nodup (hnd r1 E op) (hnd r2 E op)).2 (hm E op), fun E op => ?_⟩
  rw [Spec.reward_eq, Spec.reward_eq]
  have e1 : w1.tee.weights = w2.tee.weights := congrArg (fun w => w.tee.weights) hu
  have e2 : TeeM.share w1.tee = TeeM.share w2.tee := congrArg (fun w => TeeM.share w.tee) hu
  have hm' := hm E op
  unfold TeeM.reward
  rcases h1 : w1.tee.reports.get (E, op) with _ | l1
  · rw [(hnone E op).1 h1]
    exact e2
  · rcases h2 : w2.tee.reports.get (E, op) with _ | l2
    · rw [(hnone E op).2 h2] at h1; cases h1
    · have hmem : ∀ x, x ∈ l1 ↔ x ∈ l2 := by
        intro x
        have := hm' x
        simp only [reportsOn, h1, h2] at this
        exact this
      have hle : ∀ {l1 l2 : List Report}, (∀ x, x ∈ l1 → x ∈ l2) →
          TeeM.weighted (TeeM.highest l1) w2.tee.weights ≤ TeeM.weighted (TeeM.highest l2) w2.tee.weights := fun h =>
        TeeM.weighted_mono fun g hg => TeeM.highest_mono hg fun r hr => ⟨r, h r hr, Nat.le_refl _⟩
      simp only [e1, e2, Nat.le_antisymm (hle fun x => (hmem x).1) (hle fun x => (hmem x).2)]

/-- six submitters report on operator 8, by the same server, with other values each -/
abbrev Demo.six : List Submission := (List.range 6).map fun i => ⟨7, 8, ⟨⟨10 * i, 10, 10, 10, 10⟩, 20 + i⟩⟩

/-- C133 fails when there is no room: of six reports five are taken, and which one is not decides the reward. -/
theorem C133_fails : ∃ c w A l l', c.Ok ∧ Reach c w ∧ w.active = some A ∧ l.Perm l' ∧ (∀ s ∈ l, ¬ c.pot s.server) ∧
    (l.map fun s : Submission => (s.op, s.report.by_)).Nodup ∧ (∀ s ∈ l, Heard w s) ∧
    Spec.reward (run c w (reporting l)) (A - 1) 8 ≠ Spec.reward (run c w (reporting l')) (A - 1) 8 :=
  ⟨Demo.cfg, Demo.at_ (Demo.enclaves ++ [.era 6]), 6, Demo.six, Demo.six.reverse, Demo.cfg_ok, Demo.reach _ (by decide),
    by decide, (List.reverse_perm _).symm, by decide, by decide, by
      intro s hs
      obtain ⟨i, -, rfl⟩ := List.mem_map.1 hs
      exact ⟨⟨⟨7, .pub⟩, rfl, rfl⟩, ⟨18, [1]⟩, rfl⟩, by decide +kernel⟩

/-- five reports fit, and give the same reward in every order -/
example :
    let w := Demo.at_ (Demo.enclaves ++ [.era 6])
    let l := Demo.six.take 5
    w.active = some 6 ∧ (l.map fun s : Submission => (s.op, s.report.by_)).Nodup ∧ Room Demo.cfg w 5 l ∧
      Spec.reward (run Demo.cfg w (reporting l)) 5 8 = Spec.reward (run Demo.cfg w (reporting l.reverse)) 5 8 ∧
      reportsOn (run Demo.cfg w (reporting l)) 5 8 ≠ reportsOn (run Demo.cfg w (reporting l.reverse)) 5 8 := by
  have hroom : Room Demo.cfg (Demo.at_ (Demo.enclaves ++ [.era 6])) 5 (Demo.six.take 5) := by
    intro op
    have h0 : (Demo.at_ (Demo.enclaves ++ [.era 6])).tee.reports.l = [] := by decide
    have : reportsOn (Demo.at_ (Demo.enclaves ++ [.era 6])) 5 op = [] := by
      unfold reportsOn
      rcases h : (Demo.at_ (Demo.enclaves ++ [.era 6])).tee.reports.get (5, op) with _ | x
      · rfl
      · have := FMap.get_some_iff_mem.1 h
        rw [h0] at this; cases this
    rw [this]
    exact Nat.le_trans (by simpa using List.length_filter_le _ (Demo.six.take 5)) (by decide)
  refine ⟨by decide, by decide, hroom, ?_, by decide +kernel⟩
  exact (C133_partial (c := Demo.cfg) (A := 6) (Demo.reach _ (by decide)) (by decide)
    (List.reverse_perm _).symm (by decide) hroom (by decide)).2.2 5 8
