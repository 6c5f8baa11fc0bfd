import Verif.Props.ReportsSpec
/-
What a list of reports leaves on record.
-/
open Spec
variable {c : Cfg} {w : World} {A : Era}

theorem Reports.one (hr : Reach c w) (hA : w.active = some A) (s : Submission) (hs : ¬ c.pot s.server)
    (hroom : (reportsOn w (A - 1) s.op).length < c.teeList) :
    let w' := step c w (.call (.signed s.server) (.tee (.submitReport s.op s.report)))
    apartFromReports w' = apartFromReports w ∧
      (∀ E op, (E, op) ≠ (A - 1, s.op) → w'.tee.reports.get (E, op) = w.tee.reports.get (E, op)) ∧
      (¬ Heard w s → w' = w) ∧
      (Heard w s → w'.tee.reports.get (A - 1, s.op) ≠ none ∧
        (∀ x, x ∈ reportsOn w' (A - 1) s.op ↔ x = s.report ∨ x ∈ reportsOn w (A - 1) s.op ∧ x.by_ ≠ s.report.by_)) ∧
      (reportsOn w' (A - 1) s.op).length ≤ (reportsOn w (A - 1) s.op).length + 1 := by
  intro w'
  by_cases hh : Heard w s
  · obtain ⟨⟨m, h1, h2⟩, e, h3⟩ := hh
    obtain ⟨l, hl, hm⟩ := C74_report hr (r := s.report) h1 h2 h3 hA (.inl hroom)
    have e' : w' = { w with
        tee := { w.tee with reports := w.tee.reports.insert (A - 1, s.op) l }
        evs := .reported (A - 1) s.op s.report s.server :: w.evs } := by
      simp only [w', step, hl, orSame]
    have hlen : l.length ≤ (reportsOn w (A - 1) s.op).length + 1 := by
      have hr' : Reach c w' := hr.step _ hs
      have hn := C74_one hr' (E := A - 1) (op := s.op) (l := l) (by rw [e']; exact FMap.get_insert_self _ _ _)
      have hsub : l ⊆ s.report :: reportsOn w (A - 1) s.op := fun x hx => by
        rcases (hm x).1 hx with h | h
        · exact h ▸ List.mem_cons_self
        · exact List.mem_cons_of_mem _ h.1
      exact (List.subperm_of_subset (List.Nodup.of_map _ hn) hsub).length_le
    rw [e']
    refine ⟨rfl, fun E op hne => FMap.get_insert_ne _ _ hne, fun h => absurd ⟨⟨m, h1, h2⟩, e, h3⟩ h, fun _ => ?_, ?_⟩
    · simp only [reportsOn, FMap.get_insert_self]
      exact ⟨by simp, hm⟩
    · simp only [reportsOn, FMap.get_insert_self]
      exact hlen
  · have e' : w' = w := by
      simp only [w', step]
      rcases h : dispatch c (.tee (.submitReport s.op s.report)) (.signed s.server) w with _ | v
      · rfl
      · simp only [dispatch, signedCall, TeeM.call, TeeM.submitReport] at h; inv_ok at h
        obtain ⟨m, e, _, l2, h1, h2, h3, _⟩ := h
        exact absurd ⟨⟨m, h1, h2⟩, e, h3⟩ hh
    rw [e']
    exact ⟨rfl, fun _ _ _ => rfl, fun _ => rfl, fun h => absurd h hh, Nat.le_succ _⟩

theorem Reports.heard {w w' : World} (h : apartFromReports w' = apartFromReports w) (s : Submission) : Heard w' s ↔ Heard w s := by
  have h1 : w'.tee.servers = w.tee.servers := congrArg (fun w => w.tee.servers) h
  have h2 : w'.tee.data = w.tee.data := congrArg (fun w => w.tee.data) h
  simp only [Heard, h1, h2]

theorem Reports.all (l : List Submission) (hr : Reach c w) (hA : w.active = some A) (hs : ∀ s ∈ l, ¬ c.pot s.server)
    (hroom : Room c w (A - 1) l) (hn : (l.map fun s => (s.op, s.report.by_)).Nodup) :
    let w' := run c w (reporting l)
    Reach c w' ∧ apartFromReports w' = apartFromReports w ∧
      (∀ E op, w'.tee.reports.get (E, op) = none ↔
        w.tee.reports.get (E, op) = none ∧ ¬ (E = A - 1 ∧ ∃ s ∈ l, Heard w s ∧ s.op = op)) ∧
      ∀ E op x, x ∈ reportsOn w' E op ↔ (E = A - 1 ∧ ∃ s ∈ l, Heard w s ∧ s.op = op ∧ s.report = x) ∨
        (x ∈ reportsOn w E op ∧ ¬ (E = A - 1 ∧ ∃ s ∈ l, Heard w s ∧ s.op = op ∧ s.report.by_ = x.by_)) := by
  induction l generalizing w with
  | nil =>
    refine ⟨hr, rfl, fun E op => ?_, fun E op x => ?_⟩
    · simp [reporting, run]
    · simp [reporting, run]
  | cons s l ih =>
    have hs0 := hs s List.mem_cons_self
    have hfree : (reportsOn w (A - 1) s.op).length < c.teeList := by
      have := hroom s.op
      simp only [List.filter_cons, decide_true, if_true, List.length_cons] at this
      omega
    obtain ⟨h1, h2, h3, h4, h5⟩ := Reports.one hr hA s hs0 hfree
    have hr1 : Reach c (step c w (.call (.signed s.server) (.tee (.submitReport s.op s.report)))) := hr.step _ hs0
    show Reach c (run c (step c w (.call (.signed s.server) (.tee (.submitReport s.op s.report)))) (reporting l)) ∧
      apartFromReports (run c (step c w (.call (.signed s.server) (.tee (.submitReport s.op s.report)))) (reporting l)) = _ ∧
      (∀ E op, (run c (step c w (.call (.signed s.server) (.tee (.submitReport s.op s.report)))) (reporting l)).tee.reports.get
        (E, op) = none ↔ _) ∧
      ∀ E op x, x ∈ reportsOn (run c (step c w (.call (.signed s.server) (.tee (.submitReport s.op s.report)))) (reporting l))
        E op ↔ _
    generalize step c w (.call (.signed s.server) (.tee (.submitReport s.op s.report))) = w1 at *
    have hA1 : w1.active = some A := (congrArg (fun w => w.active) h1).trans hA
    have hon : ∀ E op, (E, op) ≠ (A - 1, s.op) → reportsOn w1 E op = reportsOn w E op := fun E op h => by
      simp only [reportsOn, h2 E op h]
    simp only [List.map_cons, List.nodup_cons] at hn
    have hnew : ∀ s' ∈ l, s'.op = s.op → s'.report.by_ ≠ s.report.by_ := fun s' hs' e1 e2 =>
      hn.1 (List.mem_map.2 ⟨s', hs', by rw [e1, e2]⟩)
    have hroom1 : Room c w1 (A - 1) l := by
      intro op
      have := hroom op
      by_cases e : s.op = op
      · subst e
        simp only [List.filter_cons, decide_true, if_true, List.length_cons] at this
        omega
      · rw [hon _ _ (by simp; exact Ne.symm e)]
        simpa [List.filter_cons, e] using this
    obtain ⟨g1, g2, g3, g4⟩ := ih hr1 hA1 (fun s hs' => hs s (List.mem_cons_of_mem _ hs')) hroom1 hn.2
    simp only [Reports.heard h1] at g3 g4
    refine ⟨g1, g2.trans h1, fun E op => ?_, fun E op x => ?_⟩
    · rw [g3]
      by_cases hk : (E, op) = (A - 1, s.op)
      · obtain ⟨rfl, rfl⟩ := Prod.mk.inj hk
        by_cases hh : Heard w s
        · simp [(h4 hh).1, hh]
        · rw [h3 hh]; simp [hh]
      · rw [h2 E op hk]
        have : ∀ P : Prop, (E = A - 1 ∧ (Heard w s ∧ s.op = op ∨ P)) ↔ (E = A - 1 ∧ P) := by
          intro P
          constructor
          · rintro ⟨rfl, ⟨_, rfl⟩ | h⟩
            · exact absurd rfl hk
            · exact ⟨rfl, h⟩
          · rintro ⟨h, h'⟩; exact ⟨h, .inr h'⟩
        simp only [List.exists_mem_cons_iff, this]
    · rw [g4]
      simp only [List.exists_mem_cons_iff]
      by_cases hk : (E, op) = (A - 1, s.op)
      · obtain ⟨rfl, rfl⟩ := Prod.mk.inj hk
        by_cases hh : Heard w s
        · rw [(h4 hh).2 x]
          simp only [true_and, hh]
          constructor
          · rintro (h | ⟨rfl | ⟨ho, hb⟩, hn'⟩)
            · exact .inl (.inr h)
            · exact .inl (.inl rfl)
            · refine .inr ⟨ho, ?_⟩
              rintro (h | h)
              · exact hb h.symm
              · exact hn' h
          · rintro ((rfl | h) | ⟨ho, hn'⟩)
            · refine .inr ⟨.inl rfl, ?_⟩
              rintro ⟨s', h6, _, h7, h8⟩
              exact hnew s' h6 h7 h8
            · exact .inl h
            · exact .inr ⟨.inr ⟨ho, fun h => hn' (.inl h.symm)⟩, fun h => hn' (.inr h)⟩
        · rw [h3 hh]; simp [hh]
      · rw [hon E op hk]
        have : ∀ (Q P : Prop), (E = A - 1 ∧ (Heard w s ∧ s.op = op ∧ Q ∨ P)) ↔ (E = A - 1 ∧ P) := by
          intro Q P
          constructor
          · rintro ⟨rfl, ⟨_, rfl, _⟩ | h⟩
            · exact absurd rfl hk
            · exact ⟨rfl, h⟩
          · rintro ⟨h, h'⟩; exact ⟨h, .inr h'⟩
        simp only [this]
