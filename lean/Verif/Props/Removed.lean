import Verif.Props.Early
/-
Property C154: whoever is no relayer any more has no say.
-/
variable {c : Cfg} {w w' : World} {a : AccountId}
set_option maxRecDepth 10000

namespace Removed
variable {k : ChainId} {t : Transfer}

/-- without being a relayer nobody adds a vote -/
theorem step_votes {o : Op} (ho : o.Ok c) (ha : a ∉ w.br.relayers) (h : a ∈ Spec.votesFor (step c w o) k t) :
    a ∈ Spec.votesFor w k t ∧ ((step c w o).br.votes.get (k, t)).map Proposal.expiry = (w.br.votes.get (k, t)).map Proposal.expiry := by
  have hs := step_br w o ho
  generalize step c w o = w' at *
  unfold Spec.votesFor at *
  cases hs with
  | quiet e he => rw [e] at h ⊢; exact ⟨h, rfl⟩
  | ext hg hx h' e he => rw [e, BrM.ext_votes h'] at h ⊢; exact ⟨h, rfl⟩
  | deposit h1 hn h2 e he => rw [e] at h ⊢; exact ⟨h, rfl⟩
  | @vote b k' t' x _ g1 g2 g3 g4 e he hb =>
    rw [e] at h ⊢
    simp only [FMap.get_insert] at h ⊢
    split at h
    · rename_i hk
      simp only [Prod.mk.injEq] at hk
      obtain ⟨rfl, rfl⟩ := hk
      have hab : a ≠ b := fun h => ha (h ▸ g1)
      obtain ⟨_, _, ⟨_, h1, _⟩ | ⟨q, hq, _, _, _, h1, h2⟩⟩ := BrM.vote_ok g3
      · simp [h1, hab] at h
      · simp [h1, hab] at h
        simp [hq, h, h2]
    · rename_i hk
      simp only [hk, if_false]
      exact ⟨h, trivial⟩

theorem run_votes (l : List Op) (hl : ∀ o ∈ l, o.Ok c) (ha : ∀ l1, l1 <+: l → a ∉ (run c w l1).br.relayers)
    (h : a ∈ Spec.votesFor (run c w l) k t) : a ∈ Spec.votesFor w k t ∧
      ((run c w l).br.votes.get (k, t)).map Proposal.expiry = (w.br.votes.get (k, t)).map Proposal.expiry := by
  induction l generalizing w with
  | nil => exact ⟨h, rfl⟩
  | cons o l ih =>
    obtain ⟨h1, h2⟩ := ih (w := step c w o) (fun o h => hl o (List.mem_cons_of_mem _ h))
      (fun l1 h => ha (o :: l1) ((List.prefix_cons_inj o).2 h)) h
    obtain ⟨h3, h4⟩ := step_votes (hl o (List.mem_cons_self ..)) (ha [] List.nil_prefix) h1
    exact ⟨h3, h2.trans h4⟩

end Removed

/- C154 -/

/-- What holds: while an account is no relayer it takes part in no further approval - transfers it has not voted for before are approved
without its vote. -/
theorem C154_votes_partial {k : ChainId} {t : Transfer} (l : List Op) (hl : ∀ o ∈ l, o.Ok c)
    (ha : ∀ l1, l1 <+: l → a ∉ (run c w l1).br.relayers) (h : a ∉ Spec.votesFor w k t) : a ∉ Spec.votesFor (run c w l) k t :=
  fun h' => h (Removed.run_votes l hl ha h').1

/-- What holds: when an account has not been a relayer for a voting period, no approval counts a vote of it any more.  Missing: during this
period votes it has cast before count, see `C154_fails`. -/
theorem C154_partial (hr : Reach c w) {k : ChainId} {t : Transfer} (l : List Op) (o : Op) (hl : ∀ x ∈ l ++ [o], x.Ok c)
    (ha : ∀ l1, l1 <+: l → a ∉ (run c w l1).br.relayers) (hn : w.now + c.proposalLife ≤ (run c w l).now)
    (h : Spec.emits c (run c w l) o (.approved k t)) : a ∉ Spec.votesFor (run c w (l ++ [o])) k t := by
  intro hv
  rw [run_snoc] at hv
  have ho := hl o (by simp)
  have hl' : ∀ x ∈ l, x.Ok c := fun x h => hl x (by simp [h])
  obtain ⟨h1, h2⟩ := Removed.step_votes ho (ha l (List.prefix_refl l)) hv
  obtain ⟨h3, h4⟩ := Removed.run_votes l hl' ha h1
  have hc := emits_count h
  have hs := step_br (run c w l) o ho
  generalize step c (run c w l) o = w' at *
  cases hs with
  | quiet e he => rw [evs_bridge rfl he] at hc; omega
  | ext hg hx h e he => rw [evs_bridge rfl he] at hc; omega
  | deposit _ _ _ e he => simp [he] at hc
  | @vote b k' t' x _ g1 g2 g3 g4 e he hb =>
    have hk : k' = k ∧ t' = t := by
      by_contra hk
      rw [he] at hc
      cases hx : x.2 <;> simp [hx, List.count_cons, hk] at hc
    obtain ⟨rfl, rfl⟩ := hk
    obtain ⟨_, _, ⟨g, _⟩ | ⟨q, hq, _, _, hlt, _⟩⟩ := BrM.vote_ok g3
    · simp [Spec.votesFor, g] at h1
    · rw [hq] at h4
      cases hw : w.br.votes.get (k', t') with
      | none => rw [hw] at h4; cases h4
      | some p =>
        rw [hw] at h4
        have := Early.expiry_le hr hw
        simp at h4
        omega

/-- relayer 1 votes and is then replaced by relayer 4 -/
abbrev replaced : List Op := Demo.bridge ++ [Demo.vote7 1, .call .root (.ext (.setRelayers [2, 3, 4]))]

/-- C154 fails: two votes are needed, one relayer votes, and the transfer is approved with the vote of an account that was removed before. -/
theorem C154_fails : Reach Demo.cfg (Demo.at_ replaced) ∧ 1 ∉ (Demo.at_ replaced).br.relayers ∧ (Demo.at_ replaced).br.threshold = 2 ∧
    Spec.emits Demo.cfg (Demo.at_ replaced) (Demo.vote7 2) (.approved 1 Demo.t7) ∧
    Spec.votesFor (Demo.at_ (replaced ++ [Demo.vote7 2])) 1 Demo.t7 = [1, 2] :=
  ⟨Demo.reach _ (by decide), by decide, by decide, ⟨[.approved 1 Demo.t7, .voted 1 Demo.t7 2], by decide, by decide⟩, by decide⟩

-- relayer 1 has not voted for this transfer, and does so in vain
example := C154_votes_partial (c := Demo.cfg) (w := Demo.at_ replaced) (a := 1) (k := 1) (t := ⟨2, 7, 700⟩)
  [Demo.by_ 1 (.br (.vote 1 ⟨2, 7, 700⟩))] (by decide) (fun l1 h => (by decide : ∀ l1 ∈ List.inits [Demo.by_ 1 (.br (.vote 1 ⟨2, 7, 700⟩))],
    1 ∉ (run Demo.cfg (Demo.at_ replaced) l1).br.relayers) l1 ((List.mem_inits _ _).2 h)) (by decide)

/-- a voting period later relayer 2 votes for another transfer -/
abbrev later : List Op := Demo.ticks 10 ++ [Demo.by_ 2 (.br (.vote 1 ⟨2, 7, 700⟩))]

-- and relayer 4 too: the approval is theirs
example := C154_partial (Demo.reach replaced (by decide)) (a := 1) (k := 1) (t := ⟨2, 7, 700⟩) later
  (Demo.by_ 4 (.br (.vote 1 ⟨2, 7, 700⟩))) (by decide) (fun l1 h => (by decide : ∀ l1 ∈ List.inits later,
    1 ∉ (run Demo.cfg (Demo.at_ replaced) l1).br.relayers) l1 ((List.mem_inits _ _).2 h)) (by decide)
  ⟨[.approved 1 ⟨2, 7, 700⟩, .voted 1 ⟨2, 7, 700⟩ 4], by decide, by decide⟩
