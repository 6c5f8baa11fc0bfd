import Verif.Props.Cross
import Mathlib.Tactic.FinCases
/-
Property C153: one relayer alone cannot stop a transfer.
-/
variable {c : Cfg} {w w' : World} {a : AccountId}
set_option maxRecDepth 10000

namespace Spec

/-- the transfer is approved -/
def Approved (w : World) (k : ChainId) (t : Transfer) : Prop :=
  ∃ p, w.br.votes.get (k, t) = some p ∧ p.approved = true

end Spec

namespace Early
variable {k : ChainId} {t : Transfer} {E : Block}

/-- the votes for the transfer, if there are any, are fewer than the threshold, and may grow until block `E` -/
def Pending (w : World) (k : ChainId) (t : Transfer) (E : Block) : Prop :=
  ∀ p, w.br.votes.get (k, t) = some p → p.approved = false ∧ p.votes.length < w.br.threshold ∧ E ≤ p.expiry

/-- what an operation does to the votes for a transfer -/
theorem votes_step (w : World) (o : Op) (ho : o.Ok c) : (step c w o).br.votes.get (k, t) = w.br.votes.get (k, t) ∨
    ∃ a x, o = .call (.signed a) (.br (.vote k t)) ∧ BrM.vote c w a (w.br.votes.get (k, t)) = .ok x ∧
      (step c w o).br.votes.get (k, t) = some x.1 ∧ (step c w o).br.threshold = w.br.threshold := by
  have hs := step_br w o ho
  generalize step c w o = w' at *
  cases hs with
  | quiet e he => left; rw [e]
  | ext hg hx h e he => left; rw [e, BrM.ext_votes h]
  | deposit h1 hn h2 e he => left; rw [e]
  | @vote a k' t' x _ g1 g2 g3 g4 e he hb =>
    by_cases hk : (k, t) = (k', t')
    · simp only [Prod.mk.injEq] at hk
      obtain ⟨rfl, rfl⟩ := hk
      exact .inr ⟨a, x, rfl, g3, by rw [e]; simp [FMap.get_insert], by rw [e]⟩
    · left; rw [e]; simp [FMap.get_insert, hk]

theorem approved_step {o : Op} (ho : o.Ok c) (h : Spec.Approved w k t) : Spec.Approved (step c w o) k t := by
  obtain ⟨p, hp, ha⟩ := h
  rcases votes_step (k := k) (t := t) w o ho with e | ⟨a, x, _, e, _⟩
  · exact ⟨p, e.trans hp, ha⟩
  · obtain ⟨_, _, ⟨g, _⟩ | ⟨q, g, h1, _⟩⟩ := BrM.vote_ok e
    · rw [hp] at g; cases g
    · rw [hp] at g; cases g; rw [ha] at h1; cases h1

theorem approved_run (l : List Op) (hl : ∀ o ∈ l, o.Ok c) (h : Spec.Approved w k t) : Spec.Approved (run c w l) k t := by
  induction l generalizing w with
  | nil => exact h
  | cons o l ih =>
    exact ih (fun o h => hl o (List.mem_cons_of_mem _ h)) (approved_step (hl o (List.mem_cons_self ..)) h)

theorem white_step {o : Op} (ho : o.Ok c) (h : (w.br.nonces.get k).isSome) : ((step c w o).br.nonces.get k).isSome := by
  have hs := step_br w o ho
  generalize step c w o = w' at *
  cases hs with
  | quiet e he => rw [e]; exact h
  | ext hg hx h' e he =>
    rename_i r _
    rw [e]
    cases r <;> simp only [BrM.ext, BrM.setThreshold, BrM.addChain, BrM.setNonce, BrM.setRelayers, BrM.setFee] at h' <;>
      inv_ok at h' <;> grind [FMap.get_insert]
  | deposit h1 hn h2 e he => rw [e]; simp only [FMap.get_insert]; split <;> simp_all
  | vote g1 g2 g3 g4 e he hb => rw [e]; exact h

/-- an open vote stays open or ends with the approval, and no vote is lost -/
theorem pending_step {o : Op} (ho : o.Ok c) (hT : (step c w o).br.threshold = w.br.threshold) (hE : E ≤ w.now + c.proposalLife)
    (h : Pending w k t E) : Spec.Approved (step c w o) k t ∨ Pending (step c w o) k t E ∧
      ∀ x ∈ Spec.votesFor w k t, x ∈ Spec.votesFor (step c w o) k t := by
  rcases votes_step (k := k) (t := t) w o ho with e | ⟨a, x, _, e, e1, _⟩
  · right
    unfold Pending Spec.votesFor at *
    rw [e, hT]
    exact ⟨h, fun _ h => h⟩
  · obtain ⟨g1, g2, g3⟩ := BrM.vote_ok e
    cases hx : x.2 with
    | true => exact .inl ⟨_, e1, by rw [g1, hx]⟩
    | false =>
      right
      have h2 : ¬ w.br.threshold ≤ x.1.votes.length := fun h => by rw [g2.2 h] at hx; cases hx
      refine ⟨fun p hp => ?_, fun y hy => ?_⟩
      · rw [e1] at hp; cases hp
        refine ⟨by rw [g1, hx], by rw [hT]; omega, ?_⟩
        rcases g3 with ⟨_, _, h3⟩ | ⟨q, hq, _, _, _, _, h3⟩
        · omega
        · rw [h3]; exact (h q hq).2.2
      · unfold Spec.votesFor at hy ⊢
        rw [e1]
        rcases g3 with ⟨h3, _⟩ | ⟨q, hq, _, _, _, h3, _⟩
        · simp [h3] at hy
        · rw [hq] at hy
          simp [h3] at hy ⊢
          exact .inl hy

/-- the vote of a relayer counts -/
theorem vote_step (h1 : a ∈ w.br.relayers) (h2 : (w.br.nonces.get k).isSome) (h3 : Pending w k t E) (h4 : w.now < E)
    (h5 : 0 < w.br.threshold) (h6 : w.br.threshold ≤ c.relayerLimit) (h7 : a ∉ Spec.votesFor w k t) :
    a ∈ Spec.votesFor (step c w (.call (.signed a) (.br (.vote k t)))) k t := by
  have hlen : (Spec.votesFor w k t).length < w.br.threshold := by
    unfold Spec.votesFor
    cases hp : w.br.votes.get (k, t) with
    | none => simpa using h5
    | some p => simpa using (h3 p hp).2.1
  have h := vote_open (c := c) h1 h2 (fun p hp => ⟨(h3 p hp).1, Nat.lt_of_lt_of_le h4 (h3 p hp).2.2⟩) h7 (by omega)
  generalize hx : BrM.complete w.br.threshold ⟨Spec.votesFor w k t ++ [a], Spec.deadline c w k t, false⟩ = x at h
  have hxv : x.1.votes = Spec.votesFor w k t ++ [a] := hx ▸ (BrM.complete_spec w.br.threshold _ rfl).1
  let v : World := { w with br := { w.br with votes := w.br.votes.insert (k, t) x.1 } }
  have : dispatch c (.br (.vote k t)) (.signed a) w = .ok (BrM.payout c (v.ev (.voted k t a)) k t x.2) := by
    eval_ok [BrM.call, BrM.voteFor, h1, BrM.allowed, h2, h, v]
  have hb : (step c w (.call (.signed a) (.br (.vote k t)))).br.votes.get (k, t) = some x.1 := by
    have hv : v.br.votes.get (k, t) = some x.1 := by
      show (w.br.votes.insert (k, t) x.1).get (k, t) = _
      rw [FMap.get_insert, if_pos rfl]
    simp only [step, this]
    cases x.2 <;> exact hv
  unfold Spec.votesFor
  rw [hb]
  simp [hxv]

/-- all votes of `S` are gathered, or the transfer is approved -/
theorem gather (S : List AccountId) (l : List Op) (hl : ∀ o ∈ l, o.Ok c)
    (hS : ∀ l1, l1 <+: l → (run c w l1).br.threshold = w.br.threshold ∧ ∀ a ∈ S, a ∈ (run c w l1).br.relayers)
    (h2 : (w.br.nonces.get k).isSome) (h3 : Pending w k t E) (h4 : (run c w l).now < E) (hE : E ≤ w.now + c.proposalLife)
    (h5 : 0 < w.br.threshold) (h6 : w.br.threshold ≤ c.relayerLimit) :
    Spec.Approved (run c w l) k t ∨ Pending (run c w l) k t E ∧ (∀ x ∈ Spec.votesFor w k t, x ∈ Spec.votesFor (run c w l) k t) ∧
      ∀ a ∈ S, .call (.signed a) (.br (.vote k t)) ∈ l → a ∈ Spec.votesFor (run c w l) k t := by
  induction l generalizing w with
  | nil => exact .inr ⟨h3, fun _ h => h, fun a _ h => by cases h⟩
  | cons o l ih =>
    have ho := hl o (List.mem_cons_self ..)
    have hl' : ∀ o ∈ l, o.Ok c := fun o h => hl o (List.mem_cons_of_mem _ h)
    have hT : (step c w o).br.threshold = w.br.threshold := (hS [o] ⟨l, rfl⟩).1
    have hR := (hS [] List.nil_prefix).2
    have hn : w.now ≤ (run c w (o :: l)).now := run_now_le w (o :: l)
    have hn1 := step_now_le (c := c) w o
    rcases pending_step ho hT hE h3 with h | ⟨h, hv⟩
    · exact .inl (approved_run l hl' h)
    · rcases ih (w := step c w o) hl' (fun l1 e => by
        have := hS (o :: l1) ((List.prefix_cons_inj o).2 e)
        exact ⟨this.1.trans hT.symm, this.2⟩) (white_step ho h2) h h4 (by omega) (by omega) (by omega) with h' | ⟨h1', h2', h3'⟩
      · exact .inl h'
      · refine .inr ⟨h1', fun x hx => h2' x (hv x hx), fun a ha hm => ?_⟩
        rcases List.mem_cons.1 hm with rfl | hm
        · by_cases h7 : a ∈ Spec.votesFor w k t
          · exact h2' a (hv a h7)
          · exact h2' a (vote_step (hR a ha) h2 h3 (by omega) h5 h6 h7)
        · exact h3' a ha hm

/-- a voting period is not longer than configured -/
theorem expiry_le (h : Reach c w) {p : Proposal} (hp : w.br.votes.get (k, t) = some p) : p.expiry ≤ w.now + c.proposalLife := by
  induction h generalizing p with
  | init h => rw [h.br.2] at hp; cases hp
  | @step w o hr ho ih =>
    have hn := step_now_le (c := c) w o
    rcases votes_step (k := k) (t := t) w o ho with e | ⟨a, x, _, e, e1, _⟩
    · have := ih (e.symm.trans hp); omega
    · rw [e1] at hp; cases hp
      obtain ⟨_, _, ⟨_, _, g⟩ | ⟨q, hq, _, _, _, _, g⟩⟩ := BrM.vote_ok e
      · omega
      · have := ih hq; omega

theorem deadline_le (h : Reach c w) : Spec.deadline c w k t ≤ w.now + c.proposalLife := by
  unfold Spec.deadline
  cases hp : w.br.votes.get (k, t) with
  | none => simp
  | some p => simpa using expiry_le h hp

/-- an approval has been announced -/
theorem approved_ev (h : Reach c w) (ha : Spec.Approved w k t) : .approved k t ∈ w.evs := by
  induction h with
  | init h => obtain ⟨p, hp, _⟩ := ha; rw [h.br.2] at hp; cases hp
  | @step w o hr ho ih =>
    obtain ⟨p, hp, ha⟩ := ha
    obtain ⟨m, he, _⟩ := step_evs (c := c) w o
    by_cases hw : Spec.Approved w k t
    · rw [he]; exact List.mem_append_right _ (ih hw)
    · have hs := step_br w o ho
      generalize step c w o = w' at *
      cases hs with
      | quiet e _ => exact absurd ⟨p, by rw [← e]; exact hp, ha⟩ hw
      | ext _ _ h e _ => exact absurd ⟨p, by rw [← BrM.ext_votes h, ← e]; exact hp, ha⟩ hw
      | deposit _ _ _ e _ => exact absurd ⟨p, by rw [e] at hp; exact hp, ha⟩ hw
      | @vote a k' t' x _ g1 g2 g3 g4 e he' hb =>
        rw [e] at hp
        simp only [FMap.get_insert] at hp
        split at hp
        · rename_i hk
          simp only [Prod.mk.injEq] at hk
          obtain ⟨rfl, rfl⟩ := hk
          cases hp
          have := (BrM.vote_ok g3).1
          rw [ha] at this
          rw [he', ← this]
          simp
        · exact absurd ⟨p, hp, ha⟩ hw

end Early

/- C153 -/

/-- What holds: when as many different relayers as the threshold demands vote for a transfer before the deadline, it is approved, whatever
else happens before, between and after their votes.  The deadline is the end of the running voting period; if nobody has voted yet,
it is a voting period from now on.  Missing: that no single relayer decides when the voting period begins, see `C153_fails`. -/
theorem C153_partial (hr : Reach c w) {k : ChainId} {t : Transfer} (S : List AccountId) (hn : S.Nodup) (l : List Op)
    (hl : ∀ o ∈ l, o.Ok c) (h1 : w.br.threshold ≤ S.length) (h2 : w.br.threshold ≤ c.relayerLimit)
    (h3 : (Spec.votesFor w k t).length < w.br.threshold) (hw : (w.br.nonces.get k).isSome)
    (hS : ∀ l1, l1 <+: l → (run c w l1).br.threshold = w.br.threshold ∧ ∀ a ∈ S, a ∈ (run c w l1).br.relayers)
    (hd : (run c w l).now < Spec.deadline c w k t) (hv : ∀ a ∈ S, .call (.signed a) (.br (.vote k t)) ∈ l) :
    Spec.Approved (run c w l) k t ∧ .approved k t ∈ (run c w l).evs := by
  have key : Spec.Approved (run c w l) k t := by
    by_cases ha : Spec.Approved w k t
    · exact Early.approved_run l hl ha
    have hp : Early.Pending w k t (Spec.deadline c w k t) := by
      intro p hp
      refine ⟨?_, ?_, ?_⟩
      · cases e : p.approved with
        | false => rfl
        | true => exact absurd ⟨p, hp, e⟩ ha
      · simpa [Spec.votesFor, hp] using h3
      · simp [Spec.deadline, hp]
    rcases Early.gather S l hl hS hw hp hd (Early.deadline_le hr) (by omega) h2 with h | ⟨h, _, h3⟩
    · exact h
    · exfalso
      have hsub : S ⊆ Spec.votesFor (run c w l) k t := fun a ha => h3 a ha (hv a ha)
      have hlen := (List.subperm_of_subset hn hsub).length_le
      have hT := (hS l (List.prefix_refl l)).1
      unfold Spec.votesFor at hlen
      cases e : (run c w l).br.votes.get (k, t) with
      | none => simp [e] at hlen; simp [hlen] at h1; omega
      | some p => have := (h p e).2.1; simp [e] at hlen; omega
  exact ⟨key, Early.approved_ev (hr.run l hl) key⟩

/-- C153 fails, in every state in which more than one vote is needed: any single relayer can vote first for a transfer that nobody has
voted for, and if the others are not ready within the voting period it never happens, whatever anybody does later. -/
theorem C153_fails (hr : Reach c w) {k : ChainId} {t : Transfer} (h0 : ¬ c.pot a) (h1 : a ∈ w.br.relayers)
    (h2 : (w.br.nonces.get k).isSome)
    (h3 : w.br.votes.get (k, t) = none) (h4 : 1 < w.br.threshold) (h5 : 0 < c.relayerLimit) (l : List Op) (hl : ∀ o ∈ l, o.Ok c) :
    let v := run c w (.call (.signed a) (.br (.vote k t)) :: Demo.ticks c.proposalLife ++ l)
    .approved k t ∉ v.evs ∧ ¬ Spec.Approved v k t ∧ ∀ o, (dispatch c (.br (.vote k t)) o v).isOk = false := by
  intro v
  have e0 : Spec.votesFor w k t = [] := by simp [Spec.votesFor, h3]
  have hd := C75_vote (c := c) h1 h2 (by intro p hp; rw [h3] at hp; cases hp) (by simp [e0]) (by simpa [e0] using h5)
    (by simpa [e0] using h4)
  have hok : ∀ o ∈ Op.call (.signed a) (.br (.vote k t)) :: Demo.ticks c.proposalLife, o.Ok c := by
    intro o ho
    rcases List.mem_cons.1 ho with rfl | ho
    · exact h0
    · rw [List.eq_of_mem_replicate ho]; trivial
  have hticks : ∀ (n : Nat) (u : World), (run c u (Demo.ticks n)).br = u.br ∧ (run c u (Demo.ticks n)).now = u.now + n := by
    intro n
    induction n with
    | zero => intro u; exact ⟨rfl, rfl⟩
    | succ n ih =>
      intro u
      obtain ⟨g1, g2⟩ := ih (step c u .tick)
      exact ⟨g1, g2.trans (by simp [step]; omega)⟩
  have hs : (step c w (.call (.signed a) (.br (.vote k t)))).br.votes.get (k, t) = some ⟨[a], w.now + c.proposalLife, false⟩ := by
    simp only [step, hd, e0]
    show (w.br.votes.insert (k, t) _).get (k, t) = _
    rw [FMap.get_insert, if_pos rfl]
    simp [Spec.deadline, h3]
  obtain ⟨g1, g2⟩ := hticks c.proposalLife (step c w (.call (.signed a) (.br (.vote k t))))
  have hc := C76 (hr.run _ hok) (k := k) (t := t) (p := ⟨[a], w.now + c.proposalLife, false⟩) (by
    show (run c (step c w _) (Demo.ticks c.proposalLife)).br.votes.get (k, t) = _
    rw [g1]; exact hs) rfl (by
    have := step_now_le (c := c) w (.call (.signed a) (.br (.vote k t)))
    show w.now + c.proposalLife ≤ (run c (step c w _) (Demo.ticks c.proposalLife)).now
    omega) l hl
  rw [← run_append] at hc
  refine ⟨hc.2.1, ?_, hc.2.2⟩
  rintro ⟨p, hp, ha⟩
  have := hc.1.symm.trans hp
  cases this
  cases ha

/-- relayers 3 and 1 vote within the period while other things happen -/
abbrev inTime : List Op :=
  [.tick, Demo.vote7 3, Demo.mint1, .tick, .call .root (.ext (.setFee 3)), Demo.vote7 1, .tick]

example := C153_partial (Demo.reach Demo.bridge (by decide)) (k := 1) (t := Demo.t7) [1, 3] (by decide) inTime (by decide) (by decide)
  (by decide) (by decide) (by decide) (fun l1 h => (by decide : ∀ l1 ∈ List.inits inTime,
    (run Demo.cfg (Demo.at_ Demo.bridge) l1).br.threshold = (Demo.at_ Demo.bridge).br.threshold ∧
      ∀ a ∈ [1, 3], a ∈ (run Demo.cfg (Demo.at_ Demo.bridge) l1).br.relayers) l1 ((List.mem_inits _ _).2 h)) (by decide)
  (by intro a h; fin_cases h <;> simp [Demo.by_])

-- relayer 2 votes at once, the others come later and vote in vain
example := C153_fails (Demo.reach Demo.bridge (by decide)) (a := 2) (k := 1) (t := Demo.t7) (by decide) (by decide) (by decide) rfl (by decide)
  (by decide) [Demo.vote7 1, Demo.vote7 3] (by decide)
