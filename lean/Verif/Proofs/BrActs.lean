import Verif.Proofs.Priv
import Verif.Proofs.Events
/-
What an operation does to the bridge.
-/
variable {c : Cfg} {w w' : World} {a : AccountId}

/-- events of the bridge -/
def Ev.bridge : Ev → Bool
  | .voted .. => true
  | .approved .. => true
  | .deposited .. => true
  | _ => false

namespace BrM

theorem voteFor_ok {k t} (h : voteFor c w a k t = .ok w') : ∃ x, a ∈ w.br.relayers ∧ allowed w k ∧
    vote c w a (w.br.votes.get (k, t)) = .ok x ∧
    w' = payout c (({ w with br := { w.br with votes := w.br.votes.insert (k, t) x.1 } } : World).ev
      (.voted k t a)) k t x.2 := by
  simp only [voteFor] at h; inv_ok at h
  obtain ⟨y, h1, h2, h3, rfl⟩ := h
  exact ⟨y, h1, h2, h3, rfl⟩

theorem deposit_ok {v r d} (h : deposit c w a v r d = .ok w') : ∃ b1 b2, allowed w d ∧
    (w.br.fee + v) % (U128MAX + 1) ≤ w.bal.freeOf a ∧ w.bal.payFee c.ed a w.br.fee = .ok b1 ∧
    b1.withdraw c.ed a v .allowDeath = .ok b2 ∧
    w' = (({ w with
      bal := b2.burn v
      br := { w.br with nonces :=
        w.br.nonces.insert d (((w.br.nonces.get d).getD 0 + 1) % (U64MAX + 1)) } } : World).ev
          (.deposited d (((w.br.nonces.get d).getD 0 + 1) % (U64MAX + 1)) r v)) := by
  simp only [deposit] at h; inv_ok at h
  obtain ⟨b1, b2, h1, h2, h3, h4, rfl⟩ := h
  exact ⟨b1, b2, h1, h2, h3, h4, rfl⟩

theorem complete_spec (m : Nat) (p : Proposal) (hp : p.approved = false) :
    (complete m p).1.votes = p.votes ∧ (complete m p).1.expiry = p.expiry ∧
    (complete m p).1.approved = (complete m p).2 ∧
    ((complete m p).2 = true ↔ m ≤ p.votes.length) := by
  unfold complete
  split <;> simp_all

/-- what adding a vote does -/
theorem vote_ok {o : Option Proposal} {x} (h : vote c w a o = .ok x) :
    x.1.approved = x.2 ∧ (x.2 = true ↔ w.br.threshold ≤ x.1.votes.length) ∧
    ((o = none ∧ x.1.votes = [a] ∧ x.1.expiry = w.now + c.proposalLife) ∨
      ∃ p, o = some p ∧ p.approved = false ∧ a ∉ p.votes ∧ w.now < p.expiry ∧
        x.1.votes = p.votes ++ [a] ∧ x.1.expiry = p.expiry) := by
  cases o with
  | none =>
    simp only [vote] at h; inv_ok at h
    obtain ⟨_, rfl⟩ := h
    obtain ⟨h1, h2, h3, h4⟩ := complete_spec w.br.threshold
      { votes := [a], expiry := w.now + c.proposalLife, approved := false } rfl
    exact ⟨h3, by rw [h4, h1], .inl ⟨rfl, h1, h2⟩⟩
  | some p =>
    simp only [vote] at h; inv_ok at h
    obtain ⟨h1, h2, h3, _, rfl⟩ := h
    obtain ⟨g1, g2, g3, g4⟩ := complete_spec w.br.threshold
      { p with votes := p.votes ++ [a] } h1
    exact ⟨g3, by rw [g4, g1], .inr ⟨p, rfl, h1, h3, by omega, g1, g2⟩⟩

end BrM

/-- What an operation does to the bridge and its events. -/
inductive BrMove (c : Cfg) (w : World) : Op → World → Prop where
  | vote {a k t x w'} : a ∈ w.br.relayers → (w.br.nonces.get k).isSome →
      BrM.vote c w a (w.br.votes.get (k, t)) = .ok x →
      dispatch c (.br (.vote k t)) (.signed a) w = .ok w' →
      w'.br = { w.br with votes := w.br.votes.insert (k, t) x.1 } →
      w'.evs = (if x.2 then [.approved k t] else []) ++ .voted k t a :: w.evs →
      w'.bal = (if x.2 then w.bal.mint c.ed t.recipient t.amount else w.bal) →
      BrMove c w (.call (.signed a) (.br (.vote k t))) w'
  | deposit {a v r d n w'} : (w.br.nonces.get d).isSome →
      n = ((w.br.nonces.get d).getD 0 + 1) % (U64MAX + 1) →
      BrM.deposit c w a v r d = .ok w' →
      w'.br = { w.br with nonces := w.br.nonces.insert d n } →
      w'.evs = .deposited d n r v :: w.evs →
      BrMove c w (.call (.signed a) (.br (.deposit v r d))) w'
  | ext {g x r w1 w'} : (∀ a, g ≠ .signed a) → x.core = .ext r → BrM.ext c w r = .ok w1 →
      w'.br = w1.br → w'.evs.filter Ev.bridge = w.evs.filter Ev.bridge →
      BrMove c w (.call g x) w'
  | quiet {o w'} : w'.br = w.br → w'.evs.filter Ev.bridge = w.evs.filter Ev.bridge → BrMove c w o w'

theorem quiet_evs {o : Op} (h : ∀ a x, o ≠ .call (.signed a) (.br x)) :
    (step c w o).evs.filter Ev.bridge = w.evs.filter Ev.bridge := by
  obtain ⟨l, e, hl⟩ := step_evs (c := c) w o
  rw [e, List.filter_append]
  have : l.filter Ev.bridge = [] := by
    rw [List.filter_eq_nil_iff]
    intro e he hb
    have := hl e he
    cases e <;> simp only [Ev.bridge, Bool.false_eq_true] at hb <;> simp only [Ev.By] at this
    · exact h _ _ this
    · obtain ⟨b, hb⟩ := this; exact h _ _ hb
    · obtain ⟨b, hb⟩ := this; exact h _ _ hb
  rw [this, List.nil_append]

theorem step_br (w : World) (o : Op) (ho : o.Ok c) : BrMove c w o (step c w o) := by
  by_cases hb : ∀ a x, o ≠ .call (.signed a) (.br x)
  · have he := quiet_evs (c := c) (w := w) hb
    have h := step_side (c := c) w o ho
    generalize _root_.step c w o = w' at h he ⊢
    cases h with
    | br ha h => exact absurd rfl (hb _ _)
    | tee ha h => exact .quiet (fr% World.br (TeeM.call_frame h)) he
    | teeRoot hg hx h hl => exact .quiet (fr% World.br (TeeM.root_frame h)) he
    | root hg hx hr h h1 h2 h3 => exact .quiet h2 he
    | ext hg hx h hl => exact .ext hg hx h rfl he
    | hookTee => exact .quiet (fr% World.br (TeeM.hook_frame (c := c) w)) he
    | txFee hp h => exact .quiet (fr% World.br (RewM.txFee_frame h)) he
    | eraPayout => exact .quiet rfl he
    | other h1 h2 => exact .quiet h2 he
    | _ => exact .quiet rfl he
  · simp only [not_forall, ne_eq, not_not] at hb
    obtain ⟨a, x, rfl⟩ := hb
    simp only [step]
    cases h : dispatch c (.br x) (.signed a) w with
    | error e => exact .quiet rfl rfl
    | ok w' =>
      show BrMove c w _ w'
      have h0 := h
      simp only [dispatch, signedCall] at h
      cases x with
      | vote k t =>
        obtain ⟨x, h1, h2, h3, rfl⟩ := BrM.voteFor_ok h
        refine .vote h1 h2 h3 h0 ?_ ?_ ?_ <;> cases x.2 <;> rfl
      | deposit v r d =>
        have h' := h
        obtain ⟨b1, b2, h1, h2, h3, h4, rfl⟩ := BrM.deposit_ok h
        exact .deposit h1 rfl h' rfl rfl
