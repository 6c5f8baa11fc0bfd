import Verif.Props.Trade
import Verif.Props.Bridge
/-
Properties C75–C76: what relayers and depositors can do, and expired votes.
-/
variable {c : Cfg} {w w' : World} {a : AccountId}
set_option maxRecDepth 10000

namespace Spec

/-- the votes for a transfer so far -/
def votesFor (w : World) (k : ChainId) (t : Transfer) : List AccountId :=
  ((w.br.votes.get (k, t)).map Proposal.votes).getD []

/-- the block at which the vote on a transfer ends: a first vote opens a voting period -/
def deadline (c : Cfg) (w : World) (k : ChainId) (t : Transfer) : Block :=
  ((w.br.votes.get (k, t)).map Proposal.expiry).getD (w.now + c.proposalLife)

/-- the transfer is not yet approved and its voting period, if it has begun, is running -/
def Open (w : World) (k : ChainId) (t : Transfer) : Prop :=
  ∀ p, w.br.votes.get (k, t) = some p → p.approved = false ∧ w.now < p.expiry

end Spec

/- C75 -/

section
variable {k : ChainId} {t : Transfer} (h1 : a ∈ w.br.relayers) (h2 : (w.br.nonces.get k).isSome)
  (h3 : Spec.Open w k t) (h4 : a ∉ Spec.votesFor w k t) (h5 : (Spec.votesFor w k t).length < c.relayerLimit)
include h1 h2 h3 h4 h5

/-- the vote itself -/
theorem vote_open : BrM.vote c w a (w.br.votes.get (k, t)) = .ok (BrM.complete w.br.threshold
    ⟨Spec.votesFor w k t ++ [a], Spec.deadline c w k t, false⟩) := by
  unfold Spec.votesFor at *
  unfold Spec.deadline
  rcases hp : w.br.votes.get (k, t) with _ | p
  · simp [hp] at h5
    have h6 : 1 ≤ c.relayerLimit := h5
    simp [BrM.vote, require, bind, Except.bind, pure, Except.pure, h6]
  · obtain ⟨h6, h7⟩ := h3 p hp
    simp [hp] at h4 h5
    simp [BrM.vote, require, bind, Except.bind, pure, Except.pure, h6, h7, h4, h5]

/-- Every relayer can vote once for each transfer from a whitelisted chain while the vote is open and the limit of
votes is not reached.  Below the threshold the vote is recorded, and nothing else happens. -/
theorem C75_vote (h6 : (Spec.votesFor w k t).length + 1 < w.br.threshold) :
    dispatch c (.br (.vote k t)) (.signed a) w = .ok { w with
      br := { w.br with
        votes := w.br.votes.insert (k, t) ⟨Spec.votesFor w k t ++ [a], Spec.deadline c w k t, false⟩ }
      evs := .voted k t a :: w.evs } := by
  have h := vote_open h1 h2 h3 h4 h5
  have h7 : ¬ w.br.threshold ≤ (Spec.votesFor w k t).length + 1 := by omega
  eval_ok [BrM.call, BrM.voteFor, h1, BrM.allowed, h2, h, BrM.complete, h7, BrM.payout, World.ev]

/-- The vote that reaches the threshold approves the transfer: its recipient gets the whole amount, newly issued, if
the issuance stays within `u128` and the recipient's account then holds an existential deposit. Missing: transfers
whose votes reach the threshold because it was lowered, see `C75_fails`. -/
theorem C75_mint_partial (h6 : w.br.threshold ≤ (Spec.votesFor w k t).length + 1)
    (h7 : w.bal.issuance + t.amount ≤ U128MAX) (h8 : c.ed ≤ t.amount ∨ 0 < w.bal.freeOf t.recipient) :
    ∃ b, dispatch c (.br (.vote k t)) (.signed a) w = .ok { w with
        bal := b
        br := { w.br with
          votes := w.br.votes.insert (k, t) ⟨Spec.votesFor w k t ++ [a], Spec.deadline c w k t, true⟩ }
        evs := .approved k t :: .voted k t a :: w.evs } ∧
      (∀ x, b.freeOf x = w.bal.freeOf x + if x = t.recipient then t.amount else 0) ∧
      b.issuance = w.bal.issuance + t.amount := by
  have h := vote_open h1 h2 h3 h4 h5
  refine ⟨w.bal.mint c.ed t.recipient t.amount, ?_, fun x => ?_, ?_⟩
  · eval_ok [BrM.call, BrM.voteFor, h1, BrM.allowed, h2, h, BrM.complete, h6, BrM.payout, World.ev, World.putBal]
  · have hm : min t.amount (U128MAX - w.bal.issuance) = t.amount := by omega
    rw [Bal.mint_free]
    by_cases hx : x = t.recipient
    · subst hx; simp only [if_true, hm]; split <;> omega
    · simp [hx]
  · have hm : min t.amount (U128MAX - w.bal.issuance) = t.amount := by omega
    unfold Bal.mint
    simp only [hm]
    split <;> (simp; try omega)

end

/-- Everybody can send tokens to a whitelisted chain that they hold, with the fee, beyond their locks and the
existential deposit; the deposit gets the next nonce. -/
theorem C75_deposit {v : Balance} {r : Data} {k : ChainId} {n : Nat} (hr : Reach c w)
    (h1 : w.br.nonces.get k = some n) (h2 : n < 2 ^ 64 - 1) (h3 : Spec.CanPay c w a (w.br.fee + v)) :
    ∃ b, dispatch c (.br (.deposit v r k)) (.signed a) w = .ok { w with
        bal := b
        br := { w.br with nonces := w.br.nonces.insert k (n + 1) }
        evs := .deposited k (n + 1) r v :: w.evs } ∧
      (∀ x, b.freeOf x + (if x = a then w.br.fee + v else 0) = w.bal.freeOf x) ∧
      b.issuance + v = w.bal.issuance ∧ b.collected = w.bal.collected + w.br.fee := by
  have hm := hr.micro.balInv.wf.max
  have hs := hr.micro.balInv.wf.sum
  have ht := Bal.freeOf_le_total w.bal a
  rw [Spec.canPay_iff] at h3
  obtain ⟨b1, e1⟩ := Bal.payFee_pays (ed := c.ed) (b := w.bal) (a := a) (v := w.br.fee) (by omega)
  have e2 := Bal.payFee_left (u := v) (by omega) e1
  have f1 := Bal.payFee_free e1
  obtain ⟨b2, e3, e4, e5, e6⟩ : ∃ b2, b1.withdraw c.ed a v .allowDeath = .ok b2 ∧
      (∀ x, b2.freeOf x + (if x = a then v else 0) = b1.freeOf x) ∧ b2.issuance = b1.issuance ∧
      b2.collected = b1.collected := by
    by_cases hz : v = 0
    · exact ⟨b1, by simp [Bal.withdraw, hz], by simp [hz], rfl, rfl⟩
    · have g1 : v ≤ b1.freeOf a := by omega
      have g2 : Bal.canLeave c.ed b1 a (b1.freeOf a - v) .allowDeath := ⟨by omega, fun h => by omega⟩
      have g3 : ¬ b1.freeOf a - v < c.ed := by omega
      refine ⟨_, by simp [Bal.withdraw, hz, require, g1, g2, bind, Except.bind, pure, Except.pure]; rfl, fun x => ?_,
        ?_, ?_⟩
      · rw [Bal.freeOf_settle]
        by_cases hx : x = a
        · subst hx; simp [g3]; omega
        · simp [hx]
      · simp [Bal.settle, g3]
      · simp
  have h5 : (w.br.fee + v) % (U128MAX + 1) ≤ w.bal.freeOf a := by
    have := Nat.mod_le (w.br.fee + v) (U128MAX + 1); omega
  have h6 : (n + 1) % (U64MAX + 1) = n + 1 := Nat.mod_eq_of_lt (by unfold U64MAX; omega)
  refine ⟨b2.burn v, ?_, fun x => ?_, ?_, ?_⟩
  · eval_ok [BrM.call, BrM.deposit, BrM.allowed, h1, h5, e1, e3, h6, World.putBal, World.ev]
  · have := e4 x
    have g := f1 x
    show b2.freeOf x + _ = _
    by_cases hx : x = a
    · subst hx; simp at *; omega
    · simp [hx] at *; omega
  · have := (Bal.payFee_issuance e1).1
    show b2.issuance - v + v = _
    omega
  · have := (Bal.payFee_issuance e1).2
    show b2.collected = _
    omega

/-- Root and the committee can whitelist every other chain, name the relayers, set the fee and every positive
threshold, and raise the nonce of a chain. -/
theorem C75_govern {o : Origin} (ho : o = .root ∨ o = .ext) :
    (∀ k, k ≠ c.chain → w.br.nonces.get k = none →
      dispatch c (.ext (.addChain k)) o w = .ok { w with br := { w.br with nonces := w.br.nonces.insert k 0 } }) ∧
    (∀ l, dispatch c (.ext (.setRelayers l)) o w = .ok { w with br := { w.br with relayers := l } }) ∧
    (∀ x, dispatch c (.ext (.setFee x)) o w = .ok { w with br := { w.br with fee := x } }) ∧
    (∀ x, 0 < x → dispatch c (.ext (.setThreshold x)) o w = .ok { w with br := { w.br with threshold := x } }) ∧
    ∀ k n m, w.br.nonces.get k = some n → n < m → m < 2 ^ 64 →
      dispatch c (.ext (.setNonce k m)) o w = .ok { w with br := { w.br with nonces := w.br.nonces.insert k m } } := by
  refine ⟨fun k h1 h2 => ?_, fun l => ?_, fun x => ?_, fun x h => ?_, fun k n m h1 h2 h3 => ?_⟩
  · rcases ho with rfl | rfl <;> eval_ok [BrM.ext, BrM.addChain, BrM.allowed, h1, h2]
  · rcases ho with rfl | rfl <;> rfl
  · rcases ho with rfl | rfl <;> rfl
  · have : x ≠ 0 := by omega
    rcases ho with rfl | rfl <;> eval_ok [BrM.ext, BrM.setThreshold, h, this]
  · have : m ≤ U64MAX := by unfold U64MAX; omega
    rcases ho with rfl | rfl <;> eval_ok [BrM.ext, BrM.setNonce, h1, h2, this]

example : (∃ w', dispatch Demo.cfg (.br (.vote 1 Demo.t7)) (.signed 1) (Demo.at_ Demo.bridge) = .ok w') ∧
    ∃ w', dispatch Demo.cfg (.br (.vote 1 Demo.t7)) (.signed 2) (Demo.at_ (Demo.bridge ++ [Demo.vote7 1])) = .ok w' := by
  refine ⟨⟨_, C75_vote (by decide) (by decide) ?_ (by decide) (by decide) (by decide)⟩, ?_⟩
  · intro p h; cases h
  · have ⟨_, h, _⟩ := C75_mint_partial (c := Demo.cfg) (w := Demo.at_ (Demo.bridge ++ [Demo.vote7 1])) (a := 2) (k := 1)
      (t := Demo.t7) (by decide) (by decide) (by intro p h; cases h; decide) (by decide) (by decide) (by decide)
      (by decide) (by decide)
    exact ⟨_, h⟩

example : ∃ w', dispatch Demo.cfg (.br (.deposit 500 [5] 1)) (.signed 1) (Demo.at_ Demo.bridge) = .ok w' := by
  have ⟨_, h, _⟩ := C75_deposit (c := Demo.cfg) (w := Demo.at_ Demo.bridge) (a := 1) (v := 500) (r := [5]) (k := 1) (n := 0)
    (Demo.reach _ (by decide)) (by decide) (by decide) (by unfold Spec.CanPay; decide)
  exact ⟨_, h⟩

/-- relayers 1 and 2 vote while three votes are needed; then the threshold is lowered to two -/
abbrev lowered : List Op :=
  [.call .root (.ext (.addChain 1)), .call .root (.ext (.setRelayers [1, 2])), .call .root (.ext (.setThreshold 3)),
   Demo.vote7 1, Demo.vote7 2, .call .root (.ext (.setThreshold 2))]

/-- C75 fails for lowered thresholds: a transfer that every relayer has voted for, with as many votes as the threshold
demands, is not approved, and nobody can approve it any more. -/
theorem C75_fails : ∃ c w k t p, c.Ok ∧ Reach c w ∧ w.br.votes.get (k, t) = some p ∧ p.approved = false ∧
    w.now < p.expiry ∧ w.br.threshold ≤ p.votes.length ∧ (∀ a ∈ w.br.relayers, a ∈ p.votes) ∧
    ∀ a, (dispatch c (.br (.vote k t)) (.signed a) w).isOk = false := by
  refine ⟨Demo.cfg, Demo.at_ lowered, 1, Demo.t7, _, Demo.cfg_ok, Demo.reach _ (by decide), rfl, by decide, by decide,
    by decide, by decide, fun a => ?_⟩
  by_cases h : a ∈ (Demo.at_ lowered).br.relayers
  · have : a = 1 ∨ a = 2 := by
      have e : (Demo.at_ lowered).br.relayers = [1, 2] := by decide
      rw [e] at h; simpa using h
    rcases this with rfl | rfl <;> decide
  · simp only [dispatch, signedCall, BrM.call, BrM.voteFor, require, h, if_false, bind, Except.bind]
    rfl

/- C76 -/

/-- When the voting period of a transfer has ended without approval, it is over for ever: the votes never change, nobody
can vote, and exactly this transfer is never approved. -/
theorem C76 (hr : Reach c w) {k : ChainId} {t : Transfer} {p : Proposal} (h : w.br.votes.get (k, t) = some p)
    (h1 : p.approved = false) (h2 : p.expiry ≤ w.now) (l : List Op) (hl : ∀ o ∈ l, o.Ok c) :
    (run c w l).br.votes.get (k, t) = some p ∧ .approved k t ∉ (run c w l).evs ∧
      ∀ o, (dispatch c (.br (.vote k t)) o (run c w l)).isOk = false := by
  have key := run_inv (P := fun v => v.br.votes.get (k, t) = some p ∧ p.expiry ≤ v.now) (c := c) (w := w) (by
    rintro v o hv ho ⟨e1, e2⟩
    have hn := step_now_le (c := c) v o
    refine ⟨?_, by omega⟩
    have hs := step_br v o ho
    generalize step c v o = v' at *
    cases hs with
    | quiet e he => rw [e, e1]
    | ext hg hx h e he =>
      rw [e]
      rename_i r _
      cases r <;> simp only [BrM.ext, BrM.setThreshold, BrM.addChain, BrM.setNonce] at h <;> inv_ok at h
      all_goals first
        | (obtain ⟨_, rfl⟩ := h; exact e1)
        | (obtain ⟨_, _, rfl⟩ := h; exact e1)
        | (obtain ⟨_, _, _, _, rfl⟩ := h; exact e1)
    | deposit h1 hn h2 e he => rw [e]; exact e1
    | @vote a k' t' x _ g1 g2 g3 g4 e he hb =>
      rw [e]
      simp only [FMap.get_insert]
      split
      · rename_i hk
        rw [← hk, e1] at g3
        simp only [BrM.vote] at g3
        inv_ok at g3
        omega
      · exact e1) hr ⟨h, h2⟩ l hl
  refine ⟨key.1, fun hm => ?_, fun o => ?_⟩
  · obtain ⟨q, hq, ha⟩ := (hr.run l hl).binv.mark k t hm
    rw [key.1] at hq
    cases hq
    rw [h1] at ha; cases ha
  · cases hd : dispatch c (.br (.vote k t)) o (run c w l) with
    | error e => rfl
    | ok v =>
      cases o with
      | signed a =>
        obtain ⟨x, _, _, g3, _⟩ := BrM.voteFor_ok hd
        rw [key.1] at g3
        simp only [BrM.vote] at g3
        inv_ok at g3
        omega
      | _ => cases hd

/-- one vote, and then no more until the vote is over -/
abbrev expired : List Op := Demo.bridge ++ [Demo.vote7 1] ++ Demo.ticks 10

example : ∃ p, (Demo.at_ expired).br.votes.get (1, Demo.t7) = some p ∧ p.approved = false ∧
    p.expiry ≤ (Demo.at_ expired).now :=
  ⟨_, rfl, by decide, by decide⟩

-- and it stays so although more relayers vote
example := C76 (Demo.reach expired (by decide)) (k := 1) (t := Demo.t7) (p := ⟨[1], 10, false⟩) rfl rfl (by decide)
  [Demo.vote7 2, Demo.vote7 3] (by decide)
