import Verif.Model.Tee
/-
Model of /repo/bridge/src/lib.rs, /repo/staking-rewards/src/lib.rs.
The `u64` deposit nonces are `Nat`s below 2^64: the argument of `set_deposit_nonce` is bounded by its
type, and the plain `+ 1` of `deposit` wraps (release build).
-/
/-- largest `u64`, the type of the deposit nonces (bridge/src/types.rs 23) -/
def U64MAX : Nat := 2 ^ 64 - 1

namespace BrM
variable (c : Cfg)

/-- `set_threshold` (external origin), bridge/src/lib.rs 208-216 -/
def setThreshold (w : World) (t : Nat) : Except Err World := do
  require (0 < t) "ThresholdCannotBeZero"
  pure { w with br := { w.br with threshold := t } }

/-- `chain_allowed`, bridge/src/lib.rs 402-404 -/
def allowed (w : World) (k : ChainId) : Prop := (w.br.nonces.get k).isSome

instance (w : World) (k : ChainId) : Decidable (allowed w k) := by unfold allowed; infer_instance

/-- `add_chain` (external origin), bridge/src/lib.rs 222-232 -/
def addChain (w : World) (k : ChainId) : Except Err World := do
  require (k ≠ c.chain) "CannotAddSelfToAllowedChainList"
  require (¬ allowed w k) "ChainAlreadyWhitelisted"
  pure { w with br := { w.br with nonces := w.br.nonces.insert k 0 } }

/-- `set_relayers` (external origin), bridge/src/lib.rs 237-247 -/
def setRelayers (w : World) (l : List AccountId) : World :=
  { w with br := { w.br with relayers := l } }

/-- `set_deposit_nonce` (external origin), bridge/src/lib.rs 252-270 -/
def setNonce (w : World) (k : ChainId) (nonce : Nat) : Except Err World := do
  let cur ← getOr (w.br.nonces.get k) "ChainNotFound"
  require (cur < nonce) "NewNonceTooLow"
  require (nonce ≤ U64MAX) "type u64"
  pure { w with br := { w.br with nonces := w.br.nonces.insert k nonce } }

/-- `try_to_complete`, bridge/src/types.rs 62-72 -/
def complete (threshold : Nat) (p : Proposal) : Proposal × Bool :=
  if threshold ≤ p.votes.length then ({ p with approved := true }, true) else (p, false)

/-- adding a vote to an optional proposal, bridge/src/lib.rs 300-316 -/
def vote (w : World) (who : AccountId) : Option Proposal → Except Err (Proposal × Bool)
  | some p => do
    require (p.approved = false) "ProposalAlreadyCompleted"
    require (¬ p.expiry ≤ w.now) "ProposalExpired"
    require (who ∉ p.votes) "RelayerAlreadyVoted"
    require (p.votes.length < c.relayerLimit) "MaximumVoteLimitExceeded"
    pure (complete w.br.threshold { p with votes := p.votes ++ [who] })
  | none => do
    require (1 ≤ c.relayerLimit) "MaximumVoteLimitExceeded"
    pure (complete w.br.threshold
      { votes := [who], expiry := w.now + c.proposalLife, approved := false })

/-- the payout of an approved proposal, bridge/src/lib.rs 326-335 -/
def payout (w : World) (k : ChainId) (t : Transfer) : Bool → World
  | true => (w.putBal (w.bal.mint c.ed t.recipient t.amount)).ev (.approved k t)
  | false => w

/-- `vote_for_proposal`, bridge/src/lib.rs 278-339 -/
def voteFor (w : World) (who : AccountId) (k : ChainId) (t : Transfer) : Except Err World := do
  require (who ∈ w.br.relayers) "MustBeRelayer"
  require (allowed w k) "ChainNotAllowed"
  let x ← vote c w who (w.br.votes.get (k, t))
  let w := { w with br := { w.br with votes := w.br.votes.insert (k, t) x.1 } }
  let w := w.ev (.voted k t who)
  pure (payout c w k t x.2)

/-- `deposit`, bridge/src/lib.rs 343-370.  The withdrawn imbalance is dropped (issuance falls by
`amount`); `Currency::burn(amount)` lowers the issuance again but its own imbalance is dropped at
once, which raises it back. -/
def deposit (w : World) (who : AccountId) (amount : Balance) (recipient : Data) (dest : ChainId) :
    Except Err World := do
  let total := (w.br.fee + amount) % (U128MAX + 1)
  require (allowed w dest) "ChainNotAllowed"
  require (total ≤ w.bal.freeOf who) "InsufficientBalance"
  let b ← w.bal.payFee c.ed who w.br.fee
  let b ← b.withdraw c.ed who amount .allowDeath
  let w := w.putBal (b.burn amount)
  let nonce := ((w.br.nonces.get dest).getD 0 + 1) % (U64MAX + 1)
  let w := { w with br := { w.br with nonces := w.br.nonces.insert dest nonce } }
  pure (w.ev (.deposited dest nonce recipient amount))

/-- `set_bridge_fee` (external origin), bridge/src/lib.rs 375-385 -/
def setFee (w : World) (x : Balance) : World := { w with br := { w.br with fee := x } }

/-- Signed dispatchables. -/
inductive Call where
  | vote (k : ChainId) (t : Transfer)
  | deposit (amount : Balance) (recipient : Data) (dest : ChainId)

/-- dispatch of the signed calls -/
def call (w : World) (who : AccountId) : Call → Except Err World
  | .vote k t => voteFor c w who k t
  | .deposit v r d => deposit c w who v r d

/-- Dispatchables of `ExternalOrigin`, here and in staking-rewards. -/
inductive ExtCall where
  | setThreshold (t : Nat)
  | addChain (k : ChainId)
  | setRelayers (l : List AccountId)
  | setNonce (k : ChainId) (nonce : Nat)
  | setFee (x : Balance)
  /-- `set_session_extra_reward_payout`, staking-rewards/src/lib.rs 89-102 -/
  | setExtra (x : Balance)

/-- dispatch of the external-origin calls -/
def ext (w : World) : ExtCall → Except Err World
  | .setThreshold t => setThreshold w t
  | .addChain k => addChain c w k
  | .setRelayers l => .ok (setRelayers w l)
  | .setNonce k n => setNonce w k n
  | .setFee x => .ok (setFee w x)
  | .setExtra x => .ok { w with rew := { w.rew with extra := x } }

end BrM

namespace RewM
variable (c : Cfg)

/-- the tip goes to the block's author, if there is one; otherwise it is dropped -/
def tipTo (b : Bal) (tip : Balance) : Option AccountId → Bal
  | some a => b.mint c.ed a tip
  | none => b

/-- `on_unbalanceds`, staking-rewards/src/lib.rs 129-152, preceded by what creates its argument
(outside /repo): transaction payment withdraws `fee + tip` from the payer.  The fee is recorded and
burned; `resolve_creating(author, tips)` equals burning the tip and issuing it again. -/
def txFee (w : World) (payer : AccountId) (fee tip : Balance) (author : Option AccountId) :
    Except Err World := do
  let b ← w.bal.withdraw c.ed payer (fee + tip) .keepAlive
  let w := w.putBal (tipTo c (b.burn (fee + tip)) tip author)
  let w := { w with rew := { w.rew with acc := min (w.rew.acc + fee) U128MAX } }
  pure (w.ev (.feesTaken fee))

/-- `era_payout`, staking-rewards/src/lib.rs 156-187: the payout for stakers and the new state; the
payout itself is minted later by the staking pallet, outside /repo.  The plain `+=` wraps. -/
def eraPayout (w : World) : World × Balance :=
  let x := min (w.bal.freeOf c.rewPot) w.rew.extra
  let r := match w.bal.withdraw c.ed c.rewPot x .allowDeath with
    | .ok b => (b.burn x, x)
    | .error _ => (w.bal, 0)
  ((({ w with rew := { w.rew with acc := 0 } } : World).putBal r.1).ev (.eraPaid w.rew.acc r.2),
    (w.rew.acc + r.2) % (U128MAX + 1))

end RewM
