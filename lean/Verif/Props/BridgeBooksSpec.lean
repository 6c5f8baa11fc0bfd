import Verif.Model.BrEvents
/-
What an observer of the bridge's events writes down.  Refers to the model's records and events, not to its calls.
-/
namespace Spec

/-- What the events of bridge and staking-rewards tell. -/
@[ext] structure BridgeBooks where
  /-- whitelisted chains and the last nonce of each -/
  nonce : ChainId → Option Nat
  threshold : Nat
  relayers : List AccountId
  fee : Balance
  /-- extra reward per session -/
  extra : Balance
  /-- how many transfers of this nonce the account has voted for -/
  votes : ChainId → Nat → AccountId → Nat
  /-- how many transfers of this nonce have been approved -/
  minted : ChainId → Nat → Nat

/-- what the chain stores -/
def bridgeBooks (w : World) : BridgeBooks where
  nonce := w.br.nonces.get
  threshold := w.br.threshold
  relayers := w.br.relayers
  fee := w.br.fee
  extra := w.rew.extra
  votes k n a := w.br.votes.sumBy fun x p => if x.1 = k ∧ x.2.nonce = n ∧ a ∈ p.votes then 1 else 0
  minted k n := w.br.votes.sumBy fun x p => if x.1 = k ∧ x.2.nonce = n ∧ p.approved = true then 1 else 0

/-- how the observer keeps their books -/
def entry (b : BridgeBooks) : BrEvent → BridgeBooks
  | .feeUpdated x => { b with fee := x }
  | .depositMade k n _ _ => { b with nonce := fun j => if j = k then some n else b.nonce j }
  | .nonceUpdated k n => { b with nonce := fun j => if j = k then some n else b.nonce j }
  | .chainAllowed k => { b with nonce := fun j => if j = k then some 0 else b.nonce j }
  | .proposalApproved k n =>
    { b with minted := fun j m => b.minted j m + if j = k ∧ m = n then 1 else 0 }
  | .thresholdUpdated t => { b with threshold := t }
  | .relayerVoted k n a =>
    { b with votes := fun j m x => b.votes j m x + if j = k ∧ m = n ∧ x = a then 1 else 0 }
  | .relayersUpdated l => { b with relayers := l }
  | .extraChanged x => { b with extra := x }
  | .rootOp _ => b

end Spec
