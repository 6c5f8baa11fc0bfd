import Verif.Conform.Base
/-
The tests of bridge/src/tests/extrinsics.rs and types.rs and of staking-rewards/src/tests/extrinsics.rs on the model.
-/
namespace Conform.Bridge

/-- bridge/src/tests/mock.rs 128-135: the constants -/
def c : Cfg :=
  { cfg0 with ed := 1, chain := 5, proposalLife := 10, relayerLimit := 3 }

/-- `ExtBuilder::build`: relayers 2, 3 and 4 own 100000000 each, and so does the pallet's account, here 1005 -/
def ext : World :=
  let w := blank [(1005, 100000000), (2, 100000000), (3, 100000000), (4, 100000000)]
  { w with br := { w.br with threshold := 1, fee := 1 } }

/-- a call as root -/
abbrev r (x : BrM.ExtCall) : Act := rt (.ext x)
/-- a signed call -/
abbrev by_ (a : AccountId) (x : BrM.Call) : Act := sg a (.br x)

/-- `ExtBuilder::build_with(0, threshold)` -/
abbrev with_ (threshold : Nat) : List Act := [r (.setThreshold threshold), r (.setRelayers [2, 3, 4]), r (.addChain 0)]

/-- the last event of a call that must succeed -/
def last (l : List Act) (o : Origin) (x : Call) : Option BrEvent :=
  match play c ext l with
  | none => none
  | some w' =>
    match dispatch c x o w' with
    | .ok _ => (brEmit c w' (.call o x)).getLast?
    | .error _ => none

/-- `assert_noop!` of a call by root after the steps `l` -/
abbrev BadRoot (l : List Act) (x : BrM.ExtCall) (e : String) : Prop := fails c ext l .root (.ext x) = some (.e e)
/-- `assert_noop!` of a signed call after the steps `l` -/
abbrev Bad (l : List Act) (a : AccountId) (x : BrM.Call) (e : String) : Prop :=
  fails c ext l (.signed a) (.br x) = some (.e e)
/-- the origin of a call by root is checked -/
abbrev NotRoot (x : BrM.ExtCall) : Prop := fails c ext [] (.signed 2) (.ext x) = some (.e "BadOrigin")

/-- `assert_ok!` of a call by root, its last event, and what is seen afterwards -/
abbrev GoodRoot {α : Type} (l : List Act) (x : BrM.ExtCall) (e : BrEvent) (f : World → α) (v : α) : Prop :=
  last l .root (.ext x) = some e ∧ see c ext (l ++ [r x]) f = some v
/-- `assert_ok!` of a signed call, its last event, and what is seen afterwards -/
abbrev Good {α : Type} (l : List Act) (a : AccountId) (x : BrM.Call) (e : BrEvent) (f : World → α) (v : α) : Prop :=
  last l (.signed a) (.br x) = some e ∧ see c ext (l ++ [by_ a x]) f = some v

/-- 100 for relayer 4, the first deposit of chain 0 -/
abbrev t : Transfer := ⟨0, 4, 100⟩

/-! `mod set_threshold` -/

/-- `set_threshold` -/
example : GoodRoot [] (.setThreshold 2) (.thresholdUpdated 2) (fun w => w.br.threshold) 2 := ⟨rfl, rfl⟩

/-- `bad_origin` -/
example : NotRoot (.setThreshold 3) := rfl

/-- `threshold_cannot_be_zero` -/
example : BadRoot [] (.setThreshold 0) "ThresholdCannotBeZero" := rfl

/-! `mod add_chain` -/

/-- `add_chain` -/
example : GoodRoot [] (.addChain 0) (.chainAllowed 0) (fun w => w.br.nonces.get 0) (some 0) := ⟨rfl, rfl⟩

/-- `bad_origin` -/
example : NotRoot (.addChain 0) := rfl

/-- `cannot_add_self_to_allowed_chain_list` -/
example : BadRoot [] (.addChain 5) "CannotAddSelfToAllowedChainList" := rfl

/-- `chain_already_whitelisted` -/
example : BadRoot (with_ 3) (.addChain 0) "ChainAlreadyWhitelisted" := rfl

/-! `mod set_relayers` -/

/-- `set_relayers` -/
example : GoodRoot [] (.setRelayers [2, 3]) (.relayersUpdated [2, 3]) (fun w => w.br.relayers) [2, 3] := ⟨rfl, rfl⟩

/-- `bad_origin` -/
example : NotRoot (.setRelayers []) := rfl

/-! `mod set_deposit_nonce` -/

/-- `set_deposit_nonce` -/
example : GoodRoot (with_ 3) (.setNonce 0 1) (.nonceUpdated 0 1) (fun w => w.br.nonces.get 0) (some 1) := ⟨rfl, rfl⟩

/-- `bad_origin` -/
example : NotRoot (.setNonce 0 1) := rfl

/-- `chain_not_found` -/
example : BadRoot (with_ 3) (.setNonce 1 1) "ChainNotFound" := rfl

/-- `new_nonce_too_low` -/
example : BadRoot (with_ 3) (.setNonce 0 0) "NewNonceTooLow" := rfl

/-! `mod vote_for_proposal` -/

/-- `vote_for_proposal_not_existing` -/
example : Good (with_ 3) 2 (.vote 0 t) (.relayerVoted 0 0 2)
    (fun w => w.br.votes.get (0, t)) (some ⟨[2], 11, false⟩) := ⟨rfl, rfl⟩

/-- `vote_for_proposal_existing` -/
example : Good (with_ 3 ++ [by_ 2 (.vote 0 t)]) 3 (.vote 0 t) (.relayerVoted 0 0 3)
    (fun w => w.br.votes.get (0, t)) (some ⟨[2, 3], 11, false⟩) := ⟨rfl, rfl⟩

/-- `vote_for_proposal_existing_and_reach_threshold` -/
example : Good (with_ 1) 2 (.vote 0 t) (.proposalApproved 0 0)
    (fun w => (w.br.votes.get (0, t), free 4 w, w.bal.issuance))
    (some ⟨[2], 11, true⟩, 100000100, 400000100) := ⟨rfl, rfl⟩

/-- `must_be_relayer` -/
example : Bad [] 5 (.vote 0 t) "MustBeRelayer" := rfl

/-- `chain_not_allowed` -/
example : Bad (with_ 3) 2 (.vote 1 t) "ChainNotAllowed" := rfl

/-- `proposal_already_completed` -/
example : Bad (with_ 1 ++ [by_ 2 (.vote 0 t)]) 3 (.vote 0 t) "ProposalAlreadyCompleted" := rfl

/-- `proposal_expired` -/
example : Bad (with_ 3 ++ [by_ 2 (.vote 0 t), .poke fun w => { w with now := w.now + c.proposalLife + 1 }]) 3
    (.vote 0 t) "ProposalExpired" := rfl

/-- `relayer_already_voted` -/
example : Bad (with_ 3 ++ [by_ 2 (.vote 0 t)]) 2 (.vote 0 t) "RelayerAlreadyVoted" := rfl

/-! `mod deposit` -/

/-- `deposit`.  The collector of the mock is an account; in the model fees are counted in `collected`. -/
example : Good (with_ 3) 2 (.deposit 100 [0] 0) (.depositMade 0 1 100 [0])
    (fun w => (w.br.nonces.get 0, free 2 w, w.bal.issuance, w.bal.collected))
    (some 1, 99999899, 399999900, 1) := ⟨rfl, rfl⟩

/-- `chain_not_allowed` -/
example : Bad [] 2 (.deposit 10 [0] 0) "ChainNotAllowed" := rfl

/-- `insufficient_balance` -/
example : Bad (with_ 3) 2 (.deposit 200000000 [0] 0) "InsufficientBalance" := rfl

/-! `mod set_bridge_fee` -/

/-- `set_bridge_fee` -/
example : GoodRoot (with_ 3) (.setFee 100) (.feeUpdated 100) (fun w => w.br.fee) 100 := ⟨rfl, rfl⟩

/-- `set_bridge_fee_bad_origin` -/
example : NotRoot (.setFee 100) := rfl

/-! types.rs, `mod proposal` -/

/-- `try_to_complete_approved` -/
example : BrM.complete 1 ⟨[2], 10, false⟩ = (⟨[2], 10, true⟩, true) := rfl

/-- `try_to_complete_bad_threshold` -/
example : BrM.complete 3 ⟨[2, 3], 10, false⟩ = (⟨[2, 3], 10, false⟩, false) := rfl

/-! staking-rewards, `mod set_session_extra_reward_payout` -/

/-- `set_session_extra_reward_payout` -/
example : GoodRoot [] (.setExtra 100) (.extraChanged 100) (fun w => (w.rew.acc, w.rew.extra)) (0, 100) := ⟨rfl, rfl⟩

/-- `bad_origin` -/
example : NotRoot (.setExtra 100) := rfl

end Conform.Bridge
