import Mathlib.Algebra.BigOperators.Group.Finset.Basic
import Verif.Props.Bridge
/-
Specification for C156: several chains joined by bridges.
-/

namespace Spec

/-- Chains that run the pallets, each with a configuration and a genesis, and how they write accounts of each other. -/
structure Network (ι : Type) where
  cfg : ι → Cfg
  start : ι → World
  /-- the account that the bytes of a deposit's recipient stand for -/
  read : Data → AccountId

variable {ι : Type} [DecidableEq ι]

/-- what happens on chain `i` in a history of the network: operations of all chains in any order -/
def share (i : ι) (l : List (ι × Op)) : List Op := l.filterMap fun x => if x.1 = i then some x.2 else none

namespace Network
variable (N : Network ι)

/-- chain `i` after the history -/
def after (l : List (ι × Op)) (i : ι) : World := run (N.cfg i) (N.start i) (share i l)

/-- Chain `i`, which has the id `k`, has announced a deposit that chain `j` owes the transfer `t` for. -/
def Owed (l : List (ι × Op)) (j : ι) (k : ChainId) (t : Transfer) : Prop :=
  ∃ i r, (N.cfg i).chain = k ∧ .deposited (N.cfg j).chain t.nonce r t.amount ∈ (N.after l i).evs ∧ N.read r = t.recipient

/-- Account `v` votes on chain `j` only for transfers that are owed. -/
def Honest (l : List (ι × Op)) (j : ι) (v : AccountId) : Prop :=
  ∀ l1 l2 k t, l = l1 ++ (j, .call (.signed v) (.br (.vote k t))) :: l2 → N.Owed l1 j k t

/-- Every chain starts with a genesis, no operation is signed by a pallet account, and the ids of the chains differ. -/
structure Proper (l : List (ι × Op)) : Prop where
  genesis : ∀ i, Genesis (N.cfg i) (N.start i)
  keys : ∀ x ∈ l, x.2.Ok (N.cfg x.1)
  ids : ∀ i j, (N.cfg i).chain = (N.cfg j).chain → i = j

/-- On every chain, at all times, fewer accounts than votes are needed are dishonest. -/
def Trusted (l : List (ι × Op)) : Prop :=
  ∀ j, ∃ D : List AccountId, (∀ v, v ∉ D → N.Honest l j v) ∧ ∀ l1, l1 <+: l → D.length < (N.after l1 j).br.threshold

end Network

/-- the transfers that have been approved, with the ids of the chains they come from -/
def approvals (l : List Ev) : List (ChainId × Transfer) :=
  l.filterMap fun | .approved k t => some (k, t) | _ => none

/-- the deposits that have been announced: destination, nonce, recipient and amount -/
def announced (l : List Ev) : List (ChainId × Nat × Data × Balance) :=
  l.filterMap fun | .deposited k n r v => some (k, n, r, v) | _ => none

/-- the tokens paid out for approved transfers, and those given for deposits -/
def released (l : List Ev) : Balance := ((approvals l).map (·.2.amount)).sum
def handedIn (l : List Ev) : Balance := ((announced l).map (·.2.2.2)).sum

/-- what pallets outside mint: staking rewards -/
def outside (l : List Op) : Balance := (l.map fun | .mint _ v => v | _ => 0).sum

end Spec
