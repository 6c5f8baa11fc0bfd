import Verif.Model.Step
/-
What C149 speaks of: what a rentee has to pay next.
-/
namespace Spec

/-- what `r` pays per period for the rental of NFT `n` -/
def owes (w : World) (r : AccountId) (n : NFTId) : Balance :=
  match w.rent.contracts.get n with
  | some k => if k.rentee = some r then (match k.rentFee with | .tokens v => v | .nft _ => 0) else 0
  | none => 0

/-- what `r` has to pay for all subscriptions of which a period is over -/
def owing (w : World) (r : AccountId) : Balance :=
  (w.rent.subQ.map fun e => if e.2 ≤ w.now then owes w r e.1 else 0).sum

/-- `r` can pay all of it, and the renter of `k`, if they have no account, gets at least an existential deposit -/
def Solvent (c : Cfg) (w : World) (r : AccountId) (k : Contract) : Prop :=
  owing w r + max c.ed (w.bal.frozen r) ≤ w.bal.freeOf r ∧
    ∀ v, k.rentFee = .tokens v → v = 0 ∨ c.ed ≤ w.bal.freeOf k.renter + v

/-- the rental `k` of NFT `n` by `r` from block `s` as a subscription `u` that the renter can neither revoke nor change -/
structure Firm (w : World) (n : NFTId) (k : Contract) (r : AccountId) (s : Block) (u : Subscription) : Prop where
  there : w.rent.contracts.get n = some k
  rentee : k.rentee = some r
  start : k.start = some s
  sub : k.duration = .sub u
  revoke : k.renterCanRevoke = false
  change : u.changeable = false
  terms : u.newTerms = false

end Spec
