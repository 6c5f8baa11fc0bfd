import Verif.Props.BidderSpec
import Verif.Props.CashSpec
/-
What events tell about the tokens that the parties of rentals deposit.  Refers to the model's records and events, not to its
calls or hooks.
-/
namespace Spec

/-- the deposits of `y` in a contract -/
def pledge (y : AccountId) (k : Contract) : Balance :=
  (if k.renter = y then inTokens k.renterFee else 0) + (if k.rentee = some y then inTokens k.renteeFee else 0)

/-- the deposits of `y` in all contracts -/
def pledges (w : World) (y : AccountId) : Balance := w.rent.contracts.sumBy fun _ k => pledge y k

/-- what `y` forfeits by revoking contract `k` at block `now`: their deposit less what they have earned back -/
def forfeit (k : Contract) (y : AccountId) (now : Block) : Balance :=
  let own := if k.renter = y then k.renterFee else k.renteeFee
  inTokens own - earned k now own

/-- what `y` deposits: the renter when offering a contract, the rentee when renting -/
def putsDown (y : AccountId) (_ : Block) (v : View) : Event → Balance
  | .contractCreated _ a _ _ _ _ x _ => if a = y then inTokens x else 0
  | .contractStarted n a => if a = y then (v.contract n).elim 0 fun k => inTokens k.renteeFee else 0
  | _ => 0

/-- what `y` forfeits, by revoking contracts -/
def forfeits (y : AccountId) (now : Block) (v : View) : Event → Balance
  | .contractRevoked n a => if a = y then (v.contract n).elim 0 fun k => forfeit k y now else 0
  | _ => 0

/-- what `y` gets back of their own deposits: all of it when a contract ends, expires, is cancelled or revoked by the other
party, and what is not forfeited when they revoke it themselves -/
def recovers (y : AccountId) (now : Block) (v : View) : Event → Balance
  | .contractCanceled n | .contractEnded n | .contractExpired n => (v.contract n).elim 0 (pledge y)
  | .contractRevoked n a => (v.contract n).elim 0 fun k => pledge y k - if a = y then forfeit k y now else 0
  | _ => 0

/-- what `y` gets of the other party's deposit when that party revokes -/
def compensation (y : AccountId) (now : Block) (v : View) : Event → Balance
  | .contractRevoked n a => (v.contract n).elim 0 fun k =>
      if (if k.renter = a then k.rentee else some k.renter) = some y then forfeit k a now else 0
  | _ => 0

/-- what the rent pallet's account pays to `y` -/
def potPays (pot y : AccountId) (l : List Payment) : Balance :=
  ((l.filter fun p => p.payer = pot ∧ p.payee = some y).map (·.amount)).sum

end Spec
