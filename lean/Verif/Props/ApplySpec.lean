import Verif.Model.Step
/-
Rental offers: the words used to say that their order does not matter.
-/
namespace Spec

/-- the accounts of `l` offer, one after the other, to rent NFT `n` under the contract created at block `creation` -/
def applying (n : NFTId) (creation : Block) (l : List AccountId) : List Op :=
  l.map fun a => .call (.signed a) (.rent (.makeOffer n creation))

/-- `a`'s offer would be accepted now -/
def mayApply (c : Cfg) (w : World) (n : NFTId) (creation : Block) (a : AccountId) : Prop :=
  ∃ w', dispatch c (.rent (.makeOffer n creation)) (.signed a) w = .ok w'

/-- the accounts whose offers for NFT `n` are open, oldest first -/
def applicants (w : World) (n : NFTId) : List AccountId := (w.rent.offers.get n).getD []

/-- the chain without its event log -/
def muted (w : World) : World := { w with evs := [] }

end Spec
