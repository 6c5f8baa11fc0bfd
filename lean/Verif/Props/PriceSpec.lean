import Verif.Props.Root
import Verif.Props.CashSpec
/-
What a call may cost, as far as its sender can know.  Refers to the calls' arguments and to the fees governance sets.
-/
namespace Spec

/-- the fee governance asks for a protocol -/
def askedFor (p : Params) : Protocol → Balance
  | .atBlock _ => p.atBlockFee
  | .atBlockWithReset _ => p.atBlockResetFee
  | .onConsent .. => p.onConsentFee
  | .onConsentAtBlock .. => p.onConsentAtBlockFee

/-- The most a call costs its sender `a`, if its own arguments and governance's fees say so. -/
def named (p : Params) (a : AccountId) : Call → Option Balance
  | .nft (.createNft ..) => some p.nftFee
  | .nft (.addSecret ..) => some p.secretFee
  | .nft (.createSecret ..) => some (p.nftFee + p.secretFee)
  | .nft (.toCapsule ..) => some p.capsuleFee
  | .nft (.createCapsule ..) => some (p.nftFee + p.capsuleFee)
  | .mkt (.create _) => some p.marketplaceFee
  | .mkt (.list ..) => none
  | .mkt (.buy _ price) => some price
  | .auc (.addBid _ amount) => some amount
  | .auc (.buyItNow _ price) => some price
  | .rent (.create _ _ _ _ _ deposit _) => some (inTokens deposit)
  | .rent (.rent ..) => none
  | .rent (.acceptOffer _ r) => if r = a then none else some 0
  | .tr (.set _ _ q _) => some (askedFor p q)
  | .br (.deposit amount _ _) => some (amount + p.bridgeFee)
  | .bal _ amount _ => some amount
  | _ => some 0

/-- calls that may empty their sender's account -/
def mayEmpty : Call → Prop
  | .br (.deposit ..) => True
  | .bal _ _ .allowDeath => True
  | _ => False

/-- what a listing costs on a marketplace -/
def listingCost (k : Mkt) (price : Balance) : Balance := charge price k.listing

/-- what a contract costs a rentee to start -/
def startCost (k : Contract) : Balance := rentInTokens k.rentFee + inTokens k.renteeFee

/-- terms that their owner cannot change while the contract stands -/
def firm (k : Contract) : Prop := ∀ s, k.duration = .sub s → s.changeable = false

end Spec
