import Verif.Props.ObserverSpec
import Verif.Props.LockSpec
/-
What "as before" means in C93: all that the chain stores, except balances, the counters of the next ids, and the commission
an auction took over, which stays in storage.
-/
namespace Spec

/-- everything stored is what it was -/
structure AsBefore (w w' : World) : Prop where
  books : truth w' = truth w
  /-- with the list of members -/
  colls : ∀ k, w'.nft.colls.get k = w.nft.colls.get k
  secretShards : ∀ n, w'.nft.secretShards.get n = w.nft.secretShards.get n
  capsuleShards : ∀ n, w'.nft.capsuleShards.get n = w.nft.capsuleShards.get n
  /-- what is scheduled, in the same order -/
  queues : w'.auc.deadlines = w.auc.deadlines ∧ w'.rent.fixedQ = w.rent.fixedQ ∧ w'.rent.subQ = w.rent.subQ ∧
    w'.rent.availQ = w.rent.availQ ∧ w'.tr.queue = w.tr.queue
  nftFees : w'.nft.fee = w.nft.fee ∧ w'.nft.secretFee = w.nft.secretFee ∧ w'.nft.capsuleFee = w.nft.capsuleFee
  mktFee : w'.mkt.fee = w.mkt.fee
  trFees : w'.tr.feeAt = w.tr.feeAt ∧ w'.tr.feeReset = w.tr.feeReset ∧ w'.tr.feeConsent = w.tr.feeConsent ∧
    w'.tr.feeConsentAt = w.tr.feeConsentAt
  rest : w'.tee = w.tee ∧ w'.br = w.br ∧ w'.rew = w.rew ∧ w'.now = w.now ∧ w'.active = w.active

/-- everybody has what they had -/
def SameMoney (b b' : Bal) : Prop := ∀ a, b'.freeOf a = b.freeOf a ∧ Spec.locked b' a = Spec.locked b a

end Spec
