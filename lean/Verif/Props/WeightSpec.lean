import Verif.Model.Step
/-
What changes in storage.  Refers to the records of the model's state only.
-/
namespace Spec

/-- The storage items that block hooks write. -/
inductive Slot where
  | account (a : AccountId)
  | issuance
  | nft (n : NFTId)
  | auction (n : NFTId)
  | claim (a : AccountId)
  | deadlines
  | contract (n : NFTId)
  | rentQueues
  | transmission (n : NFTId)
  | transmissionQueue
  | report (e : Era) (a : AccountId)
  | claimed (e : Era) (a : AccountId)
  /-- everything else -/
  | other
deriving DecidableEq

/-- everything but the items above, in a form that can be compared -/
def others (w : World) : Block × Option Era × Bal × NftSt × MktSt × AucSt × RentSt × TrSt × TeeSt × BrSt × RewSt :=
  (w.now, w.active, { w.bal with free := .empty, issuance := 0 }, w.nft, w.mkt,
    { w.auc with auctions := .empty, claims := .empty, deadlines := [] },
    { w.rent with contracts := .empty, fixedQ := [], subQ := [], availQ := [] },
    { w.tr with trans := .empty, queue := [] },
    { w.tee with reports := .empty, claimed := .empty }, w.br, w.rew)

/-- a storage item holds something else than before -/
def Changed (w w' : World) : Slot → Prop
  | .account a => w'.bal.freeOf a ≠ w.bal.freeOf a
  | .issuance => w'.bal.issuance ≠ w.bal.issuance
  | .nft n => w'.nfts.get n ≠ w.nfts.get n
  | .auction n => w'.auc.auctions.get n ≠ w.auc.auctions.get n
  | .claim a => w'.auc.claims.get a ≠ w.auc.claims.get a
  | .deadlines => w'.auc.deadlines ≠ w.auc.deadlines
  | .contract n => w'.rent.contracts.get n ≠ w.rent.contracts.get n
  | .rentQueues => w'.rent.fixedQ ≠ w.rent.fixedQ ∨ w'.rent.subQ ≠ w.rent.subQ ∨ w'.rent.availQ ≠ w.rent.availQ
  | .transmission n => w'.tr.trans.get n ≠ w.tr.trans.get n
  | .transmissionQueue => w'.tr.queue ≠ w.tr.queue
  | .report e a => w'.tee.reports.get (e, a) ≠ w.tee.reports.get (e, a)
  | .claimed e a => w'.tee.claimed.get (e, a) ≠ w.tee.claimed.get (e, a)
  | .other => others w' ≠ others w

/-- at most `k` storage items have changed -/
def AtMost (k : Nat) (w w' : World) : Prop := ∃ l : List Slot, l.length ≤ k ∧ ∀ s, Changed w w' s → s ∈ l

/-- more than `k` storage items have changed -/
def MoreThan (k : Nat) (w w' : World) : Prop := ∃ l : List Slot, l.Nodup ∧ k < l.length ∧ ∀ s ∈ l, Changed w w' s

end Spec
