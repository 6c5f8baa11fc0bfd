import Verif.Model.Types
/-
`pallet_balances` (polkadot-v0.9.42) as the pallets use it through `Currency`.
This is a dependency, not part of /repo: the definitions below are part of the trusted base.
Simplifications: no reserved/held balance, no consumer references other than locks.
-/

/-- Balances storage.  `free` has no entry for empty accounts.  `tee` is the lock with
`TEE_STAKING_ID`, `other` the largest lock placed by pallets outside /repo.  `collected` is what
`FeesCollector` received; `issuance` is the total issuance. -/
structure Bal where
  free : FMap AccountId Balance
  tee : FMap AccountId Balance
  other : FMap AccountId Balance
  issuance : Balance
  collected : Balance

/-- `ExistenceRequirement` -/
inductive Live where
  | keepAlive
  | allowDeath
deriving DecidableEq

namespace Bal

/-- `free_balance` -/
def freeOf (b : Bal) (a : AccountId) : Balance := (b.free.get a).getD 0

/-- the frozen amount: locks overlap, so it is their maximum -/
def frozen (b : Bal) (a : AccountId) : Balance :=
  max ((b.tee.get a).getD 0) ((b.other.get a).getD 0)

/-- write a free balance -/
def setFree (b : Bal) (a : AccountId) (x : Balance) : Bal :=
  { b with free := if x = 0 then b.free.erase a else b.free.insert a x }

/-- write `x` as new free balance; below the existential deposit the account dies and `x` is
dust, which is burned -/
def settle (ed : Balance) (b : Bal) (a : AccountId) (x : Balance) : Bal :=
  if x < ed then { b.setFree a 0 with issuance := b.issuance - x } else b.setFree a x

/-- may `a` be left with free balance `x` after giving something away? -/
def canLeave (ed : Balance) (b : Bal) (a : AccountId) (x : Balance) (l : Live) : Prop :=
  b.frozen a ≤ x ∧ (x < ed → l = .allowDeath ∧ b.frozen a = 0)

instance (ed : Balance) (b : Bal) (a : AccountId) (x : Balance) (l : Live) :
    Decidable (canLeave ed b a x l) := by unfold canLeave; infer_instance

/-- `Currency::transfer` -/
def transfer (ed : Balance) (b : Bal) (src dst : AccountId) (v : Balance) (l : Live) :
    Except Err Bal :=
  if v = 0 ∨ src = dst then .ok b else do
    require (v ≤ b.freeOf src) "InsufficientBalance"
    require (canLeave ed b src (b.freeOf src - v) l) "LiquidityRestrictions/KeepAlive"
    require (ed ≤ b.freeOf dst + v) "ExistentialDeposit"
    pure ((b.settle ed src (b.freeOf src - v)).setFree dst (b.freeOf dst + v))

/-- `Currency::withdraw` followed by dropping or forwarding the negative imbalance: the amount has
left the account and is still part of `issuance` -/
def withdraw (ed : Balance) (b : Bal) (a : AccountId) (v : Balance) (l : Live) : Except Err Bal :=
  if v = 0 then .ok b else do
    require (v ≤ b.freeOf a) "InsufficientBalance"
    require (canLeave ed b a (b.freeOf a - v) l) "LiquidityRestrictions/KeepAlive"
    pure (b.settle ed a (b.freeOf a - v))

/-- `T::FeesCollector::on_unbalanced(imbalance)` -/
def collect (b : Bal) (v : Balance) : Bal := { b with collected := b.collected + v }

/-- dropping a `NegativeImbalance` lowers the issuance -/
def burn (b : Bal) (v : Balance) : Bal := { b with issuance := b.issuance - v }

/-- withdraw a fee and hand it to the collector -/
def payFee (ed : Balance) (b : Bal) (a : AccountId) (v : Balance) : Except Err Bal := do
  let b ← b.withdraw ed a v .keepAlive
  pure (b.collect v)

/-- `Currency::issue(v)` then `resolve_creating(a, _)`: issuance saturates at `u128::MAX`; a deposit
below the existential deposit into an empty account is lost again -/
def mint (ed : Balance) (b : Bal) (a : AccountId) (v : Balance) : Bal :=
  let v := min v (U128MAX - b.issuance)
  if v = 0 ∨ (b.freeOf a = 0 ∧ v < ed) then b
  else { b.setFree a (b.freeOf a + v) with issuance := b.issuance + v }

/-- `ensure_can_withdraw(who, amount, _, new_balance)` -/
def ensureCanWithdraw (b : Bal) (a : AccountId) (amount new : Balance) : Prop :=
  amount = 0 ∨ b.frozen a ≤ new

instance (b : Bal) (a : AccountId) (x y : Balance) : Decidable (ensureCanWithdraw b a x y) := by
  unfold ensureCanWithdraw; infer_instance

/-- `balance_check` (nft/src/lib.rs 1456-1465, rent/src/lib.rs 1020-1029) -/
def balanceCheck (b : Bal) (a : AccountId) (amount : Balance) : Prop :=
  amount ≤ b.freeOf a ∧ ensureCanWithdraw b a amount (b.freeOf a - amount)

instance (b : Bal) (a : AccountId) (x : Balance) : Decidable (balanceCheck b a x) := by
  unfold balanceCheck; infer_instance

/-- `set_lock(TEE_STAKING_ID, who, amount, _)`: overwrites; an amount of zero is ignored by
`set_lock` -/
def setLock (b : Bal) (a : AccountId) (v : Balance) : Bal :=
  if v = 0 then b else { b with tee := b.tee.insert a v }

/-- `remove_lock(TEE_STAKING_ID, who)` -/
def removeLock (b : Bal) (a : AccountId) : Bal := { b with tee := b.tee.erase a }

end Bal
