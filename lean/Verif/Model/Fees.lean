import Verif.Model.Step
/-
Which calls are free of transaction fees.
-/

/-- Calls that return `Pays::No` when they succeed: nft/src/lib.rs 1016 (`add_secret_shard`) and 1262
(`add_capsule_shard`), mandate/src/lib.rs 73 (`mandate`).  All other dispatchables return `Ok(())` or `Ok(().into())`, which
means `Pays::Yes`, and so does every error (errors are raised without post-dispatch information).  No `#[pallet::weight]`
attribute in /repo mentions `Pays`.  The amount of the fee is left open here, see `Op.txFee`. -/
def Call.free : Call → Bool
  | .nft (.addSecretShard _) => true
  | .nft (.addCapsuleShard _) => true
  | .mandate _ => true
  | _ => false
