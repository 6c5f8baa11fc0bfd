import Verif.Model.World
/-
Model of /repo/rent/src/lib.rs and /repo/rent/src/types.rs.
Simplification: block arithmetic is exact (`u32` overflow of `now + duration` is not modelled).
-/

/-- A computation whose effects stay when it fails: code running in a block hook. -/
abbrev Act := World → World × Except Err Unit

namespace Act

/-- run `a`, then, unless it failed, `b` -/
def seq (a b : Act) : Act := fun w =>
  match a w with
  | (w', .ok ()) => b w'
  | (w', .error e) => (w', .error e)

/-- inside an extrinsic a failure discards all effects -/
def ext (a : Act) (w : World) : Except Err World :=
  match a w with
  | (w', .ok ()) => .ok w'
  | (_, .error e) => .error e

/-- no effect -/
def skip : Act := fun w => (w, .ok ())

end Act

namespace RentM
variable (c : Cfg)

/-- `get_full_duration`, rent/src/types.rs 96-101 -/
def full : Duration → Block
  | .fixed d => d
  | .sub s => s.maxDur

/-- `get_duration_or_period`, rent/src/types.rs 103-108 -/
def period : Duration → Block
  | .fixed d => d
  | .sub s => s.period

/-- `terms_changed`, rent/src/types.rs 117-122 -/
def termsChanged : Duration → Bool
  | .fixed _ => false
  | .sub s => s.newTerms

/-- `to_duration`, rent/src/types.rs 43-53 -/
def toDuration (limit : Block) : DurationInput → Duration
  | .fixed d => .fixed d
  | .sub p m ch => .sub { period := p, maxDur := m.getD limit, changeable := ch, newTerms := false }

/-- `get_allow_list`, rent/src/types.rs 142-147 -/
def allowList : Acceptance → Option (List AccountId)
  | .auto l => l
  | .manual l => l

/-- `is_manual_acceptance`, rent/src/types.rs 305-310 -/
def isManual : Acceptance → Bool
  | .auto _ => false
  | .manual _ => true

/-- `RentFee::get_balance().unwrap_or(0)`, rent/src/types.rs 164-169 -/
def rentTokens : RentFee → Balance
  | .tokens x => x
  | .nft _ => 0

/-- `RentFee::get_nft`, rent/src/types.rs 171-176 -/
def rentNft : RentFee → Option NFTId
  | .tokens _ => none
  | .nft n => some n

/-- `CancellationFee::get_balance().unwrap_or(0)`, rent/src/types.rs 195-200 -/
def feeTokens : CancelFee → Balance
  | .fixed x => x
  | .flexible x => x
  | _ => 0

/-- `CancellationFee::get_nft`, rent/src/types.rs 202-207 -/
def feeNft : CancelFee → Option NFTId
  | .nft n => some n
  | _ => none

/-- `as_flexible`, rent/src/types.rs 209-214 -/
def flexible : CancelFee → Option Balance
  | .flexible x => some x
  | _ => none

/-- `allows_rent_fee`, rent/src/types.rs 72-78 -/
def allowsRent : Duration → RentFee → Bool
  | .sub _, .nft _ => false
  | _, _ => true

/-- `allows_cancellation`, rent/src/types.rs 80-89 -/
def allowsCancel : Duration → CancelFee → Bool
  | .sub _, .flexible _ => false
  | _, _ => true

/-- `not_in_state(&Self::invalid_state())`, rent/src/lib.rs 1084-1086 -/
def valid (s : NFTState) : Bool :=
  !s.listed && !s.delegated && !s.soulbound && !s.syncSecret && !s.rented && !s.syncCapsule
    && !s.transmission

/-- `has_ended`, rent/src/types.rs 285-298 -/
def hasEnded (k : Contract) (now : Block) : Bool :=
  match k.start with
  | none => false
  | some s => decide (s ≤ now) && decide (full k.duration ≤ now - s)

/-- `percentage_of_completion`, rent/src/types.rs 312-321: panics without start block and on a zero
duration; `now - start` is assumed not to underflow (it would in a release build wrap; treated as a
panic here). -/
def completion (k : Contract) (now : Block) : Except Err Permill := do
  let s ← expectSome k.start "qed"
  let _ ← expectSome (if s ≤ now then some () else none) "attempt to subtract with overflow"
  let _ ← expectSome (if full k.duration ≠ 0 then some () else none) "attempt to divide by zero"
  pure (Permill.fromPercent (min ((now - s) * 100) U32MAX / full k.duration))

/-- the three queues of `RentingQueues` and `remove`, rent/src/types.rs 407-478: remove from the
queue belonging to the duration's kind -/
def removeKind (r : RentSt) (d : Duration) (n : NFTId) : RentSt :=
  match d with
  | .fixed _ => { r with fixedQ := r.fixedQ.remove n }
  | .sub _ => { r with subQ := r.subQ.remove n }

/-- `queues.insert(nft_id, block, duration.queue_kind())` -/
def insertKind (r : RentSt) (d : Duration) (n : NFTId) (b : Block) : Option RentSt :=
  match d with
  | .fixed _ => (Queue.insert c.rentLimit r.fixedQ n b).map fun q => { r with fixedQ := q }
  | .sub _ => (Queue.insert c.rentLimit r.subQ n b).map fun q => { r with subQ := q }

/-- `T::Currency::transfer(..)?` -/
def payAct (src dst : AccountId) (v : Balance) (l : Live) : Act := fun w =>
  match w.bal.transfer c.ed src dst v l with
  | .ok b => (w.putBal b, .ok ())
  | .error e => (w, .error e)

/-- `change_nft_ownership`, rent/src/lib.rs 919-925 -/
def chownAct (n : NFTId) (a : AccountId) : Act := fun w =>
  match w.nfts.get n with
  | some d => (w.putNft n { d with owner := a }, .ok ())
  | none => (w, .error (.e "NFTNotFound"))

/-- ownership change of an optional NFT -/
def chownOpt (n : Option NFTId) (a : AccountId) : Act :=
  match n with
  | some n => chownAct n a
  | none => Act.skip

/-- `handle_finished_or_unused_contract`, rent/src/lib.rs 982-1018.  The contract's NFT is read
first and written back last (`mutate_nft`), so an ownership change of the same NFT in between is
overwritten. -/
def handleFinished (n : NFTId) : Act := fun w =>
  match w.rent.contracts.get n with
  | none => (w, .error (.e "ContractNotFound"))
  | some k =>
    match w.nfts.get n with
    | none => (w, .error (.e "NFTNotFound"))
    | some d =>
      ((payAct c c.rentPot k.renter (feeTokens k.renterFee) .allowDeath).seq <|
        (match k.rentee with
          | some r => payAct c c.rentPot r (feeTokens k.renteeFee) .allowDeath
          | none => Act.skip).seq <|
        (chownOpt (feeNft k.renterFee) k.renter).seq <|
        (match k.rentee with
          | some r => chownOpt (feeNft k.renteeFee) r
          | none => Act.skip).seq <|
        fun w =>
          let w := w.putNft n { d with st := { d.st with rented := false } }
          ({ w with rent := { w.rent with contracts := w.rent.contracts.erase n } }, .ok ())) w

/-- `return_cancellation_fee`, rent/src/lib.rs 942-954 -/
def returnFee (f : CancelFee) (dst : AccountId) : Act :=
  (payAct c c.rentPot dst (feeTokens f) .allowDeath).seq (chownOpt (feeNft f) dst)

/-- `return_flexible_fee`, rent/src/lib.rs 927-940 -/
def returnFlexible (offender damaged : AccountId) (p : Permill) (amount : Balance) : Act :=
  (payAct c c.rentPot offender (p.mul amount) .allowDeath).seq
    (payAct c c.rentPot damaged (amount - p.mul amount) .allowDeath)

/-- optional deposit of the renter's cancellation NFT, rent/src/lib.rs 433-443 -/
def depositRenterNft (w : World) (who : AccountId) : Option NFTId → Except Err World
  | none => pure w
  | some id => do
    let x ← getOr (w.nfts.get id) "CancellationNFTNotFound"
    require (x.owner = who) "CallerDoesNotOwnCancellationNFT"
    require (valid x.st = true) "CancellationNFTNotInValidState"
    pure (w.putNft id { x with owner := c.rentPot })

/-- `create_contract`, rent/src/lib.rs 355-479 -/
def create (w : World) (who : AccountId) (n : NFTId) (dur : DurationInput) (acc : Acceptance)
    (revoke : Bool) (rentFee : RentFee) (renterFee renteeFee : CancelFee) : Except Err World := do
  require (w.rent.fixedQ.length + w.rent.subQ.length + w.rent.availQ.length + 1 ≤ c.rentLimit)
    "MaxSimultaneousContractReached"
  let d ← getOr (w.nfts.get n) "NFTNotFound"
  require (d.owner = who) "NotTheNFTOwner"
  require (valid d.st = true) "ContractNFTNotInAValidState"
  let du := toDuration c.rentMaxDur dur
  require (full du ≤ c.rentMaxDur) "DurationExceedsMaximumLimit"
  require (0 < full du) "DurationInvalid"
  require (period du ≤ c.rentMaxDur) "DurationExceedsMaximumLimit"
  require (0 < period du) "DurationInvalid"
  require (allowsRent du rentFee = true) "DurationAndRentFeeMismatch"
  require (allowsCancel du renterFee = true) "DurationAndCancellationFeeMismatch"
  require (allowsCancel du renteeFee = true) "DurationAndCancellationFeeMismatch"
  require (∀ id ∈ rentNft rentFee, (w.nfts.get id).isSome) "RentNFTNotFound"
  require (∀ id ∈ feeNft renteeFee, (w.nfts.get id).isSome) "CancellationNFTNotFound"
  require (feeTokens renterFee = 0 ∨ c.ed < feeTokens renterFee) "AmountTooLow"
  require (feeTokens renteeFee = 0 ∨ c.ed < feeTokens renteeFee) "AmountTooLow"
  let b ← mapErr (fun _ => "NotEnoughFundsForCancellationFee")
    (w.bal.transfer c.ed who c.rentPot (feeTokens renterFee) .keepAlive)
  let w := w.putBal b
  let w ← depositRenterNft c w who (feeNft renterFee)
  let q ← getOr (Queue.insert c.rentLimit w.rent.availQ n (w.now + c.rentAvail))
    "MaxSimultaneousContractReached"
  let w := w.putNft n { d with st := { d.st with rented := true } }
  let w := { w with rent := { w.rent with
    availQ := q
    contracts := w.rent.contracts.insert n
      { start := none, renter := who, rentee := none, duration := du, acceptance := acc,
        renterCanRevoke := revoke, rentFee := rentFee, renterFee := renterFee,
        renteeFee := renteeFee, creation := w.now } } }
  pure (w.ev (.contractCreated n w.now))

/-- `cancel_contract`, rent/src/lib.rs 484-509 -/
def cancel (w : World) (who : AccountId) (n : NFTId) : Except Err World := do
  let k ← getOr (w.rent.contracts.get n) "ContractNotFound"
  require (k.renter = who) "NotTheContractOwner"
  require (k.rentee = none) "CannotCancelRunningContract"
  let w := { w with rent := { w.rent with
    availQ := w.rent.availQ.remove n
    offers := w.rent.offers.erase n } }
  (handleFinished c n).ext w

/-- payment of the revoker's deposit, rent/src/lib.rs 551-556 -/
def penalty (k : Contract) (now : Block) (fee : CancelFee) (who damaged : AccountId) (w : World) :
    Except Err World :=
  match flexible fee with
  | some amount => do
    let p ← completion k now
    (returnFlexible c who damaged p amount).ext w
  | none => (returnFee c fee damaged).ext w

/-- `revoke_contract`, rent/src/lib.rs 514-569 -/
def revoke (w : World) (who : AccountId) (n : NFTId) : Except Err World := do
  let k ← getOr (w.rent.contracts.get n) "ContractNotFound"
  let rentee ← getOr k.rentee "CannotRevokeNonRunningContract"
  require (k.renter = who ∨ rentee = who) "NotAContractParticipant"
  require (k.renter = who → k.renterCanRevoke = true) "ContractCannotBeCanceledByRenter"
  let damaged := if k.renter = who then rentee else k.renter
  let own := if k.renter = who then k.renteeFee else k.renterFee
  let price := if k.renter = who then k.renterFee else k.renteeFee
  let w ← (returnFee c own damaged).ext w
  let w ← penalty c k w.now price who damaged w
  let d ← getOr (w.nfts.get n) "NFTNotFound"
  let w := w.putNft n { d with st := { d.st with rented := false } }
  let r := removeKind w.rent k.duration n
  pure { w with rent := { r with contracts := r.contracts.erase n } }

/-- check of an optional NFT the rentee has to give, rent/src/lib.rs 1051-1069; each use has its own error names -/
def checkNft (w : World) (who : AccountId) : Option NFTId → Except Err Unit
  | none => pure ()
  | some id => do
    let x ← getOr (w.nfts.get id) "NotFound"
    require (x.owner = who) "NotOwned"
    require (valid x.st = true) "NotInValidState"

/-- the errors of the three checks -/
def nftErrs (notFound notOwned notValid : String) : String → String
  | "NotFound" => notFound
  | "NotOwned" => notOwned
  | _ => notValid

/-- `take_rent_and_cancellation_fee`, rent/src/lib.rs 1031-1082 -/
def takeFees (w : World) (rentee : AccountId) (k : Contract) : Except Err World := do
  let b ← mapErr (fun _ => "NotEnoughFundsForRentFee")
    (w.bal.transfer c.ed rentee k.renter (rentTokens k.rentFee) .keepAlive)
  let b ← mapErr (fun _ => "NotEnoughFundsForCancellationFee")
    (b.transfer c.ed rentee c.rentPot (feeTokens k.renteeFee) .keepAlive)
  let w := w.putBal b
  mapErr (nftErrs "RentNFTNotFound" "RenteeDoesNotOwnTheRentNFT" "RentNFTNotInValidState")
    (checkNft w rentee (rentNft k.rentFee))
  mapErr (nftErrs "CancellationNFTNotFound" "RenteeDoesNotOwnTheCancellationNFT" "CancellationNFTNotInValidState")
    (checkNft w rentee (feeNft k.renteeFee))
  let w ← (chownOpt (rentNft k.rentFee) k.renter).ext w
  (chownOpt (feeNft k.renteeFee) c.rentPot).ext w

/-- the common tail of `rent` and `accept_rent_offer`, rent/src/lib.rs 603-623 and 746-764 -/
def startContract (w : World) (n : NFTId) (k : Contract) (rentee : AccountId) :
    Except Err World := do
  let w ← takeFees c w rentee k
  let r := { w.rent with availQ := w.rent.availQ.remove n }
  let r ← getOr (insertKind c r k.duration n (w.now + period k.duration))
    "MaxSimultaneousContractReached"
  pure { w with rent := { r with
    offers := r.offers.erase n
    contracts := r.contracts.insert n { k with rentee := some rentee, start := some w.now } } }

/-- is `who` admitted by the optional allow list? -/
def admitted (a : Acceptance) (who : AccountId) : Prop := ∀ l ∈ allowList a, who ∈ l

instance (a : Acceptance) (who : AccountId) : Decidable (admitted a who) := by
  unfold admitted; infer_instance

/-- `rent`, rent/src/lib.rs 574-632 -/
def rent (w : World) (who : AccountId) (n : NFTId) (creation : Block) : Except Err World := do
  let k ← getOr (w.rent.contracts.get n) "ContractNotFound"
  require (k.creation = creation) "ContractDoesNotMatch"
  require (k.rentee = none) "CannotRentStartedContract"
  require (k.renter ≠ who) "CannotRentOwnContract"
  require (isManual k.acceptance = false) "ContractDoesNotSupportAutomaticRent"
  require (admitted k.acceptance who) "NotWhitelisted"
  startContract c w n k who

/-- `make_rent_offer`, rent/src/lib.rs 637-719 -/
def makeOffer (w : World) (who : AccountId) (n : NFTId) (creation : Block) : Except Err World := do
  let offers := (w.rent.offers.get n).getD []
  require (who ∉ offers) "OfferAlreadyExists"
  let k ← getOr (w.rent.contracts.get n) "ContractNotFound"
  require (k.creation = creation) "ContractDoesNotMatch"
  require (k.start = none) "CannotMakeOfferOnRunningContract"
  require (k.renter ≠ who) "CannotRentOwnContract"
  require (isManual k.acceptance = true) "ContractDoesNotSupportOffers"
  require (admitted k.acceptance who) "NotWhitelisted"
  require (w.bal.balanceCheck who (rentTokens k.rentFee)) "NotEnoughFundsForRentFee"
  require (w.bal.balanceCheck who (feeTokens k.renteeFee)) "NotEnoughFundsForCancellationFee"
  require (w.bal.balanceCheck who ((rentTokens k.rentFee + feeTokens k.renteeFee) % (U128MAX + 1)))
    "NotEnoughFundsForFees"
  mapErr (nftErrs "RentNFTNotFound" "CallerDoesNotOwnRentNFT" "RentNFTNotInValidState")
    (checkNft w who (rentNft k.rentFee))
  mapErr (nftErrs "CancellationNFTNotFound" "CallerDoesNotOwnCancellationNFT" "CancellationNFTNotInValidState")
    (checkNft w who (feeNft k.renteeFee))
  require (offers.length < c.rentAccounts) "MaximumOffersReached"
  let w := { w with rent := { w.rent with offers := w.rent.offers.insert n (offers ++ [who]) } }
  pure (w.ev (.offerMade n who))

/-- `accept_rent_offer`, rent/src/lib.rs 724-772 -/
def acceptOffer (w : World) (who : AccountId) (n : NFTId) (rentee : AccountId) :
    Except Err World := do
  let k ← getOr (w.rent.contracts.get n) "ContractNotFound"
  let offers ← getOr (w.rent.offers.get n) "NoOffersForThisContract"
  require (k.renter = who) "NotTheContractOwner"
  require (rentee ∈ offers) "NoOfferFromThisAddress"
  startContract c w n k rentee

/-- `retract_rent_offer`, rent/src/lib.rs 777-800 -/
def retractOffer (w : World) (who : AccountId) (n : NFTId) : Except Err World := do
  let offers ← getOr (w.rent.offers.get n) "NoOffersForThisContract"
  require (who ∈ offers) "NoOfferFromThisAddress"
  pure { w with rent := { w.rent with offers := w.rent.offers.insert n (offers.erase who) } }

/-- `can_adjust_subscription`, rent/src/types.rs 300-303 -/
def canAdjust : Duration → Bool
  | .sub s => s.changeable
  | .fixed _ => false

/-- `change_subscription_terms`, rent/src/lib.rs 805-861 -/
def changeTerms (w : World) (who : AccountId) (n : NFTId) (fee : Balance) (per : Block)
    (maxDur : Option Block) (changeable : Bool) : Except Err World := do
  let m := maxDur.getD c.rentMaxDur
  let k ← getOr (w.rent.contracts.get n) "ContractNotFound"
  require (who = k.renter) "NotTheContractOwner"
  require (canAdjust k.duration = true) "CannotAdjustSubscriptionTerms"
  require (m ≤ c.rentMaxDur) "DurationExceedsMaximumLimit"
  require (per ≤ c.rentMaxDur) "DurationExceedsMaximumLimit"
  require (0 < m) "DurationInvalid"
  require (0 < per) "DurationInvalid"
  pure { w with rent := { w.rent with
    offers := if k.rentee.isSome then w.rent.offers else w.rent.offers.erase n
    contracts := w.rent.contracts.insert n { k with
      duration := .sub { period := per, maxDur := m, changeable := changeable, newTerms := true }
      rentFee := .tokens fee } } }

/-- `accept_subscription_terms`, rent/src/lib.rs 866-909 -/
def acceptTerms (w : World) (who : AccountId) (n : NFTId) (fee : Balance) (per : Block)
    (maxDur : Option Block) (changeable : Bool) : Except Err World := do
  let k ← getOr (w.rent.contracts.get n) "ContractNotFound"
  let s ← getOr (match k.duration with | .sub s => some s | .fixed _ => none)
    "SubscriptionDataNotFound"
  require (some who = k.rentee) "NotTheContractRentee"
  require (s.newTerms = true) "ContractTermsAlreadyAccepted"
  require (k.rentFee = .tokens fee ∧ s.period = per ∧ (maxDur = none ∨ some s.maxDur = maxDur)
    ∧ s.changeable = changeable) "ContractTermsDoNotMatch"
  pure { w with rent := { w.rent with
    contracts := w.rent.contracts.insert n { k with
      duration := .sub { s with newTerms := false } } } }

/-- Signed dispatchables of the rent pallet. -/
inductive Call where
  | create (n : NFTId) (dur : DurationInput) (acc : Acceptance) (revoke : Bool) (rentFee : RentFee)
      (renterFee renteeFee : CancelFee)
  | cancel (n : NFTId)
  | revoke (n : NFTId)
  | rent (n : NFTId) (creation : Block)
  | makeOffer (n : NFTId) (creation : Block)
  | acceptOffer (n : NFTId) (rentee : AccountId)
  | retractOffer (n : NFTId)
  | changeTerms (n : NFTId) (fee : Balance) (per : Block) (maxDur : Option Block)
      (changeable : Bool)
  | acceptTerms (n : NFTId) (fee : Balance) (per : Block) (maxDur : Option Block)
      (changeable : Bool)

/-- dispatch of the signed calls -/
def call (w : World) (who : AccountId) : Call → Except Err World
  | .create n d a r f x y => create c w who n d a r f x y
  | .cancel n => cancel c w who n
  | .revoke n => revoke c w who n
  | .rent n b => rent c w who n b
  | .makeOffer n b => makeOffer c w who n b
  | .acceptOffer n r => acceptOffer c w who n r
  | .retractOffer n => retractOffer w who n
  | .changeTerms n f p m ch => changeTerms c w who n f p m ch
  | .acceptTerms n f p m ch => acceptTerms w who n f p m ch

/-- `handle_subscription_contract`, rent/src/lib.rs 956-980: the next period's end, or `none` if the
contract is to be finished -/
def handleSub (w : World) (n : NFTId) : World × Option Block :=
  match w.rent.contracts.get n with
  | none => (w, none)
  | some k =>
    match k.rentee, k.rentFee with
    | some r, .tokens fee =>
      if termsChanged k.duration = true ∨ hasEnded k w.now = true then (w, none)
      else
        match w.bal.transfer c.ed r k.renter fee .keepAlive with
        | .error _ => (w, none)
        | .ok b => (w.putBal b, some (w.now + period k.duration))
    | _, _ => (w, none)

/-- The fixed and the available loop of `on_initialize`, rent/src/lib.rs 293-306 and 329-341: pop due
entries and finish them (errors ignored); at least one action, stop once `rentActions` is reached. -/
def finishLoop (w : World) : Queue → Nat → World × Queue × Nat
  | [], k => (w, [], k)
  | (n, b) :: t, k =>
    if b ≤ w.now then
      let w' := (handleFinished c n w).1
      if c.rentActions ≤ k + 1 then (w', t, k + 1) else finishLoop w' t (k + 1)
    else (w, (n, b) :: t, k)

/-- One step of the subscription loop, rent/src/lib.rs 309-318 -/
def subOne (w : World) (n : NFTId) (t : Queue) : World × Queue :=
  match handleSub c w n with
  | (w', some b) => (w', (Queue.insert c.rentLimit t n b).getD t)
  | (w', none) => ((handleFinished c n w').1, t)

/-- The subscription loop, rent/src/lib.rs 308-326.  Entries can be reinserted, so the recursion is on
the number of remaining iterations: the loop stops as soon as `rentActions` actions were done. -/
def subLoop (w : World) (q : Queue) (k : Nat) : Nat → World × Queue × Nat
  | 0 => (w, q, k)
  | fuel + 1 =>
    match q with
    | [] => (w, [], k)
    | (n, b) :: t =>
      if b ≤ w.now then
        let r := subOne c w n t
        if c.rentActions ≤ k + 1 then (r.1, r.2, k + 1) else subLoop r.1 r.2 (k + 1) fuel
      else (w, (n, b) :: t, k)

/-- `on_initialize`, rent/src/lib.rs 284-347.  `max 1 (rentActions - k)` iterations suffice for the
subscription loop because it breaks at `rentActions` actions. -/
def hook (w : World) : World :=
  let f := finishLoop c w w.rent.fixedQ 0
  let s := subLoop c f.1 w.rent.subQ f.2.2 (max 1 (c.rentActions - f.2.2))
  let a := finishLoop c s.1 w.rent.availQ s.2.2
  if 0 < a.2.2 then
    { a.1 with rent := { a.1.rent with fixedQ := f.2.1, subQ := s.2.1, availQ := a.2.1 } }
  else a.1

end RentM
