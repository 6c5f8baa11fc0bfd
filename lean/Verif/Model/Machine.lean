import Verif.Model.Step
/-
The chain computed with the integers of the code: block numbers are `u32`, balances `u128`, report parameters
and weights `u8` multiplied as `u32`.  Plain `+` and `-` wrap (release build), `saturating_add` and
`saturating_mul` stop at the largest value.  Only the definitions in which `Model/*.lean` computes with
unbounded numbers, or replaces a loop by what it computes, are repeated here, expression by expression as in
the code; all others are used as they are (those with `u128` sums, nonces and id counters wrap there already).
`Props/Machine.lean` compares the two chains.
-/
namespace Mach
variable (c : Cfg)

/-- `a + b` on `u32` -/
def add32 (a b : Nat) : Nat := (a + b) % 2 ^ 32
/-- `a - b` on `u32` -/
def sub32 (a b : Nat) : Nat := (a + (2 ^ 32 - b)) % 2 ^ 32
/-- `a.saturating_add(b)` on `u32` -/
def satAdd32 (a b : Nat) : Nat := min (a + b) U32MAX
/-- `a.saturating_mul(b)` on `u32` -/
def satMul32 (a b : Nat) : Nat := min (a * b) U32MAX
/-- `a.saturating_add(b)` on `u128` -/
def satAdd128 (a b : Nat) : Nat := min (a + b) U128MAX

/-! ### Auctions -/

/-- `add_claim`, auction/src/lib.rs 704-708 -/
def addClaim (m : FMap AccountId Balance) (who : AccountId) (v : Balance) : FMap AccountId Balance :=
  m.insert who (satAdd128 ((m.get who).getD 0) v)

/-- `auction.for_each_bidder(&|(owner, amount)| Self::add_claim(owner, *amount))` -/
def addClaims (m : FMap AccountId Balance) (l : List (AccountId × Balance)) : FMap AccountId Balance :=
  l.foldl (fun m x => addClaim m x.1 x.2) m

/-- claim of an optional dropped bid, auction/src/lib.rs 549-552 -/
def addClaimOpt (m : FMap AccountId Balance) : Option (AccountId × Balance) → FMap AccountId Balance
  | none => m
  | some x => addClaim m x.1 x.2

/-- `extend_if_necessary`, auction/src/types.rs 106-124 (`saturating_sub` is subtraction of `Nat`) -/
def extend (a : Auction) (now : Block) : Auction × Option Block :=
  if a.fin - now < c.grace then
    let e := satAdd32 a.fin (c.grace - (a.fin - now))
    ({ a with fin := e, extended := true }, some e)
  else (a, none)

/-- `cancel_auction`, auction/src/lib.rs 451-472 -/
def aucCancel (w : World) (who : AccountId) (n : NFTId) : Except Err World := do
  let d ← getOr (w.nfts.get n) "NFTNotFound"
  let a ← getOr (w.auc.auctions.get n) "AuctionDoesNotExist"
  require (a.creator = who) "NotTheAuctionCreator"
  require (¬ a.start ≤ w.now) "CannotCancelAuctionInProgress"
  let w := w.putNft n { d with st := { d.st with listed := false } }
  pure { w with auc := { w.auc with
    claims := addClaims w.auc.claims a.bids
    auctions := w.auc.auctions.erase n
    deadlines := w.auc.deadlines.remove n } }

/-- `end_auction`, auction/src/lib.rs 476-502 -/
def aucEnd (w : World) (who : AccountId) (n : NFTId) : Except Err World := do
  let d ← getOr (w.nfts.get n) "NFTNotFound"
  let a ← getOr (w.auc.auctions.get n) "AuctionDoesNotExist"
  require (a.creator = who) "NotTheAuctionCreator"
  require (a.extended = true) "CannotEndAuctionThatWasNotExtended"
  let top ← getOr a.bids.getLast? "CannotEndAuctionWithoutBids"
  let b ← AucM.payForNftExt c w n c.aucPot top.2 d a
  let w := w.putBal b
  let w := w.putNft n { d with owner := top.1, st := { d.st with listed := false } }
  let w := { w with auc := { w.auc with
    claims := addClaims w.auc.claims a.bids.dropLast
    auctions := w.auc.auctions.erase n
    deadlines := w.auc.deadlines.remove n } }
  pure (w.ev (.auctionCompleted n (some top.1) (some top.2)))

/-- `add_bid`, auction/src/lib.rs 512-566 -/
def addBid (w : World) (who : AccountId) (n : NFTId) (amount : Balance) : Except Err World := do
  let a ← getOr (w.auc.auctions.get n) "AuctionDoesNotExist"
  require (a.creator ≠ who) "CannotAddBidToYourOwnAuctions"
  require (a.start ≤ w.now) "AuctionNotStarted"
  require (c.ed < amount) "AmountTooLow"
  require (AucM.beats a amount = true) (if a.bids = [] then "CannotBidLessThanTheStartingPrice"
    else "CannotBidLessThanTheHighestBid")
  let b ← w.bal.transfer c.ed who c.aucPot (amount - (AucM.findBid who a.bids).getD 0) .keepAlive
  let x ← AucM.insertBid c (AucM.removeBid who a.bids) who amount
  let y := extend c { a with bids := x.2 } w.now
  let q ← AucM.updateDeadline c w.auc.deadlines n y.2
  let w := w.putBal b
  pure { w with auc := { w.auc with
    auctions := w.auc.auctions.insert n y.1
    claims := addClaimOpt w.auc.claims x.1
    deadlines := q } }

/-- `buy_it_now`, auction/src/lib.rs 606-641 -/
def buyItNow (w : World) (who : AccountId) (n : NFTId) (signedPrice : Balance) : Except Err World := do
  let d ← getOr (w.nfts.get n) "NFTNotFound"
  let a ← getOr (w.auc.auctions.get n) "AuctionDoesNotExist"
  let price ← getOr a.buyIt "AuctionDoesNotSupportBuyItNow"
  require (price = signedPrice) "PriceDoesNotMatch"
  require (a.creator ≠ who) "CannotBuyItNowToYourOwnAuctions"
  require (a.start ≤ w.now) "AuctionNotStarted"
  require (∀ h ∈ a.bids.getLast?, h.2 < price) "CannotBuyItWhenABidIsHigherThanBuyItPrice"
  let b ← AucM.payForNftExt c w n who price d a
  let w := w.putBal b
  let w := w.putNft n { d with owner := who, st := { d.st with listed := false } }
  let w := { w with auc := { w.auc with
    claims := addClaims w.auc.claims a.bids
    auctions := w.auc.auctions.erase n
    deadlines := w.auc.deadlines.remove n } }
  pure (w.ev (.auctionCompleted n (some who) (some price)))

/-- signed calls of the auction pallet -/
def aucCall (w : World) (who : AccountId) : AucM.Call → Except Err World
  | .cancel n => aucCancel w who n
  | .end_ n => aucEnd c w who n
  | .addBid n v => addBid c w who n v
  | .buyItNow n p => buyItNow c w who n p
  | x => AucM.call c w who x

/-- one due auction of the hook, auction/src/lib.rs 135-170 -/
def settleOne (w : World) (n : NFTId) : World × Bool :=
  match w.auc.auctions.get n with
  | none => (w, false)
  | some a =>
    match w.nfts.get n with
    | none => (w, false)
    | some d =>
      match a.bids.getLast? with
      | some top =>
        match AucM.payForNft c w n c.aucPot top.2 d a with
        | (b, .error _) => (w.putBal b, false)
        | (b, .ok ()) =>
          let w := w.putBal b
          let w := w.putNft n { d with owner := top.1, st := { d.st with listed := false } }
          let w := { w with auc := { w.auc with
            claims := addClaims w.auc.claims a.bids.dropLast
            auctions := w.auc.auctions.erase n } }
          (w.ev (.auctionCompleted n (some top.1) (some top.2)), true)
      | none =>
        let w := w.putNft n { d with st := { d.st with listed := false } }
        let w := { w with auc := { w.auc with auctions := w.auc.auctions.erase n } }
        (w.ev (.auctionCompleted n none none), true)

/-- the loop of the hook, auction/src/lib.rs 134-180 -/
def aucLoop (w : World) : Queue → Nat → World × Queue
  | [], _ => (w, [])
  | (n, b) :: t, k =>
    if b ≤ w.now then
      let (w', counted) := settleOne c w n
      if counted then
        if c.aucActions ≤ k + 1 then (w', t) else aucLoop w' t (k + 1)
      else aucLoop w' t k
    else (w, (n, b) :: t)

/-- `on_initialize`, auction/src/lib.rs 124-184 -/
def aucHook (w : World) : World :=
  let (w', q) := aucLoop c w w.auc.deadlines 0
  { w' with auc := { w'.auc with deadlines := q } }

/-! ### Rentals -/

/-- `has_ended`, rent/src/types.rs 285-298 -/
def hasEnded (k : Contract) (now : Block) : Bool :=
  match k.start with
  | none => false
  | some s => if now < s then false else decide (RentM.full k.duration ≤ sub32 now s)

/-- `percentage_of_completion`, rent/src/types.rs 312-321 -/
def completion (k : Contract) (now : Block) : Except Err Permill := do
  let s ← expectSome k.start "qed"
  let elapsed := sub32 now s
  let _ ← expectSome (if RentM.full k.duration ≠ 0 then some () else none) "attempt to divide by zero"
  pure (Permill.fromPercent (satMul32 elapsed 100 / RentM.full k.duration))

/-- `create_contract`, rent/src/lib.rs 355-479; the plain `+` is in line 442 -/
def createContract (w : World) (who : AccountId) (n : NFTId) (dur : DurationInput) (acc : Acceptance)
    (revoke : Bool) (rentFee : RentFee) (renterFee renteeFee : CancelFee) : Except Err World := do
  require (w.rent.fixedQ.length + w.rent.subQ.length + w.rent.availQ.length + 1 ≤ c.rentLimit)
    "MaxSimultaneousContractReached"
  let d ← getOr (w.nfts.get n) "NFTNotFound"
  require (d.owner = who) "NotTheNFTOwner"
  require (RentM.valid d.st = true) "ContractNFTNotInAValidState"
  let du := RentM.toDuration c.rentMaxDur dur
  require (RentM.full du ≤ c.rentMaxDur) "DurationExceedsMaximumLimit"
  require (0 < RentM.full du) "DurationInvalid"
  require (RentM.period du ≤ c.rentMaxDur) "DurationExceedsMaximumLimit"
  require (0 < RentM.period du) "DurationInvalid"
  require (RentM.allowsRent du rentFee = true) "DurationAndRentFeeMismatch"
  require (RentM.allowsCancel du renterFee = true) "DurationAndCancellationFeeMismatch"
  require (RentM.allowsCancel du renteeFee = true) "DurationAndCancellationFeeMismatch"
  require (∀ id ∈ RentM.rentNft rentFee, (w.nfts.get id).isSome) "RentNFTNotFound"
  require (∀ id ∈ RentM.feeNft renteeFee, (w.nfts.get id).isSome) "CancellationNFTNotFound"
  require (RentM.feeTokens renterFee = 0 ∨ c.ed < RentM.feeTokens renterFee) "AmountTooLow"
  require (RentM.feeTokens renteeFee = 0 ∨ c.ed < RentM.feeTokens renteeFee) "AmountTooLow"
  let b ← mapErr (fun _ => "NotEnoughFundsForCancellationFee")
    (w.bal.transfer c.ed who c.rentPot (RentM.feeTokens renterFee) .keepAlive)
  let w := w.putBal b
  let w ← RentM.depositRenterNft c w who (RentM.feeNft renterFee)
  let q ← getOr (Queue.insert c.rentLimit w.rent.availQ n (add32 w.now c.rentAvail))
    "MaxSimultaneousContractReached"
  let w := w.putNft n { d with st := { d.st with rented := true } }
  let w := { w with rent := { w.rent with
    availQ := q
    contracts := w.rent.contracts.insert n
      { start := none, renter := who, rentee := none, duration := du, acceptance := acc,
        renterCanRevoke := revoke, rentFee := rentFee, renterFee := renterFee,
        renteeFee := renteeFee, creation := w.now } } }
  pure (w.ev (.contractCreated n w.now))

/-- payment of the revoker's deposit, rent/src/lib.rs 551-556 -/
def penalty (k : Contract) (now : Block) (fee : CancelFee) (who damaged : AccountId) (w : World) :
    Except Err World :=
  match RentM.flexible fee with
  | some amount => do
    let p ← completion k now
    (RentM.returnFlexible c who damaged p amount).ext w
  | none => (RentM.returnFee c fee damaged).ext w

/-- `revoke_contract`, rent/src/lib.rs 514-569 -/
def revoke (w : World) (who : AccountId) (n : NFTId) : Except Err World := do
  let k ← getOr (w.rent.contracts.get n) "ContractNotFound"
  let rentee ← getOr k.rentee "CannotRevokeNonRunningContract"
  require (k.renter = who ∨ rentee = who) "NotAContractParticipant"
  require (k.renter = who → k.renterCanRevoke = true) "ContractCannotBeCanceledByRenter"
  let damaged := if k.renter = who then rentee else k.renter
  let own := if k.renter = who then k.renteeFee else k.renterFee
  let price := if k.renter = who then k.renterFee else k.renteeFee
  let w ← (RentM.returnFee c own damaged).ext w
  let w ← penalty c k w.now price who damaged w
  let d ← getOr (w.nfts.get n) "NFTNotFound"
  let w := w.putNft n { d with st := { d.st with rented := false } }
  let r := RentM.removeKind w.rent k.duration n
  pure { w with rent := { r with contracts := r.contracts.erase n } }

/-- the common tail of `rent` and `accept_rent_offer`, rent/src/lib.rs 603-623 and 746-764; the plain `+` are
in lines 611 and 751 -/
def startContract (w : World) (n : NFTId) (k : Contract) (rentee : AccountId) : Except Err World := do
  let w ← RentM.takeFees c w rentee k
  let r := { w.rent with availQ := w.rent.availQ.remove n }
  let r ← getOr (RentM.insertKind c r k.duration n (add32 w.now (RentM.period k.duration)))
    "MaxSimultaneousContractReached"
  pure { w with rent := { r with
    offers := r.offers.erase n
    contracts := r.contracts.insert n { k with rentee := some rentee, start := some w.now } } }

/-- `rent`, rent/src/lib.rs 574-632 -/
def rent (w : World) (who : AccountId) (n : NFTId) (creation : Block) : Except Err World := do
  let k ← getOr (w.rent.contracts.get n) "ContractNotFound"
  require (k.creation = creation) "ContractDoesNotMatch"
  require (k.rentee = none) "CannotRentStartedContract"
  require (k.renter ≠ who) "CannotRentOwnContract"
  require (RentM.isManual k.acceptance = false) "ContractDoesNotSupportAutomaticRent"
  require (RentM.admitted k.acceptance who) "NotWhitelisted"
  startContract c w n k who

/-- `accept_rent_offer`, rent/src/lib.rs 724-772 -/
def acceptOffer (w : World) (who : AccountId) (n : NFTId) (rentee : AccountId) : Except Err World := do
  let k ← getOr (w.rent.contracts.get n) "ContractNotFound"
  let offers ← getOr (w.rent.offers.get n) "NoOffersForThisContract"
  require (k.renter = who) "NotTheContractOwner"
  require (rentee ∈ offers) "NoOfferFromThisAddress"
  startContract c w n k rentee

/-- signed calls of the rent pallet -/
def rentCall (w : World) (who : AccountId) : RentM.Call → Except Err World
  | .create n d a r f x y => createContract c w who n d a r f x y
  | .revoke n => revoke c w who n
  | .rent n b => rent c w who n b
  | .acceptOffer n r => acceptOffer c w who n r
  | x => RentM.call c w who x

/-- `handle_subscription_contract`, rent/src/lib.rs 956-980; the plain `+` is in line 979 -/
def handleSub (w : World) (n : NFTId) : World × Option Block :=
  match w.rent.contracts.get n with
  | none => (w, none)
  | some k =>
    match k.rentee, k.rentFee with
    | some r, .tokens fee =>
      if RentM.termsChanged k.duration = true ∨ hasEnded k w.now = true then (w, none)
      else
        match w.bal.transfer c.ed r k.renter fee .keepAlive with
        | .error _ => (w, none)
        | .ok b => (w.putBal b, some (add32 w.now (RentM.period k.duration)))
    | _, _ => (w, none)

/-- one step of the subscription loop, rent/src/lib.rs 309-318 -/
def subOne (w : World) (n : NFTId) (t : Queue) : World × Queue :=
  match handleSub c w n with
  | (w', some b) => (w', (Queue.insert c.rentLimit t n b).getD t)
  | (w', none) => ((RentM.handleFinished c n w').1, t)

/-- the subscription loop, rent/src/lib.rs 308-326 -/
def subLoop (w : World) (q : Queue) (k : Nat) : Nat → World × Queue × Nat
  | 0 => (w, q, k)
  | fuel + 1 =>
    match q with
    | [] => (w, [], k)
    | (n, b) :: t =>
      if b ≤ w.now then
        let r := subOne c w n t
        if c.rentActions ≤ k + 1 then (r.1, r.2, k + 1) else subLoop r.1 r.2 (k + 1) fuel
      else (w, (n, b) :: t, k)

/-- `on_initialize`, rent/src/lib.rs 284-347 -/
def rentHook (w : World) : World :=
  let f := RentM.finishLoop c w w.rent.fixedQ 0
  let s := subLoop c f.1 w.rent.subQ f.2.2 (max 1 (c.rentActions - f.2.2))
  let a := RentM.finishLoop c s.1 w.rent.availQ s.2.2
  if 0 < a.2.2 then
    { a.1 with rent := { a.1.rent with fixedQ := f.2.1, subQ := s.2.1, availQ := a.2.1 } }
  else a.1

/-! ### Transmissions -/

/-- the loop building the list of distinct accounts, transmission-protocols/src/lib.rs 362-370: `try_push` fails
when the list is full -/
def unique (limit : Nat) : List AccountId → List AccountId → Except Err (List AccountId)
  | [], acc => .ok acc
  | a :: t, acc =>
    if acc.contains a then unique limit t acc
    else if acc.length < limit then unique limit t (acc ++ [a])
    else .error (.e "ConsentListFull")

/-- the checks of the consent data, transmission-protocols/src/lib.rs 361-382 -/
def checkConsents : Option (List AccountId × Nat) → Except Err Unit
  | none => pure ()
  | some (l, threshold) => do
    let u ← unique c.trConsents l []
    require (l.length = u.length) "DuplicatesInConsentList"
    require (0 < threshold) "ThresholdTooLow"
    require (threshold ≤ c.trConsents) "ThresholdTooHigh"
    require (threshold ≤ l.length) "InvalidConsentList"

/-- the checks of the end block, transmission-protocols/src/lib.rs 351-359 -/
def checkEnd (now : Block) : Option Block → Except Err Unit
  | none => pure ()
  | some e => do
    require (now < e) "CannotSetTransmissionInThePast"
    require (sub32 e now ≤ c.trMaxDur) "TransmissionIsInTooMuchTime"

/-- `set_transmission_protocol`, transmission-protocols/src/lib.rs 309-421 -/
def setProtocol (w : World) (who : AccountId) (n : NFTId) (recipient : AccountId) (p : Protocol)
    (k : Cancellation) : Except Err World := do
  require (∀ b ∈ TrM.untilBlock k, w.now < b) "CannotCancelTransmissionInThePast"
  let d ← getOr (w.nfts.get n) "NFTNotFound"
  require (d.owner = who) "NotTheNFTOwner"
  require (who ≠ recipient) "InvalidRecipient"
  require (d.st.listed = false) "CannotSetTransmissionForListedNFTs"
  require (d.st.delegated = false) "CannotSetTransmissionForDelegatedNFTs"
  require (d.st.rented = false) "CannotSetTransmissionForRentedNFTs"
  require (¬ (d.st.soulbound = true ∧ d.owner ≠ d.creator))
    "CannotSetTransmissionForNotCreatedSoulboundNFTs"
  require (d.st.syncSecret = false) "CannotSetTransmissionForSyncingSecretNFTs"
  require (d.st.syncCapsule = false) "CannotSetTransmissionForSyncingCapsules"
  require (d.st.transmission = false) "CannotSetTransmissionForNFTsInTransmission"
  checkEnd c w.now (TrM.endBlock p)
  checkConsents c (TrM.consentData p)
  let q ← TrM.enqueue c w.tr.queue n (TrM.blockToQueue p)
  let b ← w.bal.payFee c.ed who (TrM.protocolFee w.tr (TrM.kind p))
  let w := w.putBal b
  let w := w.putNft n { d with st := { d.st with transmission := true } }
  let w := { w with tr := { w.tr with
    trans := w.tr.trans.insert n { recipient := recipient, protocol := p, cancellation := k }
    queue := q } }
  pure (w.ev (.protocolSet n))

/-- `reset_timer`, transmission-protocols/src/lib.rs 478-518 -/
def resetTimer (w : World) (who : AccountId) (n : NFTId) (b : Block) : Except Err World := do
  let d ← getOr (w.nfts.get n) "NFTNotFound"
  require (d.owner = who) "NotTheNFTOwner"
  require (d.st.transmission = true) "NFTIsNotInTransmission"
  let t ← getOr (w.tr.trans.get n) "TransmissionNotFound"
  require (TrM.canReset t.protocol = true) "ProtocolTimerCannotBeReset"
  require (w.now < b) "CannotSetTransmissionInThePast"
  require (sub32 b w.now ≤ c.trMaxDur) "TransmissionIsInTooMuchTime"
  let q ← w.tr.queue.update c.trLimit n b
  pure { w with tr := { w.tr with
    queue := q
    trans := w.tr.trans.insert n { t with protocol := .atBlockWithReset b } } }

/-- signed calls of the transmission pallet -/
def trCall (w : World) (who : AccountId) : TrM.Call → Except Err World
  | .set n r p k => setProtocol c w who n r p k
  | .resetTimer n b => resetTimer c w who n b
  | x => TrM.call c w who x

/-! ### TEE -/

/-- `withdraw_unbonded`, tee/src/lib.rs 1113-1136 -/
def withdraw (w : World) (who : AccountId) : Except Err World := do
  let s ← getOr (w.tee.ledger.get who) "StakingNotFound"
  require (s.unlocking = true) "UnbondingNotStarted"
  require (c.bonding ≤ sub32 w.now s.unbondedAt) "WithdrawProhibited"
  let w := w.putBal (w.bal.removeLock who)
  pure { w with tee := { w.tee with ledger := w.tee.ledger.erase who } }

/-- `calculate_weighted_sum`, tee/src/lib.rs 1558-1571 -/
def weighted (v k : Params) : Nat :=
  add32 (add32 (add32 (add32 (satMul32 v.p1 k.p1) (satMul32 v.p2 k.p2)) (satMul32 v.p3 k.p3))
    (satMul32 v.p4 k.p4)) (satMul32 v.p5 k.p5)

/-- the equal share of one operator, tee/src/lib.rs 1361-1366: the count is cast to `u32` -/
def share (t : TeeSt) : Balance := perbillMul (perbillOf 1 (t.data.card % 2 ^ 32)) t.pool

/-- the reward for an era, tee/src/lib.rs 1371-1401 -/
def reward (t : TeeSt) (era : Era) (op : AccountId) : Balance :=
  match t.reports.get (era, op) with
  | some l => perbillMul (perbillOf (weighted (TeeM.highest l) t.weights) 10000) (share t)
  | none => share t

/-- `claim_rewards`, tee/src/lib.rs 1338-1403 -/
def claim (w : World) (who : AccountId) (era : Era) : Except Err World := do
  require (w.tee.claimed.get (era, who) = none) "RewardsAlreadyClaimedForEra"
  let active ← getOr w.active "FailedToGetActiveEra"
  let assigned ← getOr (w.tee.assignedEra.get who) "OperatorAssignedEraNotFound"
  require (era < active - 2 ∧ active - c.history < era ∧ assigned ≤ era) "InvalidEraToClaimRewards"
  let _ ← getOr (w.tee.data.get who) "EnclaveNotFoundForTheOperator"
  let x := reward w.tee era who
  let b ← w.bal.transfer c.ed c.teePot who x .allowDeath
  let w := w.putBal b
  let w := { w with tee := { w.tee with claimed := w.tee.claimed.insert (era, who) x } }
  pure (w.ev (.rewardClaimed era who x))

/-- signed calls of the TEE pallet -/
def teeCall (w : World) (who : AccountId) : TeeM.Call → Except Err World
  | .withdraw => withdraw c w who
  | .claim e => claim c w who e
  | x => TeeM.call c w who x

/-! ### Bridge -/

/-- adding a vote to an optional proposal, bridge/src/lib.rs 300-316; the plain `+` is in line 311 -/
def vote (w : World) (who : AccountId) : Option Proposal → Except Err (Proposal × Bool)
  | some p => BrM.vote c w who (some p)
  | none => do
    require (1 ≤ c.relayerLimit) "MaximumVoteLimitExceeded"
    pure (BrM.complete w.br.threshold
      { votes := [who], expiry := add32 w.now c.proposalLife, approved := false })

/-- `vote_for_proposal`, bridge/src/lib.rs 278-339 -/
def voteFor (w : World) (who : AccountId) (k : ChainId) (t : Transfer) : Except Err World := do
  require (who ∈ w.br.relayers) "MustBeRelayer"
  require (BrM.allowed w k) "ChainNotAllowed"
  let x ← vote c w who (w.br.votes.get (k, t))
  let w := { w with br := { w.br with votes := w.br.votes.insert (k, t) x.1 } }
  let w := w.ev (.voted k t who)
  pure (BrM.payout c w k t x.2)

/-- signed calls of the bridge -/
def brCall (w : World) (who : AccountId) : BrM.Call → Except Err World
  | .vote k t => voteFor c w who k t
  | x => BrM.call c w who x

/-! ### The chain -/

/-- signed calls of all pallets -/
def signedCall (w : World) (a : AccountId) : Call → Except Err World
  | .auc x => aucCall c w a x
  | .rent x => rentCall c w a x
  | .tr x => trCall c w a x
  | .tee x => teeCall c w a x
  | .br x => brCall c w a x
  | x => _root_.signedCall c w a x

/-- `RuntimeCall::dispatch_bypass_filter(origin)` -/
def dispatch : Call → Origin → World → Except Err World
  | .mandate x, .root, w => mandateResult w (dispatch x .root w)
  | .mandate x, .ext, w => mandateResult w (dispatch x .root w)
  | .root x, .root, w => rootCall c w x
  | .ext x, .root, w => BrM.ext c w x
  | .ext x, .ext, w => BrM.ext c w x
  | x, .signed a, w => signedCall c w a x
  | _, _, _ => .error (.e "BadOrigin")

/-- one operation; the block number is a `u32` too -/
def step (w : World) : Op → World
  | .call o x => orSame w (dispatch c x o w)
  | .hookAuc => aucHook c w
  | .hookRent => rentHook c w
  | .tick => { w with now := add32 w.now 1 }
  | o => _root_.step c w o

/-- executing a list of operations -/
def run (w : World) : List Op → World
  | [] => w
  | o :: t => run (step c w o) t

end Mach
