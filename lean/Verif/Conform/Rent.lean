import Verif.Conform.Base
/-
The tests of rent/src/tests/extrinsics.rs and hooks.rs on the model.
-/
namespace Conform.Rent

/-- rent/src/tests/mock.rs 114, 268-283: the constants -/
def c : Cfg :=
  { cfg0 with
    ed := 1, shards := 5, collLimit := 10, rentAccounts := 3, rentLimit := 10, rentActions := 10, rentAvail := 2000,
    rentMaxDur := 100 }

/-- `ExtBuilder::new_build(None)` with the fees of rent/src/tests/mock.rs 42-44 -/
def ext : World :=
  let w := blank [(1, 1000000), (2, 1000000), (3, 1000000)]
  { w with nft := { w.nft with fee := 10, secretFee := 75, capsuleFee := 100 } }

/-- accounts: ALICE 1, BOB 2, CHARLIE 3 -/
abbrev by_ (a : AccountId) (x : RentM.Call) : Act := sg a (.rent x)

abbrev mint (a : AccountId) : Act := sg a (.nft (.createNft [] (pm 0) none false))

/-- the terms most tests use: ten blocks, anyone may rent, not revocable, 100 tokens, no deposits -/
abbrev simple (n : NFTId) (d : DurationInput := .fixed 10) (f : RentFee := .tokens 100) (x : CancelFee := .none)
    (y : CancelFee := .none) : RentM.Call := .create n d (.auto none) false f x y

/-- `prepare_tests`: NFTs 0 to 9 of ALICE, 10 to 12 of BOB, contracts on 0, 1, 2, 3, 4 and 8; leaves ALICE 999870 and
BOB 999970 -/
def prep : List Act :=
  List.replicate 10 (mint 1) ++ List.replicate 3 (mint 2) ++
  [by_ 1 (.create 0 (.fixed 10) (.auto (some [2])) true (.nft 10) (.fixed 10) (.fixed 10)),
   by_ 1 (.create 1 (.fixed 10) (.auto (some [2])) true (.tokens 100) (.flexible 10) (.flexible 10)),
   by_ 1 (.create 2 (.fixed 10) (.manual (some [2])) true (.nft 11) (.nft 5) (.nft 10)),
   by_ 1 (.create 3 (.sub 10 (some 100) true) (.manual (some [2])) true (.tokens 100) (.fixed 10) (.fixed 10)),
   by_ 1 (.create 4 (.sub 10 none false) (.auto (some [2])) false (.tokens 100) .none (.fixed 10)),
   by_ 1 (.create 8 (.fixed 10) (.auto (some [2])) true (.nft 11) (.nft 9) (.nft 10))]

/-- Blocks in which nothing is due.  Does nothing if some entry of a queue is reached. -/
abbrev idle (n : Block) : Act :=
  .poke fun w =>
    if (w.rent.fixedQ ++ w.rent.subQ ++ w.rent.availQ).all (fun x => decide (n < x.2)) then { w with now := n } else w

/-- `run_to_block(n + 1)` when nothing is due before block `n + 1` -/
abbrev upTo (n : Block) : List Act := [idle n, .op .tick, .op .hookRent]

/-- `NFT::set_nft` with another owner -/
abbrev setOwner (n : NFTId) (a : AccountId) : Act :=
  .poke fun w => match w.nfts.get n with | some d => w.putNft n { d with owner := a } | none => w

/-- `nft.state.is_listed = true` -/
abbrev setListed (n : NFTId) : Act :=
  .poke fun w => match w.nfts.get n with | some d => w.putNft n { d with st := { d.st with listed := true } } | none => w

/-- `Balances::set_balance(root(), a, x, 0)` -/
abbrev setBal (a : AccountId) (x : Balance) : Act := .poke fun w => w.putBal (w.bal.setFree a x)

/-- `assert_noop!` of a signed call after the steps `l` -/
abbrev Bad (l : List Act) (a : AccountId) (x : RentM.Call) (e : String) : Prop :=
  fails c ext l (.signed a) (.rent x) = some (.e e)

/-- `assert_ok!` of a signed call after the steps `l`, its last event, and what is seen afterwards -/
abbrev Good {α : Type} (l : List Act) (a : AccountId) (x : RentM.Call) (e : Event) (f : World → α) (v : α) : Prop :=
  lastEvent c ext l (.signed a) (.rent x) = some e ∧ see c ext (l ++ [by_ a x]) f = some v

/-- what became of the contract: is there one, its rentee and start; entries in the fixed, subscription and available
queue; is the NFT marked as rented -/
abbrev about (n : NFTId) (w : World) :
    Option (Option AccountId × Option Block) × List (List Block) × Option Bool :=
  ((w.rent.contracts.get n).map fun k => (k.rentee, k.start),
   [w.rent.fixedQ, w.rent.subQ, w.rent.availQ].map fun q => (q.filter fun x => decide (x.1 = n)).map (·.2),
   (w.nfts.get n).map (·.st.rented))

/-- nothing is left -/
abbrev gone : Option (Option AccountId × Option Block) × List (List Block) × Option Bool :=
  (none, [[], [], []], some false)

abbrev owner (n : NFTId) (w : World) : Option AccountId := (w.nfts.get n).map (·.owner)

/-- `prepare_tests` -/
example : see c ext (prep)
    (fun w => (free 1 w, free 2 w, w.rent.availQ.length)) =
    some (999870, 999970, 6) := rfl

/-! `mod create_contract` -/

/-- `create_contract` -/
example : Good (prep) 1 (.create 6 (.fixed 10) (.auto none) true (.tokens 100) .none .none)
    (.contractCreated 6 1 (.fixed 10) (.auto none) true (.tokens 100) .none .none)
    (fun w => (w.rent.contracts.get 6, (w.nfts.get 6).map (·.st.rented)))
    (some ⟨none, 1, none, .fixed 10, .auto none, true, .tokens 100, .none, .none, 1⟩, some true) := ⟨rfl, rfl⟩

/-- `max_simultaneous_contract_reached` -/
example :
    Bad (prep ++ [13, 14, 15, 16].flatMap fun n => [mint 1, by_ 1 (simple n)]) 1
      (simple 6) "MaxSimultaneousContractReached" := rfl

/-- `nft_not_found` -/
example : Bad (prep) 1 (simple 99) "NFTNotFound" := rfl

/-- `not_the_nft_owner` -/
example : Bad (prep) 1 (simple 10) "NotTheNFTOwner" := rfl

/-- `contract_nft_not_in_a_valid_state` -/
example : Bad (prep ++ [setState 6 { syncCapsule := true }]) 1 (simple 6) "ContractNFTNotInAValidState" := rfl

/-- `contract_nft_not_in_a_valid_state` -/
example : Bad (prep ++ [setState 6 { listed := true }]) 1 (simple 6) "ContractNFTNotInAValidState" := rfl

/-- `contract_nft_not_in_a_valid_state` -/
example : Bad (prep ++ [setState 6 { delegated := true }]) 1 (simple 6) "ContractNFTNotInAValidState" := rfl

/-- `contract_nft_not_in_a_valid_state` -/
example : Bad (prep ++ [setState 6 { soulbound := true }]) 1 (simple 6) "ContractNFTNotInAValidState" := rfl

/-- `contract_nft_not_in_a_valid_state` -/
example : Bad (prep ++ [setState 6 { rented := true }]) 1 (simple 6) "ContractNFTNotInAValidState" := rfl

/-- `duration_exceeds_maximum_limit` -/
example : Bad (prep) 1 (simple 6 (.fixed 101)) "DurationExceedsMaximumLimit" := rfl

/-- `duration_invalid` -/
example : Bad (prep) 1 (simple 6 (.fixed 0)) "DurationInvalid" := rfl

/-- `duration_invalid` -/
example : Bad (prep) 1 (simple 6 (.sub 0 none false)) "DurationInvalid" := rfl

/-- `duration_invalid` -/
example : Bad (prep) 1 (simple 6 (.sub 10 (some 0) false)) "DurationInvalid" := rfl

/-- `duration_and_rent_fee_mismatch` -/
example : Bad (prep) 1 (simple 6 (.sub 10 none false) (.nft 10)) "DurationAndRentFeeMismatch" := rfl

/-- `duration_and_cancellation_fee_mismatch_renter` -/
example : Bad (prep) 1 (simple 6 (.sub 10 none false) (x := .flexible 10)) "DurationAndCancellationFeeMismatch" := rfl

/-- `duration_and_cancellation_fee_mismatch_rentee` -/
example : Bad (prep) 1 (simple 6 (.sub 10 none false) (y := .flexible 10)) "DurationAndCancellationFeeMismatch" := rfl

/-- `rent_nft_not_found` -/
example : Bad (prep) 1 (simple 6 (f := .nft 99)) "RentNFTNotFound" := rfl

/-- `cancellation_nft_not_found_rentee` -/
example : Bad (prep) 1 (simple 6 (y := .nft 99)) "CancellationNFTNotFound" := rfl

/-- `amount_too_low_renter_cancellation_fee` -/
example : Bad (prep) 1 (simple 6 (x := .fixed 1)) "AmountTooLow" := rfl

/-- `amount_too_low_rentee_cancellation_fee` -/
example : Bad (prep) 1 (simple 6 (y := .fixed 1)) "AmountTooLow" := rfl

/-- `not_ennough_funds_for_cancellation_fee` -/
example : Bad (prep) 1 (simple 6 (x := .fixed 1000000)) "NotEnoughFundsForCancellationFee" := rfl

/-- `cancellation_nft_not_found_renter` -/
example : Bad (prep) 1 (simple 6 (x := .nft 99)) "CancellationNFTNotFound" := rfl

/-- `caller_does_not_own_cancellation_nft` -/
example : Bad (prep) 1 (simple 6 (x := .nft 10)) "CallerDoesNotOwnCancellationNFT" := rfl

/-- `cancellation_nft_not_in_valid_state` -/
example :
    Bad (prep ++ [setState 7 { transmission := true }]) 1
      (simple 6 (x := .nft 7)) "CancellationNFTNotInValidState" := rfl

/-! `mod cancel_contract` -/

/-- `cancel_contract` -/
example : Good (prep) 1 (.cancel 1)
    (.contractCanceled 1)
    (fun w => about 1 w)
    gone := ⟨rfl, rfl⟩

/-- `contract_not_found` -/
example : Bad (prep) 1 (.cancel 99) "ContractNotFound" := rfl

/-- `not_the_contract_owner` -/
example : Bad (prep) 2 (.cancel 1) "NotTheContractOwner" := rfl

/-- `cannot_cancel_running_contract` -/
example : Bad (prep ++ [by_ 2 (.rent 1 1)]) 1 (.cancel 1) "CannotCancelRunningContract" := rfl

/-! `mod revoke_contract` -/

/-- `revoke_contract_by_renter_fixed` -/
example : see c ext (prep ++ [by_ 2 (.rent 0 1)])
    (fun w => (free 1 w, free 2 w)) =
    some (999870, 999960) := rfl

/-- `revoke_contract_by_renter_fixed` -/
example : Good (prep ++ [by_ 2 (.rent 0 1)]) 1 (.revoke 0)
    (.contractRevoked 0 1)
    (fun w => (about 0 w, free 1 w, free 2 w))
    (gone, 999870, 999980) := ⟨rfl, rfl⟩

/-- `revoke_contract_by_rentee_fixed` -/
example : Good (prep ++ [by_ 2 (.rent 0 1)]) 2 (.revoke 0)
    (.contractRevoked 0 2)
    (fun w => (about 0 w, free 1 w, free 2 w))
    (gone, 999890, 999960) := ⟨rfl, rfl⟩

/-- `revoke_contract_by_renter_nft` -/
example : Good (prep ++ [by_ 2 (.makeOffer 2 1), by_ 1 (.acceptOffer 2 2)]) 1 (.revoke 2)
    (.contractRevoked 2 1)
    (fun w => (about 2 w, owner 5 w, owner 10 w))
    (gone, some 2, some 2) := ⟨rfl, rfl⟩

/-- `revoke_contract_by_rentee_nft` -/
example : Good (prep ++ [by_ 2 (.makeOffer 2 1), by_ 1 (.acceptOffer 2 2)]) 2 (.revoke 2)
    (.contractRevoked 2 2)
    (fun w => (about 2 w, owner 5 w, owner 10 w))
    (gone, some 1, some 1) := ⟨rfl, rfl⟩

/-- `revoke_contract_by_renter_flexible` -/
example : see c ext (prep ++ [by_ 2 (.rent 1 1)])
    (fun w => (free 1 w, free 2 w)) =
    some (999970, 999860) := rfl

/-- `revoke_contract_by_renter_flexible` -/
example : Good (prep ++ [by_ 2 (.rent 1 1)] ++ upTo 2) 1 (.revoke 1)
    (.contractRevoked 1 1)
    (fun w => (w.now, about 1 w, free 1 w, free 2 w))
    (3, gone, 999972, 999878) := ⟨rfl, rfl⟩

/-- `revoke_contract_by_rentee_flexible` -/
example : Good (prep ++ [by_ 2 (.rent 1 1)] ++ upTo 2) 2 (.revoke 1)
    (.contractRevoked 1 2)
    (fun w => (w.now, about 1 w, free 1 w, free 2 w))
    (3, gone, 999988, 999862) := ⟨rfl, rfl⟩

/-- `contract_not_found` -/
example : Bad (prep) 1 (.revoke 99) "ContractNotFound" := rfl

/-- `cannot_revoke_non_runing_contract` -/
example : Bad (prep) 2 (.revoke 0) "CannotRevokeNonRunningContract" := rfl

/-- `not_a_contract_participant` -/
example : Bad (prep ++ [by_ 2 (.rent 0 1)]) 3 (.revoke 0) "NotAContractParticipant" := rfl

/-- `contract_cannot_be_canceled_by_renter` -/
example : Bad (prep ++ [by_ 2 (.rent 4 1)]) 1 (.revoke 4) "ContractCannotBeCanceledByRenter" := rfl

/-! `mod rent` -/

/-- `rent` -/
example : Good (prep) 2 (.rent 0 1)
    (.contractStarted 0 2)
    (fun w => about 0 w)
    (some (some 2, some 1), [[11], [], []], some true) := ⟨rfl, rfl⟩

/-- `contract_not_found` -/
example : Bad (prep) 1 (.rent 99 1) "ContractNotFound" := rfl

/-- `cannot_rent_started_contract` -/
example : Bad (prep ++ [by_ 2 (.rent 0 1)]) 3 (.rent 0 1) "CannotRentStartedContract" := rfl

/-- `cannot_rent_own_contract` -/
example : Bad (prep) 1 (.rent 0 1) "CannotRentOwnContract" := rfl

/-- `contract_does_not_support_automatic_rent` -/
example : Bad (prep) 2 (.rent 2 1) "ContractDoesNotSupportAutomaticRent" := rfl

/-- `not_whitelisted` -/
example : Bad (prep) 3 (.rent 4 1) "NotWhitelisted" := rfl

/-- `not_enough_funds_for_rent_fee` -/
example : Bad (prep ++ [setBal 2 99]) 2 (.rent 4 1) "NotEnoughFundsForRentFee" := rfl

/-- `not_enough_funds_for_cancellation_fee` -/
example : Bad (prep ++ [setBal 2 109]) 2 (.rent 1 1) "NotEnoughFundsForCancellationFee" := rfl

/-- `rentee_does_not_own_the_rent_nft` -/
example : Bad (prep ++ [setOwner 10 1]) 2 (.rent 0 1) "RenteeDoesNotOwnTheRentNFT" := rfl

/-- `rentee_does_not_own_the_cancellation_nft` -/
example : Bad (prep ++ [setOwner 10 1]) 2 (.rent 8 1) "RenteeDoesNotOwnTheCancellationNFT" := rfl

/-- `contract_does_not_match` -/
example : Bad (prep) 2 (.rent 0 2) "ContractDoesNotMatch" := rfl

/-! `mod make_rent_offer` -/

/-- `make_rent_offer` -/
example : Good (prep) 2 (.makeOffer 3 1)
    (.offerCreated 3 2)
    (fun w => (w.rent.offers.get 3, about 3 w))
    (some [2], some (none, none), [[], [], [2001]], some true) := ⟨rfl, rfl⟩

/-- `contract_not_found` -/
example : Bad (prep) 2 (.makeOffer 99 1) "ContractNotFound" := rfl

/-- `cannot_rent_own_contract` -/
example : Bad (prep) 1 (.makeOffer 2 1) "CannotRentOwnContract" := rfl

/-- `contract_does_not_support_offers` -/
example : Bad (prep) 2 (.makeOffer 8 1) "ContractDoesNotSupportOffers" := rfl

/-- `not_whitelisted` -/
example : Bad (prep) 3 (.makeOffer 2 1) "NotWhitelisted" := rfl

/-- `not_enough_funds_for_rent_fee` -/
example :
    Bad (prep ++ [mint 1, by_ 1 (.create 13 (.fixed 10) (.manual (some [2])) true (.tokens 100) (.fixed 10) (.fixed 10)),
      setBal 2 99]) 2
      (.makeOffer 13 1) "NotEnoughFundsForRentFee" := rfl

/-- `not_enough_funds_for_cancellation_fee` -/
example :
    Bad (prep ++ [mint 1, by_ 1 (.create 13 (.fixed 10) (.manual (some [2])) true (.tokens 10) (.fixed 100) (.fixed 100)),
      setBal 2 10]) 2
      (.makeOffer 13 1) "NotEnoughFundsForCancellationFee" := rfl

/-- `not_enough_funds_for_fees` -/
example :
    Bad (prep ++ [mint 1, by_ 1 (.create 13 (.fixed 10) (.manual (some [2])) true (.tokens 100) (.fixed 100) (.fixed 100)),
      setBal 2 100]) 2
      (.makeOffer 13 1) "NotEnoughFundsForFees" := rfl

/-- `caller_does_not_own_rent_nft` -/
example : Bad (prep ++ [setOwner 11 1]) 2 (.makeOffer 2 1) "CallerDoesNotOwnRentNFT" := rfl

/-- `rent_nft_not_in_valid_state` -/
example : Bad (prep ++ [setListed 11]) 2 (.makeOffer 2 1) "RentNFTNotInValidState" := rfl

/-- `caller_does_not_own_cancellation_nft` -/
example : Bad (prep ++ [setOwner 10 1]) 2 (.makeOffer 2 1) "CallerDoesNotOwnCancellationNFT" := rfl

/-- `cancellation_nft_not_in_valid_state` -/
example : Bad (prep ++ [setListed 10]) 2 (.makeOffer 2 1) "CancellationNFTNotInValidState" := rfl

/-- `contract_does_not_match` -/
example : Bad (prep) 2 (.makeOffer 4 2) "ContractDoesNotMatch" := rfl

/-! `mod accept_rent_offer` -/

/-- `accept_rent_offer` -/
example : Good (prep ++ [by_ 2 (.makeOffer 3 1)]) 1 (.acceptOffer 3 2)
    (.contractStarted 3 2)
    (fun w => (about 3 w, free 1 w, free 2 w))
    ((some (some 2, some 1), [[], [11], []], some true), 999970, 999860) := ⟨rfl, rfl⟩

/-- `contract_not_found` -/
example : Bad (prep) 1 (.acceptOffer 99 2) "ContractNotFound" := rfl

/-- `no_offers_for_this_contract` -/
example : Bad (prep) 1 (.acceptOffer 2 2) "NoOffersForThisContract" := rfl

/-- `not_enough_funds_for_rent_fee` -/
example : Bad (prep ++ [by_ 2 (.makeOffer 3 1), setBal 2 0]) 1 (.acceptOffer 3 2) "NotEnoughFundsForRentFee" := rfl

/-- `not_enough_funds_for_cancellation_fee` -/
example :
    Bad (prep ++ [by_ 2 (.makeOffer 3 1), setBal 2 101]) 1
      (.acceptOffer 3 2) "NotEnoughFundsForCancellationFee" := rfl

/-- `rentee_does_not_own_the_rent_nft` -/
example :
    Bad (prep ++ [by_ 2 (.makeOffer 2 1), setOwner 11 1]) 1
      (.acceptOffer 2 2) "RenteeDoesNotOwnTheRentNFT" := rfl

/-- `rent_nft_not_in_valid_state` -/
example : Bad (prep ++ [by_ 2 (.makeOffer 2 1), setListed 11]) 1 (.acceptOffer 2 2) "RentNFTNotInValidState" := rfl

/-- `rentee_does_not_own_the_cancellation_nft` -/
example :
    Bad (prep ++ [by_ 2 (.makeOffer 2 1), setOwner 10 1]) 1
      (.acceptOffer 2 2) "RenteeDoesNotOwnTheCancellationNFT" := rfl

/-- `cancellation_nft_not_in_valid_state` -/
example :
    Bad (prep ++ [by_ 2 (.makeOffer 2 1), setListed 10]) 1
      (.acceptOffer 2 2) "CancellationNFTNotInValidState" := rfl

/-! `mod retract_rent_offer` -/

/-- `retract_rent_offer` -/
example : Good (prep ++ [by_ 2 (.makeOffer 2 1)]) 2 (.retractOffer 2)
    (.offerRetracted 2 2)
    (fun w => w.rent.offers.get 2)
    (some []) := ⟨rfl, rfl⟩

/-- `no_offers_for_this_contract` -/
example : Bad (prep) 2 (.retractOffer 2) "NoOffersForThisContract" := rfl

/-- `no_offers_from_this_address` -/
example : Bad (prep ++ [by_ 2 (.makeOffer 2 1)]) 3 (.retractOffer 2) "NoOfferFromThisAddress" := rfl

/-! `mod change_subscription_terms` -/

/-- `change_subscription_terms` -/
example : Good (prep ++ [by_ 2 (.makeOffer 3 1), by_ 1 (.acceptOffer 3 2)]) 1 (.changeTerms 3 101 20 (some 40) true)
    (.termsChanged 3 20 40 true 101)
    (fun w => (w.rent.contracts.get 3).map fun k => (k.start, k.duration))
    (some (some 1, .sub ⟨20, 40, true, true⟩)) := ⟨rfl, rfl⟩

/-- `contract_not_found` -/
example : Bad (prep) 1 (.changeTerms 99 101 20 (some 200) true) "ContractNotFound" := rfl

/-- `not_the_contract_owner` -/
example : Bad (prep) 2 (.changeTerms 3 101 20 (some 200) true) "NotTheContractOwner" := rfl

/-- `cannot_adjust_subscription_terms` -/
example : Bad (prep) 1 (.changeTerms 8 101 20 (some 200) true) "CannotAdjustSubscriptionTerms" := rfl

/-- `duration_exceeds_maximum_limit` -/
example : Bad (prep) 1 (.changeTerms 3 101 10000 (some 200) true) "DurationExceedsMaximumLimit" := rfl

/-- `duration_invalid` -/
example : Bad (prep) 1 (.changeTerms 3 100 0 none true) "DurationInvalid" := rfl

/-- `duration_invalid` -/
example : Bad (prep) 1 (.changeTerms 3 100 10 (some 0) true) "DurationInvalid" := rfl

/-! `mod accept_subscription_terms` -/

/-- `accept_subscription_terms` -/
example : Good
    (prep ++ [by_ 2 (.makeOffer 3 1), by_ 1 (.acceptOffer 3 2), by_ 1 (.changeTerms 3 101 20 (some 40) true)]) 2
    (.acceptTerms 3 101 20 (some 40) true)
    (.termsAccepted 3)
    (fun w => (w.rent.contracts.get 3).map (·.duration))
    (some (.sub ⟨20, 40, true, false⟩)) := ⟨rfl, rfl⟩

/-- `contract_not_found` -/
example : Bad (prep) 2 (.acceptTerms 99 101 20 (some 40) true) "ContractNotFound" := rfl

/-- `not_the_contract_rentee` -/
example :
    Bad (prep ++ [by_ 2 (.makeOffer 3 1), by_ 1 (.acceptOffer 3 2), by_ 1 (.changeTerms 3 101 20 (some 40) true)]) 3
      (.acceptTerms 3 101 20 (some 40) true) "NotTheContractRentee" := rfl

/-- `contract_terms_already_accepted` -/
example :
    Bad (prep ++ [by_ 2 (.makeOffer 3 1), by_ 1 (.acceptOffer 3 2)]) 2
      (.acceptTerms 3 101 20 (some 40) true) "ContractTermsAlreadyAccepted" := rfl

/-- `contract_terms_do_not_match` -/
example :
    Bad (prep ++ [by_ 2 (.makeOffer 3 1), by_ 1 (.acceptOffer 3 2), by_ 1 (.changeTerms 3 101 20 (some 40) true)]) 2
      (.acceptTerms 3 102 20 (some 40) true) "ContractTermsDoNotMatch" := rfl

/-- `contract_terms_do_not_match` -/
example :
    Bad (prep ++ [by_ 2 (.makeOffer 3 1), by_ 1 (.acceptOffer 3 2), by_ 1 (.changeTerms 3 101 20 (some 40) true)]) 2
      (.acceptTerms 3 101 30 (some 40) true) "ContractTermsDoNotMatch" := rfl

/-- `contract_terms_do_not_match` -/
example :
    Bad (prep ++ [by_ 2 (.makeOffer 3 1), by_ 1 (.acceptOffer 3 2), by_ 1 (.changeTerms 3 101 20 (some 40) true)]) 2
      (.acceptTerms 3 101 20 (some 30) true) "ContractTermsDoNotMatch" := rfl

/-- `contract_terms_do_not_match` -/
example :
    Bad (prep ++ [by_ 2 (.makeOffer 3 1), by_ 1 (.acceptOffer 3 2), by_ 1 (.changeTerms 3 101 20 (some 40) true)]) 2
      (.acceptTerms 3 101 20 (some 40) false) "ContractTermsDoNotMatch" := rfl

/-! hooks.rs -/

/-- `end_contract_fixed` -/
example : see c ext (prep ++ [by_ 2 (.rent 0 1), idle 10] ++ [.op .tick, .op .hookRent])
    (fun w => (w.now, w.rent.contracts.get 0, owner 10 w)) =
    some (11, none, some 1) := rfl

/-- `end_contract_fixed`, the events of the last block -/
example : lastEvents c ext (prep ++ [by_ 2 (.rent 0 1), idle 10] ++ [.op .tick]) .hookRent =
    some [.contractEnded 0] := rfl

/-- `end_contract_subscription` -/
example : see c ext (prep ++ [by_ 2 (.makeOffer 3 1), by_ 1 (.acceptOffer 3 2)] ++
      upTo 10 ++ upTo 20 ++ upTo 30 ++ upTo 40 ++ upTo 50 ++ upTo 60 ++ upTo 70 ++ upTo 80 ++ upTo 90 ++ [idle 100] ++ [.op .tick, .op .hookRent])
    (fun w => (w.now, w.rent.contracts.get 3, free 1 w, free 2 w)) =
    some (101, none, 999870 + 1000 + 10, 999970 - 1000) := rfl

/-- `end_contract_subscription`, the events of the last block -/
example : lastEvents c ext (prep ++ [by_ 2 (.makeOffer 3 1), by_ 1 (.acceptOffer 3 2)] ++
      upTo 10 ++ upTo 20 ++ upTo 30 ++ upTo 40 ++ upTo 50 ++ upTo 60 ++ upTo 70 ++ upTo 80 ++ upTo 90 ++ [idle 100] ++ [.op .tick]) .hookRent =
    some [.contractEnded 3] := rfl

/-- `end_contract_renter` -/
example : see c ext (prep ++ [by_ 2 (.makeOffer 3 1), by_ 1 (.acceptOffer 3 2),
      by_ 1 (.changeTerms 3 100 5 (some 50) true), idle 10] ++ [.op .tick, .op .hookRent])
    (fun w => (w.now, w.rent.contracts.get 3, free 1 w, free 2 w)) =
    some (11, none, 999870 + 100 + 10, 999970 - 100) := rfl

/-- `end_contract_renter`, the events of the last block -/
example : lastEvents c ext (prep ++ [by_ 2 (.makeOffer 3 1), by_ 1 (.acceptOffer 3 2),
      by_ 1 (.changeTerms 3 100 5 (some 50) true), idle 10] ++ [.op .tick]) .hookRent =
    some [.contractEnded 3] := rfl

/-- `end_contract_rentee` -/
example : see c ext (prep ++ [by_ 2 (.makeOffer 3 1), by_ 1 (.acceptOffer 3 2), setBal 2 0, idle 10] ++ [.op .tick, .op .hookRent])
    (fun w => (w.now, w.rent.contracts.get 3, free 1 w, free 2 w)) =
    some (11, none, 999870 + 100 + 10, 10) := rfl

/-- `end_contract_rentee`, the events of the last block -/
example : lastEvents c ext (prep ++ [by_ 2 (.makeOffer 3 1), by_ 1 (.acceptOffer 3 2), setBal 2 0, idle 10] ++ [.op .tick]) .hookRent =
    some [.contractEnded 3] := rfl

/-- `renew_contract` -/
example : see c ext (prep ++ [by_ 2 (.makeOffer 3 1), by_ 1 (.acceptOffer 3 2)])
    (fun w => about 3 w) =
    some (some (some 2, some 1), [[], [11], []], some true) := rfl

/-- `renew_contract` -/
example : see c ext (prep ++ [by_ 2 (.makeOffer 3 1), by_ 1 (.acceptOffer 3 2), idle 10] ++ [.op .tick, .op .hookRent])
    (fun w => (w.now, about 3 w)) =
    some (11, (some (some 2, some 1), [[], [21], []], some true)) := rfl

/-- `renew_contract`, the events of the last block -/
example : lastEvents c ext (prep ++ [by_ 2 (.makeOffer 3 1), by_ 1 (.acceptOffer 3 2), idle 10] ++ [.op .tick]) .hookRent =
    some [.periodStarted 3] := rfl

/-- `remove_expired_contract` -/
example : see c ext (prep ++ [idle 2000] ++ [.op .tick, .op .hookRent])
    (fun w => (w.now, [0, 1, 2, 3, 4, 8].map fun n => w.rent.contracts.get n, w.rent.availQ)) =
    some (2001, [none, none, none, none, none, none], []) := rfl

/-- `remove_expired_contract`, the events of the last block -/
example : lastEvents c ext (prep ++ [idle 2000] ++ [.op .tick]) .hookRent =
    some [.contractExpired 0, .contractExpired 1, .contractExpired 2, .contractExpired 3, .contractExpired 4,
      .contractExpired 8] := rfl

end Conform.Rent
