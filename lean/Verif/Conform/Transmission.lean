import Verif.Conform.Base
/-
The tests of transmission-protocols/src/tests/extrinsics.rs and hooks.rs on the model.
-/
namespace Conform.Transmission

/-- transmission-protocols/src/tests/mock.rs: the constants -/
def c : Cfg :=
  { cfg0 with ed := 1, trMaxDur := 1000, trConsents := 10, trLimit := 100, trActions := 10 }

/-- `ExtBuilder::new_build(vec![(ALICE, 1000), (BOB, 1000)])` with the fees of the mock -/
def ext : World :=
  let w := blank [(1, 1000), (2, 1000)]
  { w with
    nft := { w.nft with fee := 10, secretFee := 75, capsuleFee := 100 }
    tr := { w.tr with feeAt := 5, feeReset := 10, feeConsent := 15, feeConsentAt := 20 } }

/-- accounts: ALICE 1, BOB 2, CHARLIE 3, DAVE 4 -/
abbrev by_ (a : AccountId) (x : TrM.Call) : Act := sg a (.tr x)

/-- `prepare_tests`: NFT 0 of ALICE and 1 of BOB -/
def prep : List Act :=
  [1, 2].map fun a => sg a (.nft (.createNft [] (pm 0) none false))

/-- `run_to_block(n)`, from block `m` -/
abbrev blocks (m n : Block) : List Act := (List.replicate (n - m) [Act.op .tick, .op .hookTr]).flatten

/-- ALICE sets a protocol for NFT 0 in favour of BOB -/
abbrev set0 (p : Protocol) (k : Cancellation := .anytime) : Act := by_ 1 (.set 0 2 p k)

/-- consent of two among the four accounts -/
abbrev two : Protocol := .onConsent [1, 2, 3, 4] 2
/-- the same, not before block 10 -/
abbrev twoAt : Protocol := .onConsentAtBlock [1, 2, 3, 4] 2 10
/-- the same with three accounts -/
abbrev threeAt : Protocol := .onConsentAtBlock [1, 2, 3] 2 10

/-- `fill_queue(100, B_NFT, 100)` -/
abbrev fillQueue : Act := .poke fun w => { w with tr := { w.tr with queue := w.tr.queue ++ List.replicate 100 (1, 100) } }
/-- `fill_consent_list(10, A_NFT, BOB)` -/
abbrev fillConsents : Act :=
  .poke fun w => { w with tr := { w.tr with consents := w.tr.consents.insert 0 (List.replicate 10 2) } }

/-- `assert_noop!` of a signed call after the steps `l` -/
abbrev Bad (l : List Act) (a : AccountId) (x : TrM.Call) (e : String) : Prop :=
  fails c ext l (.signed a) (.tr x) = some (.e e)

/-- `assert_ok!` of a signed call after the steps `l`, its last event, and what is seen afterwards -/
abbrev Good {α : Type} (l : List Act) (a : AccountId) (x : TrM.Call) (e : Event) (f : World → α) (v : α) : Prop :=
  lastEvent c ext l (.signed a) (.tr x) = some e ∧ see c ext (l ++ [by_ a x]) f = some v

/-- owner of the NFT and its flag; is there a transmission; its block in the queue; consents -/
abbrev about (n : NFTId) (w : World) :
    Option (AccountId × Bool) × Bool × Option Block × Option (List AccountId) :=
  ((w.nfts.get n).map fun d => (d.owner, d.st.transmission), (w.tr.trans.get n).isSome, w.tr.queue.find n,
   w.tr.consents.get n)

/-! `mod set_transmission_protocol` -/

/-- `set_transmission_protocol_at_block` -/
example : Good (prep) 1 (.set 0 2 (.atBlock 10) .none)
    (.protocolSet 0 2 (.atBlock 10) .none)
    (fun w => (about 0 w, free 1 w))
    ((some (1, true), true, some 10, none), 985) := ⟨rfl, rfl⟩

/-- `set_transmission_protocol_at_block_with_reset` -/
example : Good (prep) 1 (.set 0 2 (.atBlockWithReset 10) .none)
    (.protocolSet 0 2 (.atBlockWithReset 10) .none)
    (fun w => (about 0 w, free 1 w))
    ((some (1, true), true, some 10, none), 980) := ⟨rfl, rfl⟩

/-- `set_transmission_protocol_on_consent` -/
example : Good (prep) 1 (.set 0 2 two .none)
    (.protocolSet 0 2 (two) .none)
    (fun w => (about 0 w, free 1 w))
    ((some (1, true), true, none, none), 975) := ⟨rfl, rfl⟩

/-- `set_transmission_protocol_on_consent_at_block` -/
example : Good (prep) 1 (.set 0 2 twoAt .none)
    (.protocolSet 0 2 (twoAt) .none)
    (fun w => (about 0 w, free 1 w))
    ((some (1, true), true, none, none), 970) := ⟨rfl, rfl⟩

/-- `nft_not_found` -/
example : Bad (prep) 1 (.set 1001 2 (.atBlock 10) .none) "NFTNotFound" := rfl

/-- `not_the_nft_owner` -/
example : Bad (prep) 1 (.set 1 2 (.atBlock 10) .none) "NotTheNFTOwner" := rfl

/-- `invalid_recipient` -/
example : Bad (prep) 1 (.set 0 1 (.atBlock 10) .none) "InvalidRecipient" := rfl

/-- `cannot_set_transmission_for_listed_nfts` -/
example :
    Bad (prep ++ [setState 0 { listed := true }]) 1
      (.set 0 2 (.atBlock 10) .none) "CannotSetTransmissionForListedNFTs" := rfl

/-- `cannot_set_transmission_for_delegated_nfts` -/
example :
    Bad (prep ++ [setState 0 { delegated := true }]) 1
      (.set 0 2 (.atBlock 10) .none) "CannotSetTransmissionForDelegatedNFTs" := rfl

/-- `cannot_set_transmission_for_rented_nfts` -/
example :
    Bad (prep ++ [setState 0 { rented := true }]) 1
      (.set 0 2 (.atBlock 10) .none) "CannotSetTransmissionForRentedNFTs" := rfl

/-- `cannot_set_transmission_for_syncing_secret_nfts` -/
example :
    Bad (prep ++ [setState 0 { syncSecret := true }]) 1
      (.set 0 2 (.atBlock 10) .none) "CannotSetTransmissionForSyncingSecretNFTs" := rfl

/-- `cannot_set_transmission_for_syncing_capsules` -/
example :
    Bad (prep ++ [setState 0 { syncCapsule := true }]) 1
      (.set 0 2 (.atBlock 10) .none) "CannotSetTransmissionForSyncingCapsules" := rfl

/-- `cannot_set_transmission_for_nfts_in_transmission` -/
example :
    Bad (prep ++ [setState 0 { transmission := true }]) 1
      (.set 0 2 (.atBlock 10) .none) "CannotSetTransmissionForNFTsInTransmission" := rfl

/-- `cannot_set_transmission_for_not_created_soulbound_nfts` -/
example :
    Bad (prep ++ [.poke fun w => match w.nfts.get 1 with
        | some d => w.putNft 1 { d with owner := 1, st := { d.st with soulbound := true } }
        | none => w]) 1
      (.set 1 2 (.atBlock 10) .none) "CannotSetTransmissionForNotCreatedSoulboundNFTs" := rfl

/-- `cannot_set_transmission_in_the_past` -/
example : Bad (prep ++ blocks 1 20) 1 (.set 0 2 (.atBlockWithReset 10) .none) "CannotSetTransmissionInThePast" := rfl

/-- `transmission_is_in_too_much_time` -/
example : Bad (prep ++ blocks 1 10) 1 (.set 0 2 (.atBlockWithReset 1011) .none) "TransmissionIsInTooMuchTime" := rfl

/-- `threshold_too_low` -/
example : Bad (prep) 1 (.set 0 2 (.onConsent [1] 0) .none) "ThresholdTooLow" := rfl

/-- `threshold_too_high` -/
example : Bad (prep) 1 (.set 0 2 (.onConsent [1] 11) .none) "ThresholdTooHigh" := rfl

/-- `invalid_consent_list` -/
example : Bad (prep) 1 (.set 0 2 (.onConsent [1] 10) .none) "InvalidConsentList" := rfl

/-- `duplicate_in_consent_list` -/
example : Bad (prep) 1 (.set 0 2 (.onConsent [1, 1] 2) .none) "DuplicatesInConsentList" := rfl

/-- `simultaneous_transmission_limit_reached` -/
example : Bad (prep ++ [fillQueue]) 1 (.set 0 2 (.atBlock 10) .none) "SimultaneousTransmissionLimitReached" := rfl

/-- `insufficient_balance` -/
example :
    Bad (prep ++ [.poke fun w => w.putBal (w.bal.setFree 1 0)]) 1
      (.set 0 2 (.atBlock 10) .none) "InsufficientBalance" := rfl

/-! `mod remove_transmission_protocol` -/

/-- `remove_transmission_protocol_at_block` -/
example : Good (prep ++ [set0 (.atBlock 10)]) 1 (.remove 0)
    (.protocolRemoved 0)
    (fun w => about 0 w)
    (some (1, false), false, none, none) := ⟨rfl, rfl⟩

/-- `remove_transmission_protocol_at_block_with_reset` -/
example : Good (prep ++ [set0 (.atBlockWithReset 10) (.untilBlock 8)]) 1 (.remove 0)
    (.protocolRemoved 0)
    (fun w => about 0 w)
    (some (1, false), false, none, none) := ⟨rfl, rfl⟩

/-- `remove_transmission_protocol_on_consent` -/
example : Good (prep ++ [set0 two (.untilBlock 8), by_ 2 (.addConsent 0)]) 1 (.remove 0)
    (.protocolRemoved 0)
    (fun w => about 0 w)
    (some (1, false), false, none, none) := ⟨rfl, rfl⟩

/-- `remove_transmission_protocol_on_consent_at_block` -/
example : Good (prep ++ [set0 twoAt (.untilBlock 8), by_ 2 (.addConsent 0)]) 1 (.remove 0)
    (.protocolRemoved 0)
    (fun w => about 0 w)
    (some (1, false), false, none, none) := ⟨rfl, rfl⟩

/-- `nft_not_found` -/
example : Bad (prep) 1 (.remove 1001) "NFTNotFound" := rfl

/-- `not_the_nft_owner` -/
example : Bad (prep) 1 (.remove 1) "NotTheNFTOwner" := rfl

/-- `nft_not_in_transmission` -/
example : Bad (prep) 1 (.remove 0) "NFTIsNotInTransmission" := rfl

/-- `transmission_not_found` -/
example : Bad (prep ++ [setState 0 { transmission := true }]) 1 (.remove 0) "TransmissionNotFound" := rfl

/-- `protocol_not_cancellable` -/
example : Bad (prep ++ [set0 (.atBlock 10) .none]) 1 (.remove 0) "ProtocolIsNotCancellable" := rfl

/-- `protocol_not_cancellable_until_block_passed` -/
example :
    Bad (prep ++ [set0 (.atBlock 10) (.untilBlock 8)] ++ blocks 1 9) 1
      (.remove 0) "ProtocolIsNotCancellable" := rfl

/-! `mod reset_timer` -/

/-- `reset_timer` -/
example : Good (prep ++ [set0 (.atBlockWithReset 10)]) 1 (.resetTimer 0 20)
    (.timerReset 0 20)
    (fun w => about 0 w)
    (some (1, true), true, some 20, none) := ⟨rfl, rfl⟩

/-- `nft_not_found` -/
example : Bad (prep) 1 (.resetTimer 1001 20) "NFTNotFound" := rfl

/-- `not_the_nft_owner` -/
example : Bad (prep) 1 (.resetTimer 1 20) "NotTheNFTOwner" := rfl

/-- `nfts_not_in_transmission` -/
example : Bad (prep) 1 (.resetTimer 0 20) "NFTIsNotInTransmission" := rfl

/-- `transmission_not_found` -/
example : Bad (prep ++ [setState 0 { transmission := true }]) 1 (.resetTimer 0 20) "TransmissionNotFound" := rfl

/-- `protocol_timer_cannot_be_reset` -/
example : Bad (prep ++ [set0 (.atBlock 10)]) 1 (.resetTimer 0 20) "ProtocolTimerCannotBeReset" := rfl

/-- `cannot_set_transmission_in_the_past` -/
example :
    Bad (prep ++ [set0 (.atBlockWithReset 10)] ++ blocks 1 5) 1
      (.resetTimer 0 5) "CannotSetTransmissionInThePast" := rfl

/-- `transmission_is_in_too_much_time` -/
example :
    Bad (prep ++ blocks 1 10 ++ [set0 (.atBlockWithReset 20)]) 1
      (.resetTimer 0 1021) "TransmissionIsInTooMuchTime" := rfl

/-! `mod add_consent` -/

/-- `add_consent` -/
example : Good (prep ++ [set0 two]) 2 (.addConsent 0)
    (.consentAdded 0 2)
    (fun w => about 0 w)
    (some (1, true), true, none, some [2]) := ⟨rfl, rfl⟩

/-- `add_consent_reached_threshold_transmitted` -/
example : Good (prep ++ [set0 two, by_ 1 (.addConsent 0)]) 2 (.addConsent 0)
    (.transmitted 0)
    (fun w => about 0 w)
    (some (2, false), false, none, none) := ⟨rfl, rfl⟩

/-- `add_consent_reached_threshold_transmitted` -/
example : lastEvents c ext (prep ++ [set0 two, by_ 1 (.addConsent 0)]) (.call (.signed 2) (.tr (.addConsent 0))) =
    some [.consentAdded 0 2, .thresholdReached 0, .transmitted 0] := rfl

/-- `add_consent_reached_threshold_put_in_queue` -/
example : Good (prep ++ [set0 twoAt, by_ 1 (.addConsent 0)]) 2 (.addConsent 0)
    (.thresholdReached 0)
    (fun w => about 0 w)
    (some (1, true), true, some 10, none) := ⟨rfl, rfl⟩

/-- `nft_not_found` -/
example : Bad (prep) 1 (.addConsent 1001) "NFTNotFound" := rfl

/-- `nft_is_not_in_transmission` -/
example : Bad (prep) 1 (.addConsent 0) "NFTIsNotInTransmission" := rfl

/-- `transmission_not_found` -/
example : Bad (prep ++ [setState 0 { transmission := true }]) 1 (.addConsent 0) "TransmissionNotFound" := rfl

/-- `protocol_does_not_accept_consent` -/
example : Bad (prep ++ [set0 (.atBlock 10)]) 1 (.addConsent 0) "ProtocolDoesNotAcceptConsent" := rfl

/-- `consent_already_reached_threshold` -/
example :
    Bad (prep ++ [set0 twoAt, by_ 1 (.addConsent 0), by_ 2 (.addConsent 0)]) 3
      (.addConsent 0) "ConsentAlreadyReachedThreshold" := rfl

/-- `consent_not_allowed` -/
example : Bad (prep ++ [set0 threeAt]) 4 (.addConsent 0) "ConsentNotAllowed" := rfl

/-- `already_added_consent` -/
example : Bad (prep ++ [set0 threeAt, by_ 1 (.addConsent 0)]) 1 (.addConsent 0) "AlreadyAddedConsent" := rfl

/-- `consent_list_full` -/
example : Bad (prep ++ [set0 threeAt, fillConsents]) 1 (.addConsent 0) "ConsentListFull" := rfl

/-- `simultaneous_transmission_limit_reached` -/
example :
    Bad (prep ++ [set0 threeAt, fillQueue, by_ 2 (.addConsent 0)]) 1
      (.addConsent 0) "SimultaneousTransmissionLimitReached" := rfl

/-! `mod set_protocol_fee` -/

/-- `set_protocol_fee` -/
example : see c (blank []) [rt (.root (.trFee .atBlock 20)), rt (.root (.trFee .atBlockWithReset 40)),
      rt (.root (.trFee .onConsent 60)), rt (.root (.trFee .onConsentAtBlock 80))]
    (fun w => (w.tr.feeAt, w.tr.feeReset, w.tr.feeConsent, w.tr.feeConsentAt)) = some (20, 40, 60, 80) := rfl

/-- `set_protocol_fee` -/
example : lastEvent c (blank []) [] .root (.root (.trFee .atBlock 20)) = some (.protocolFeeSet .atBlock 20) := rfl

/-- `set_protocol_fee` -/
example : lastEvent c (blank []) [] .root (.root (.trFee .atBlockWithReset 40)) = some (.protocolFeeSet .atBlockWithReset 40) := rfl

/-- `set_protocol_fee` -/
example : lastEvent c (blank []) [] .root (.root (.trFee .onConsent 60)) = some (.protocolFeeSet .onConsent 60) := rfl

/-- `set_protocol_fee` -/
example : lastEvent c (blank []) [] .root (.root (.trFee .onConsentAtBlock 80)) = some (.protocolFeeSet .onConsentAtBlock 80) := rfl

/-- `bad_origin` -/
example : fails c ext [] (.signed 1) (.root (.trFee .onConsentAtBlock 20)) = some (.e "BadOrigin") := rfl

/-! hooks.rs -/

/-- `transmit_at_block` -/
example : see c ext (prep ++ [set0 (.atBlock 10) .none] ++ blocks 1 9 ++ [.op .tick] ++ [.op .hookTr])
    (fun w => about 0 w) = some (some (2, false), false, none, none) := rfl

/-- `transmit_at_block` -/
example : (lastEvents c ext (prep ++ [set0 (.atBlock 10) .none] ++ blocks 1 9 ++ [.op .tick]) .hookTr).bind (·.getLast?) =
    some (.transmitted 0) := rfl

/-- `transmit_at_block_with_reset` -/
example : see c ext (prep ++ [set0 (.atBlockWithReset 10) .none] ++ blocks 1 8 ++ [by_ 1 (.resetTimer 0 20)] ++ blocks 8 19 ++ [.op .tick] ++ [.op .hookTr])
    (fun w => about 0 w) = some (some (2, false), false, none, none) := rfl

/-- `transmit_at_block_with_reset` -/
example : (lastEvents c ext (prep ++ [set0 (.atBlockWithReset 10) .none] ++ blocks 1 8 ++ [by_ 1 (.resetTimer 0 20)] ++ blocks 8 19 ++ [.op .tick]) .hookTr).bind (·.getLast?) =
    some (.transmitted 0) := rfl

/-- `transmit_on_consent_at_block` -/
example : see c ext (prep ++ [set0 twoAt .none, by_ 1 (.addConsent 0), by_ 2 (.addConsent 0)] ++ blocks 1 9 ++ [.op .tick] ++ [.op .hookTr])
    (fun w => about 0 w) = some (some (2, false), false, none, none) := rfl

/-- `transmit_on_consent_at_block` -/
example : (lastEvents c ext (prep ++ [set0 twoAt .none, by_ 1 (.addConsent 0), by_ 2 (.addConsent 0)] ++ blocks 1 9 ++ [.op .tick]) .hookTr).bind (·.getLast?) =
    some (.transmitted 0) := rfl

/-- `multiple_transmit_at_block` -/
example : see c ext (prep ++ [set0 (.atBlock 10) .none, by_ 2 (.set 1 1 (.atBlock 10) .none)] ++ blocks 1 9 ++ [.op .tick] ++ [.op .hookTr])
    (fun w => (about 0 w, about 1 w)) = some ((some (2, false), false, none, none), (some (1, false), false, none, none)) := rfl

/-- `multiple_transmit_at_block` -/
example : (lastEvents c ext (prep ++ [set0 (.atBlock 10) .none, by_ 2 (.set 1 1 (.atBlock 10) .none)] ++ blocks 1 9 ++ [.op .tick]) .hookTr).bind (·.getLast?) =
    some (.transmitted 1) := rfl

end Conform.Transmission
