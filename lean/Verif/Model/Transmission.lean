import Verif.Model.Rent
/-
Model of /repo/transmission-protocols/src/lib.rs and types.rs.
-/
namespace TrM
variable (c : Cfg)

/-- `to_kind`, transmission-protocols/src/types.rs 47-57 -/
def kind : Protocol → ProtocolKind
  | .atBlock _ => .atBlock
  | .atBlockWithReset _ => .atBlockWithReset
  | .onConsent .. => .onConsent
  | .onConsentAtBlock .. => .onConsentAtBlock

/-- `get_end_block`, transmission-protocols/src/types.rs 58-66 -/
def endBlock : Protocol → Option Block
  | .atBlock b => some b
  | .atBlockWithReset b => some b
  | .onConsent .. => none
  | .onConsentAtBlock _ _ b => some b

/-- `get_block_to_queue`, transmission-protocols/src/types.rs 68-76 -/
def blockToQueue : Protocol → Option Block
  | .atBlock b => some b
  | .atBlockWithReset b => some b
  | .onConsent .. => none
  | .onConsentAtBlock .. => none

/-- `get_consent_data` (also `get_consent_list`, `get_threshold`, `can_add_consent`),
transmission-protocols/src/types.rs 88-126 -/
def consentData : Protocol → Option (List AccountId × Nat)
  | .atBlock _ => none
  | .atBlockWithReset _ => none
  | .onConsent l t => some (l, t)
  | .onConsentAtBlock l t _ => some (l, t)

/-- `can_reset_timer`, transmission-protocols/src/types.rs 78-86 -/
def canReset : Protocol → Bool
  | .atBlockWithReset _ => true
  | _ => false

/-- `is_cancellable`, transmission-protocols/src/types.rs 142-148 -/
def cancellable (now : Block) : Cancellation → Bool
  | .none => false
  | .untilBlock b => decide (now ≤ b)
  | .anytime => true

/-- `get_protocol_fee`, transmission-protocols/src/lib.rs 654-661 -/
def protocolFee (t : TrSt) : ProtocolKind → Balance
  | .atBlock => t.feeAt
  | .atBlockWithReset => t.feeReset
  | .onConsent => t.feeConsent
  | .onConsentAtBlock => t.feeConsentAt

/-- `transmit_nft`, transmission-protocols/src/lib.rs 640-651 -/
def transmit (w : World) (n : NFTId) : Except Err World := do
  let t ← getOr (w.tr.trans.get n) "TransmissionNotFound"
  let d ← getOr (w.nfts.get n) "NFTNotFound"
  let w := w.putNft n { d with owner := t.recipient, st := { d.st with transmission := false } }
  pure { w with tr := { w.tr with trans := w.tr.trans.erase n } }

/-- the queue after setting a protocol, transmission-protocols/src/lib.rs 381-395 -/
def enqueue (q : Queue) (n : NFTId) : Option Block → Except Err Queue
  | none => pure q
  | some b => do
    require (q.length + 1 ≤ c.trLimit) "SimultaneousTransmissionLimitReached"
    getOr (Queue.insert c.trLimit q n b) "SimultaneousTransmissionLimitReached"

/-- the block named by an `UntilBlock` cancellation -/
def untilBlock : Cancellation → Option Block
  | .untilBlock b => some b
  | _ => none

/-- `set_transmission_protocol`, transmission-protocols/src/lib.rs 309-421.  The loop that builds the
list of distinct accounts (361-370) is `List.dedup`-like; its length equals the list's iff the list
has no duplicates, and its push fails iff there are more distinct accounts than
`MaxConsentListSize`, which the type of the argument excludes. -/
def set (w : World) (who : AccountId) (n : NFTId) (recipient : AccountId) (p : Protocol)
    (k : Cancellation) : Except Err World := do
  require (∀ b ∈ untilBlock k, w.now < b) "CannotCancelTransmissionInThePast"
  let d ← getOr (w.nfts.get n) "NFTNotFound"
  require (d.owner = who) "NotTheNFTOwner"
  require (who ≠ recipient) "InvalidRecipient"
  require (d.st.listed = false) "CannotSetTransmissionForListedNFTs"
  require (d.st.delegated = false) "CannotSetTransmissionForDelegatedNFTs"
  require (d.st.rented = false) "CannotSetTransmissionForRentedNFTs"
  require (¬ (d.st.soulbound = true ∧ d.owner ≠ d.creator))
    "CannotSetTransmissionForNotCreatedSoulboundNFTs"
  require (d.st.syncSecret = false) "CannotSetTransmissionForSyncingSecretNFTs"
  require (d.st.syncCapsule = false) "CannotSetTransmissionForSyncingCapsules"
  require (d.st.transmission = false) "CannotSetTransmissionForNFTsInTransmission"
  require (∀ e ∈ endBlock p, w.now < e) "CannotSetTransmissionInThePast"
  require (∀ e ∈ endBlock p, e - w.now ≤ c.trMaxDur) "TransmissionIsInTooMuchTime"
  require (∀ x ∈ consentData p, x.1.length ≤ c.trConsents) "ConsentListFull"
  require (∀ x ∈ consentData p, x.1.Nodup) "DuplicatesInConsentList"
  require (∀ x ∈ consentData p, 0 < x.2) "ThresholdTooLow"
  require (∀ x ∈ consentData p, x.2 ≤ c.trConsents) "ThresholdTooHigh"
  require (∀ x ∈ consentData p, x.2 ≤ x.1.length) "InvalidConsentList"
  let q ← enqueue c w.tr.queue n (blockToQueue p)
  let b ← w.bal.payFee c.ed who (protocolFee w.tr (kind p))
  let w := w.putBal b
  let w := w.putNft n { d with st := { d.st with transmission := true } }
  let w := { w with tr := { w.tr with
    trans := w.tr.trans.insert n { recipient := recipient, protocol := p, cancellation := k }
    queue := q } }
  pure (w.ev (.protocolSet n))

/-- clean-up by kind, transmission-protocols/src/lib.rs 452-468 -/
def cleanup (t : TrSt) (n : NFTId) : ProtocolKind → TrSt
  | .atBlock => { t with queue := t.queue.remove n }
  | .atBlockWithReset => { t with queue := t.queue.remove n }
  | .onConsent => { t with consents := t.consents.erase n }
  | .onConsentAtBlock => { t with queue := t.queue.remove n, consents := t.consents.erase n }

/-- `remove_transmission_protocol`, transmission-protocols/src/lib.rs 426-475 -/
def remove (w : World) (who : AccountId) (n : NFTId) : Except Err World := do
  let d ← getOr (w.nfts.get n) "NFTNotFound"
  require (d.owner = who) "NotTheNFTOwner"
  require (d.st.transmission = true) "NFTIsNotInTransmission"
  let t ← getOr (w.tr.trans.get n) "TransmissionNotFound"
  require (cancellable w.now t.cancellation = true) "ProtocolIsNotCancellable"
  let w := w.putNft n { d with st := { d.st with transmission := false } }
  let s := cleanup w.tr n (kind t.protocol)
  pure { w with tr := { s with trans := s.trans.erase n } }

/-- `reset_timer`, transmission-protocols/src/lib.rs 478-518 -/
def resetTimer (w : World) (who : AccountId) (n : NFTId) (b : Block) : Except Err World := do
  let d ← getOr (w.nfts.get n) "NFTNotFound"
  require (d.owner = who) "NotTheNFTOwner"
  require (d.st.transmission = true) "NFTIsNotInTransmission"
  let t ← getOr (w.tr.trans.get n) "TransmissionNotFound"
  require (canReset t.protocol = true) "ProtocolTimerCannotBeReset"
  require (w.now < b) "CannotSetTransmissionInThePast"
  require (b - w.now ≤ c.trMaxDur) "TransmissionIsInTooMuchTime"
  let q ← w.tr.queue.update c.trLimit n b
  pure { w with tr := { w.tr with
    queue := q
    trans := w.tr.trans.insert n { t with protocol := .atBlockWithReset b } } }

/-- what happens once the consent is recorded, transmission-protocols/src/lib.rs 561-592.
`l` is the consent list including the new one. -/
def consentEffect (w : World) (n : NFTId) (p : Protocol) (threshold : Nat) (l : List AccountId)
    (who : AccountId) : Except Err World :=
  if l.length < threshold then
    pure (({ w with tr := { w.tr with consents := w.tr.consents.insert n l } } : World).ev
      (.consentAdded n who))
  else
    match endBlock p with
    | some e =>
      if e ≤ w.now then do
        let w' ← transmit { w with tr := { w.tr with consents := w.tr.consents.erase n } } n
        pure ((w'.ev (.consentAdded n who)).ev (.transmitted n))
      else do
        let q ← enqueue c w.tr.queue n (some e)
        pure (({ w with tr := { w.tr with
            queue := q
            consents := w.tr.consents.erase n } } : World).ev (.consentAdded n who))
    | none => do
      let w' ← transmit { w with tr := { w.tr with consents := w.tr.consents.erase n } } n
      pure ((w'.ev (.consentAdded n who)).ev (.transmitted n))

/-- `add_consent`, transmission-protocols/src/lib.rs 523-610 -/
def addConsent (w : World) (who : AccountId) (n : NFTId) : Except Err World := do
  let d ← getOr (w.nfts.get n) "NFTNotFound"
  require (d.st.transmission = true) "NFTIsNotInTransmission"
  let t ← getOr (w.tr.trans.get n) "TransmissionNotFound"
  let x ← getOr (consentData t.protocol) "ProtocolDoesNotAcceptConsent"
  require (kind t.protocol = .onConsentAtBlock → w.tr.queue.find n = none)
    "ConsentAlreadyReachedThreshold"
  require (who ∈ x.1) "ConsentNotAllowed"
  let old := (w.tr.consents.get n).getD []
  require (who ∉ old) "AlreadyAddedConsent"
  require (old.length < c.trConsents) "ConsentListFull"
  consentEffect c w n t.protocol x.2 (old ++ [who]) who

/-- `set_protocol_fee` (root), transmission-protocols/src/lib.rs 615-632 -/
def setFee (w : World) (k : ProtocolKind) (fee : Balance) : World :=
  match k with
  | .atBlock => { w with tr := { w.tr with feeAt := fee } }
  | .atBlockWithReset => { w with tr := { w.tr with feeReset := fee } }
  | .onConsent => { w with tr := { w.tr with feeConsent := fee } }
  | .onConsentAtBlock => { w with tr := { w.tr with feeConsentAt := fee } }

/-- Signed dispatchables. -/
inductive Call where
  | set (n : NFTId) (recipient : AccountId) (p : Protocol) (k : Cancellation)
  | remove (n : NFTId)
  | resetTimer (n : NFTId) (b : Block)
  | addConsent (n : NFTId)

/-- dispatch of the signed calls -/
def call (w : World) (who : AccountId) : Call → Except Err World
  | .set n r p k => set c w who n r p k
  | .remove n => remove w who n
  | .resetTimer n b => resetTimer c w who n b
  | .addConsent n => addConsent c w who n

/-- One transmission in the hook with its event, transmission-protocols/src/lib.rs 177-192; the flag
says whether it counts. -/
def hookOne (w : World) (n : NFTId) : World × Bool :=
  match transmit w n with
  | .ok w' => (w'.ev (.transmitted n), true)
  | .error _ => (w.ev (.transmissionError n), false)

/-- The loop of `on_initialize`, transmission-protocols/src/lib.rs 176-196. -/
def hookLoop (w : World) : Queue → Nat → World × Queue × Nat
  | [], k => (w, [], k)
  | (n, b) :: t, k =>
    if b ≤ w.now then
      let r := hookOne w n
      let k' := if r.2 then k + 1 else k
      if c.trActions ≤ k' then (r.1, t, k') else hookLoop r.1 t k'
    else (w, (n, b) :: t, k)

/-- `on_initialize`, transmission-protocols/src/lib.rs 167-202 -/
def hook (w : World) : World :=
  let r := hookLoop c w w.tr.queue 0
  if 0 < r.2.2 then { r.1 with tr := { r.1.tr with queue := r.2.1 } } else r.1

end TrM
