import Verif.Proofs.ReasonReal
import Verif.Props.Auction
import Verif.Props.Tee
/-
Property C117: the error of a refused call states a true reason, and one that alone refuses the call.
-/
variable {c : Cfg} {w : World}
set_option maxRecDepth 10000
open Spec Spec.Accept Spec.Why

/-- C117, the part that holds: what the error of a refused call states, in the reading of `Spec.Why`, is true of the call
and the chain.  Three names say more than that, see below. -/
theorem C117_partial (hc : c.Ok) (hr : Reach c w) {x : Call} {o : Origin} {s : String}
    (ho : ∀ a, o = .signed a → ¬ c.pot a) (h : dispatch c x o w = .error (.e s)) : States c w o x s :=
  dispatch_reason hc hr ho h

/-- C117, the other half: each of these reasons alone refuses the call, whatever else holds.  So a caller who does not
remove the reason named by the error cannot succeed. -/
theorem C117_real (hc : c.Ok) (hr : Reach c w) {x : Call} {o : Origin} {s : String}
    (ho : ∀ a, o = .signed a → ¬ c.pot a) (h : States c w o x s) : ¬ ∃ w', dispatch c x o w = .ok w' :=
  fun hw => states_real hc hr h ((C115 hc hr ho).1 hw)

/-- A call is refused exactly if there is one of these reasons, or it would crash. -/
theorem C117_complete (hc : c.Ok) (hr : Reach c w) {x : Call} {o : Origin} (ho : ∀ a, o = .signed a → ¬ c.pot a) :
    (¬ ∃ w', dispatch c x o w = .ok w') ↔ (∃ s, States c w o x s) ∨ ∃ s, dispatch c x o w = .error (.panic s) := by
  constructor
  · intro h
    cases e : dispatch c x o w with
    | ok w' => exact absurd ⟨w', e⟩ h
    | error y =>
      cases y with
      | e s => exact .inl ⟨s, C117_partial hc hr ho e⟩
      | panic s => exact .inr ⟨s, rfl⟩
  · rintro (⟨s, h⟩ | ⟨s, h⟩)
    · exact C117_real hc hr ho h
    · rintro ⟨w', h'⟩; rw [h] at h'; cases h'

-- account 2 tries to burn the NFT of account 1, and account 1 to burn it while it is listed
example : let l := [Demo.mint1, Demo.by_ 2 (.mkt (.create .pub)), Demo.by_ 1 (.mkt (.list 0 0 500))]
    Demo.cfg.Ok ∧ Reach Demo.cfg (Demo.at_ l) ∧
    dispatch Demo.cfg (.nft (.burnNft 0)) (.signed 2) (Demo.at_ l) = .error (.e "NotTheNFTOwner") ∧
    dispatch Demo.cfg (.nft (.burnNft 0)) (.signed 1) (Demo.at_ l) = .error (.e "CannotBurnListedNFTs") :=
  ⟨Demo.cfg_ok, Demo.reach _ (by decide), rfl, rfl⟩

-- the reasons themselves in that state: both hold of the call by account 2, one of that by account 1
example : let l := [Demo.mint1, Demo.by_ 2 (.mkt (.create .pub)), Demo.by_ 1 (.mkt (.list 0 0 500))]
    States Demo.cfg (Demo.at_ l) (.signed 2) (.nft (.burnNft 0)) "NotTheNFTOwner" ∧
    States Demo.cfg (Demo.at_ l) (.signed 2) (.nft (.burnNft 0)) "CannotBurnListedNFTs" ∧
    States Demo.cfg (Demo.at_ l) (.signed 1) (.nft (.burnNft 0)) "CannotBurnListedNFTs" :=
  have h : ∃ d, (Demo.at_ [Demo.mint1, Demo.by_ 2 (.mkt (.create .pub)), Demo.by_ 1 (.mkt (.list 0 0 500))]).nfts.get 0 = some d ∧
      d.owner ≠ 2 ∧ d.st.listed = true := ⟨_, rfl, by decide, by decide⟩
  have ⟨d, h1, h2, h3⟩ := h
  ⟨.signed (.owner (n := 0) rfl ⟨d, h1, h2⟩), .signed (.bars (n := 0) rfl .burnListed ⟨d, h1, h3⟩),
    .signed (.bars (n := 0) rfl .burnListed ⟨d, h1, h3⟩)⟩

/-- The full claim fails: account 2 has 10000 tokens, the rent is 5, and renting fails with "NotEnoughFundsForRentFee".
The renter's account is empty, and 5 are too few for it to exist. -/
theorem C117_funds_fails : ∃ l : List Op, (∀ o ∈ l, o.Ok Demo.cfg) ∧ (Demo.at_ l).bal.freeOf 2 = 10000 ∧
    ((Demo.at_ l).rent.contracts.get 0).map (·.rentFee) = some (.tokens 5) ∧
    dispatch Demo.cfg (.rent (.rent 0 0)) (.signed 2) (Demo.at_ l) = .error (.e "NotEnoughFundsForRentFee") :=
  ⟨[Demo.mint1, Demo.by_ 1 (.nft (.transferNft 0 50)),
    Demo.by_ 50 (.rent (.create 0 (.fixed 10) (.auto none) true (.tokens 5) .none .none))], by decide, by decide, by decide,
    rfl⟩

/-- The full claim fails: after operator 8 has moved from enclave 18 to 28, no operator has the address 18, and registering
it fails with "EnclaveAddressAlreadyExists". -/
theorem C117_address_fails : ∃ l : List Op, (∀ o ∈ l, o.Ok Demo.cfg) ∧
    (Demo.at_ l).tee.data.l.all (fun e => e.2.addr ≠ 18) = true ∧ (Demo.at_ l).tee.registrations.l = [] ∧
    dispatch Demo.cfg (.tee (.register 18 [1])) (.signed 2) (Demo.at_ l) = .error (.e "EnclaveAddressAlreadyExists") :=
  ⟨Demo.moved, by decide, by decide, by decide, rfl⟩

/-- The full claim fails: a bid equal to the highest is refused with "CannotBidLessThanTheHighestBid". -/
theorem C117_equal_fails : ∃ l : List Op, (∀ o ∈ l, o.Ok Demo.cfg) ∧
    ((Demo.at_ l).auc.auctions.get 0).map (fun x => x.bids.map (·.2)) = some [300, 400] ∧
    dispatch Demo.cfg (.auc (.addBid 0 400)) (.signed 5) (Demo.at_ l) = .error (.e "CannotBidLessThanTheHighestBid") :=
  ⟨auctioned, by decide, by decide, rfl⟩
