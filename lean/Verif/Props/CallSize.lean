import Verif.Proofs.CallSize
import Verif.Props.Rent
import Verif.Props.Auction
import Verif.Props.Make
/-
C120: the size a call is charged by covers the lists it rewrites.
-/
open Spec
variable {c : Cfg} {w w' : World} {a : AccountId}

/-- C120: whatever list an accepted call rewrites, the call is charged by a size, and the list had at most that many
entries.  A call without a size rewrites no list.  Missing: the lists in `Uncharged`, for which it is false, see
`C120_fails`. -/
theorem C120_partial (hc : c.Ok) (hr : Reach c w) {x : Call} (h : dispatch c x (.signed a) w = .ok w') {l : Lst}
    (hl : Rewritten w w' l) (hu : ¬ Uncharged x l) : ∃ s, callSize w x = some s ∧ lengthOf w l ≤ s :=
  dispatch_size hc hr h hl hu

/-- three NFTs of account 1, two of them in a collection -/
abbrev stocked : List Op :=
  [Demo.by_ 1 (.nft (.createColl [1] none)), Demo.by_ 1 (.nft (.createNft [1] ⟨5, by omega⟩ (some 0) false)),
   Demo.by_ 1 (.nft (.createNft [1] ⟨5, by omega⟩ (some 0) false))]

/-- burning an NFT rewrites the list of its collection, and is charged by its two entries -/
example : Reach Demo.cfg (Demo.at_ stocked) ∧
    dispatch Demo.cfg (.nft (.burnNft 0)) (.signed 1) (Demo.at_ stocked) =
      .ok (Demo.at_ (stocked ++ [Demo.by_ 1 (.nft (.burnNft 0))])) ∧
    Rewritten (Demo.at_ stocked) (Demo.at_ (stocked ++ [Demo.by_ 1 (.nft (.burnNft 0))])) (.members 0) ∧
    ¬ Uncharged (.nft (.burnNft 0)) (.members 0) ∧ lengthOf (Demo.at_ stocked) (.members 0) = 2 ∧
    callSize (Demo.at_ stocked) (.nft (.burnNft 0)) = some 2 :=
  ⟨Demo.reach _ (by decide), rfl, by unfold Rewritten; decide, (fun h => nomatch h), by decide, by decide⟩

/-- two auctions of account 1, the second without bids, seven blocks on -/
abbrev twoAuctions : List Op :=
  [Demo.mint1, Demo.mint1, Demo.by_ 3 (.mkt (.create .pub)), Demo.by_ 1 (.auc (.create 0 0 0 10 100 (some 5000))),
   Demo.by_ 1 (.auc (.create 1 0 0 10 100 none))] ++ Demo.ticks 7

/-- one auction with two bids, the last of which has extended it -/
abbrev prolonged : List Op :=
  [Demo.mint1, Demo.by_ 3 (.mkt (.create .pub)), Demo.by_ 1 (.auc (.create 0 0 0 10 100 (some 5000))),
   Demo.by_ 2 (.auc (.addBid 0 200))] ++ Demo.ticks 7 ++ [Demo.by_ 4 (.auc (.addBid 0 300))]

/-- a contract for manual acceptance with offers of accounts 2 and 4 -/
abbrev twoOffers : List Op :=
  [Demo.mint1, Demo.by_ 1 (.rent (.create 0 (.sub 5 none true) (.manual none) true (.tokens 100) .none .none)),
   Demo.by_ 2 (.rent (.makeOffer 0 0)), Demo.by_ 4 (.rent (.makeOffer 0 0))]

/-- the contract expires, its offers stay, and the NFT is offered again for whoever comes first -/
abbrev staleOffers : List Op :=
  twoOffers ++ Demo.ticks 20 ++ [.hookRent,
    Demo.by_ 1 (.rent (.create 0 (.fixed 10) (.auto none) true (.tokens 100) .none .none))]

/-- a transmission with one of two consents -/
abbrev oneConsent : List Op :=
  [Demo.mint1, Demo.by_ 1 (.tr (.set 0 2 (.onConsent [3, 4, 5] 3) .anytime)), Demo.by_ 3 (.tr (.addConsent 0))]

/-- The code charges too little for each of the ten combinations: the list rewritten is longer than the size. -/
theorem C120_fails :
    Undercharged Demo.cfg (.auc (.addBid 1 200)) .deadlines ∧
    Undercharged Demo.cfg (.auc (.end_ 0)) (.bids 0) ∧
    Undercharged Demo.cfg (.auc (.buyItNow 0 5000)) (.bids 0) ∧
    Undercharged Demo.cfg (.rent (.cancel 0)) (.offers 0) ∧
    Undercharged Demo.cfg (.rent (.rent 0 20)) (.offers 0) ∧
    Undercharged Demo.cfg (.rent (.makeOffer 0 0)) (.offers 0) ∧
    Undercharged Demo.cfg (.rent (.acceptOffer 0 2)) (.offers 0) ∧
    Undercharged Demo.cfg (.rent (.changeTerms 0 50 6 none true)) (.offers 0) ∧
    Undercharged Demo.cfg (.tr (.remove 0)) (.consents 0) ∧
    Undercharged Demo.cfg (.tr (.addConsent 0)) (.consents 0) := by
  refine ⟨⟨Demo.at_ twoAuctions, _, 2, _, Demo.reach _ (by decide), by decide, rfl, ?_, rfl, by decide⟩,
    ⟨Demo.at_ prolonged, _, 1, _, Demo.reach _ (by decide), by decide, rfl, ?_, rfl, by decide⟩,
    ⟨Demo.at_ prolonged, _, 6, _, Demo.reach _ (by decide), by decide, rfl, ?_, rfl, by decide⟩,
    ⟨Demo.at_ twoOffers, _, 1, _, Demo.reach _ (by decide), by decide, rfl, ?_, rfl, by decide⟩,
    ⟨Demo.at_ staleOffers, _, 6, _, Demo.reach _ (by decide), by decide, rfl, ?_, rfl, by decide⟩,
    ⟨Demo.at_ twoOffers, _, 6, _, Demo.reach _ (by decide), by decide, rfl, ?_, rfl, by decide⟩,
    ⟨Demo.at_ twoOffers, _, 1, _, Demo.reach _ (by decide), by decide, rfl, ?_, rfl, by decide⟩,
    ⟨Demo.at_ twoOffers, _, 1, _, Demo.reach _ (by decide), by decide, rfl, ?_, rfl, by decide⟩,
    ⟨Demo.at_ oneConsent, _, 1, _, Demo.reach _ (by decide), by decide, rfl, ?_, rfl, by decide⟩,
    ⟨Demo.at_ oneConsent, _, 4, _, Demo.reach _ (by decide), by decide, rfl, ?_, rfl, by decide⟩⟩ <;>
    (unfold Rewritten; decide)
