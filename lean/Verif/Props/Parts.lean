import Verif.Proofs.Parts
import Verif.Props.Work
import Verif.Props.Tee
/-
Calls that combine others do what these do.
-/
open Spec

variable {c : Cfg} {w : World}

/-! ## C126 -/

/-- C126 (partial): a call that is a short form of others is accepted exactly if these are, made one after the other as a
unit, and leads to the same state: same balances, same NFTs, same schedules, same fees collected, everything but the record
of events.  Missing: the change of an enclave's address, see `C126_fails`. -/
theorem C126_partial (hc : c.Ok) (hr : Reach c w) {o : Origin} {x : Call} {l : List (Origin × Call)} (h : Splits c w o x l)
    (v : World) : Leads c w [(o, x)] v ↔ Leads c w l v := by
  cases h with
  | secret => exact Parts.leads (fun _ => NftM.secret_parts) v
  | capsule => exact Parts.leads (fun _ => NftM.capsule_parts) v
  | inColl => exact Parts.leads (fun _ => NftM.coll_parts) v
  | limited => exact Parts.leads (fun _ => NftM.limit_parts) v
  | undelegate => exact Parts.leads (fun _ => by rw [Parts.one]; simp only [dispatch, signedCall, NftM.call, NftM.delegateNft]; rfl) v
  | hand h1 h2 h3 h4 h5 => exact Parts.leads (fun _ => NftM.hand_parts h1 h2 h3 h4 h5) v
  | handMkt h1 h2 h3 => exact Parts.leads (fun _ => MktM.hand_parts h1 h2 h3) v
  | config => exact Parts.leads (fun _ => MktM.config_parts) v
  | rebid h1 h2 h3 h4 h5 =>
    exact Parts.leads (fun _ => AucM.rebid_parts hc (hr.auc hc) (hr.micro.balInv.pots _ Cfg.pot_auc) h1 h2 h3 h4 h5) v
  | dropRegistration h => exact Parts.leads (fun _ => TeeM.dropReg_parts h) v
  | dropUpdate => exact Parts.leads (fun _ => TeeM.dropUpd_parts) v
  | forceRemove h1 h2 => exact Parts.leads (fun _ => TeeM.forceRemove_parts h1 h2) v
  | forceAddrUri => exact Parts.leads (fun _ => TeeM.forceAU_parts) v
  | forceUriAddr => exact Parts.leads (fun _ => TeeM.forceUA_parts) v
  | forceUri h1 h2 => exact Parts.leads (fun _ => TeeM.forceU_parts hr.tinv h1 h2) v
  | mandate => exact mandate_parts v

/-- C126 as an equation: two accepted ways lead to the same state. -/
theorem C126_same_partial (hc : c.Ok) (hr : Reach c w) {o : Origin} {x : Call} {l : List (Origin × Call)}
    (h : Splits c w o x l) {w1 w2 : World} (h1 : dispatch c x o w = .ok w1) (h2 : batch c w l = .ok w2) :
    { w1 with evs := [] } = { w2 with evs := [] } := by
  obtain ⟨w3, h3, h4⟩ := (C126_partial hc hr h _).1 ⟨w1, by rw [Parts.one]; exact h1, rfl⟩
  rw [h2] at h3; cases h3
  exact h4.symm

/-- C126: if one of the parts is refused, whatever the others do, so is the short form. -/
theorem C126_refused_partial (hc : c.Ok) (hr : Reach c w) {o : Origin} {x : Call} {l : List (Origin × Call)}
    (h : Splits c w o x l) : (∃ e, dispatch c x o w = .error e) ↔ ∃ e, batch c w l = .error e := by
  have key := C126_partial hc hr h
  have one : batch c w [(o, x)] = dispatch c x o w := Parts.one
  constructor
  · rintro ⟨e, he⟩
    cases hb : batch c w l with
    | error e => exact ⟨e, rfl⟩
    | ok w1 =>
      obtain ⟨w2, h2, _⟩ := (key _).2 ⟨w1, hb, rfl⟩
      rw [one, he] at h2; cases h2
  · rintro ⟨e, he⟩
    cases hb : dispatch c x o w with
    | error e => exact ⟨e, rfl⟩
    | ok w1 =>
      obtain ⟨w2, h2, _⟩ := (key _).1 ⟨w1, by rw [one]; exact hb, rfl⟩
      rw [he] at h2; cases h2

namespace Demo

/-- a collection, a marketplace, an auction with two bids, enclaves at work -/
abbrev assorted : List Op := enclaves ++
  [by_ 1 (.nft (.createColl [1] none)), mint1, mint1, by_ 3 (.mkt (.create .pub)), by_ 1 (.auc (.create 0 0 0 10 100 none)),
   by_ 4 (.auc (.addBid 0 200)), by_ 2 (.auc (.addBid 0 400))]

end Demo

-- a secret NFT in a collection: both ways are accepted and lead to one and the same state
example : (batch Demo.cfg (Demo.at_ Demo.assorted)
      [(.signed 1, .nft (.createNft [7] ⟨5, by omega⟩ (some 0) false)), (.signed 1, .nft (.addSecret 2 [8]))]).isOk = true ∧
    ∀ v, Leads Demo.cfg (Demo.at_ Demo.assorted) [(.signed 1, .nft (.createSecret [7] [8] ⟨5, by omega⟩ (some 0) false))] v ↔
      Leads Demo.cfg (Demo.at_ Demo.assorted)
        [(.signed 1, .nft (.createNft [7] ⟨5, by omega⟩ (some 0) false)), (.signed 1, .nft (.addSecret 2 [8]))] v :=
  ⟨by decide +kernel, C126_partial (c := Demo.cfg) Demo.cfg_ok (Demo.reach _ (by decide)) .secret⟩

-- a capsule in somebody else's collection: both ways are refused
example : (∃ e, dispatch Demo.cfg (.nft (.createCapsule [7] [8] ⟨5, by omega⟩ (some 0) false)) (.signed 2) (Demo.at_ Demo.assorted) = .error e) ↔
    ∃ e, batch Demo.cfg (Demo.at_ Demo.assorted)
      [(.signed 2, .nft (.createNft [7] ⟨5, by omega⟩ (some 0) false)), (.signed 2, .nft (.toCapsule 2 [8]))] = .error e :=
  C126_refused_partial (c := Demo.cfg) Demo.cfg_ok (Demo.reach _ (by decide)) .capsule

example : (batch Demo.cfg (Demo.at_ Demo.assorted)
      [(.signed 2, .nft (.createNft [7] ⟨5, by omega⟩ (some 0) false)), (.signed 2, .nft (.toCapsule 2 [8]))]).isOk = false := by
  decide +kernel

-- a bid of 450 by the account whose bid of 200 stands
example : (batch Demo.cfg (Demo.at_ Demo.assorted)
      [(.signed 4, .auc (.removeBid 0)), (.signed 4, .auc (.addBid 0 450))]).isOk = true ∧
    ∀ v, Leads Demo.cfg (Demo.at_ Demo.assorted) [(.signed 4, .auc (.addBid 0 450))] v ↔
      Leads Demo.cfg (Demo.at_ Demo.assorted) [(.signed 4, .auc (.removeBid 0)), (.signed 4, .auc (.addBid 0 450))] v :=
  ⟨by decide +kernel, C126_partial (c := Demo.cfg) Demo.cfg_ok (Demo.reach _ (by decide))
    (.rebid (z := ⟨1, 0, 10, 100, none, [(4, 200), (2, 400)], 0, false⟩) (u := 200) rfl (by decide) (by decide) (by decide)
      (by decide))⟩

-- an NFT handed on, a marketplace handed on
example : (batch Demo.cfg (Demo.at_ Demo.assorted)
      [(.signed 1, .nft (.transferNft 1 2)), (.signed 2, .nft (.transferNft 1 3))]).isOk = true ∧
    ∀ v, Leads Demo.cfg (Demo.at_ Demo.assorted) [(.signed 1, .nft (.transferNft 1 3))] v ↔
      Leads Demo.cfg (Demo.at_ Demo.assorted) [(.signed 1, .nft (.transferNft 1 2)), (.signed 2, .nft (.transferNft 1 3))] v := by
  refine ⟨by decide +kernel, ?_⟩
  cases hd : (Demo.at_ Demo.assorted).nfts.get 1 with
  | none =>
    have : (Demo.at_ Demo.assorted).nfts.get 1 ≠ none := by decide
    exact absurd hd this
  | some d =>
    have : ((Demo.at_ Demo.assorted).nfts.get 1).map (·.st.soulbound) = some false := by decide
    rw [hd] at this
    exact C126_partial (c := Demo.cfg) Demo.cfg_ok (Demo.reach _ (by decide))
      (.hand hd (by simpa using this) (by decide) (by decide) (by decide))

-- root removes an operator at work, or has them ask for it and approves
example : (batch Demo.cfg (Demo.at_ Demo.assorted)
      [(.signed 8, .tee .unregister), (.root, .root (.tee (.approveUnregister 8)))]).isOk = true ∧
    ∀ v, Leads Demo.cfg (Demo.at_ Demo.assorted) [(.root, .root (.tee (.forceRemove 8)))] v ↔
      Leads Demo.cfg (Demo.at_ Demo.assorted) [(.signed 8, .tee .unregister), (.root, .root (.tee (.approveUnregister 8)))] v :=
  ⟨by decide +kernel, C126_partial (c := Demo.cfg) Demo.cfg_ok (Demo.reach _ (by decide)) (.forceRemove (by decide) (by decide))⟩

-- root sets a URI, or the operator asks for it and root approves
example : (batch Demo.cfg (Demo.at_ Demo.assorted)
      [(.signed 8, .tee (.update 18 [9])), (.root, .root (.tee (.approveUpdate 8)))]).isOk = true ∧
    ∀ v, Leads Demo.cfg (Demo.at_ Demo.assorted) [(.root, .root (.tee (.forceUpdate 8 none (some [9]))))] v ↔
      Leads Demo.cfg (Demo.at_ Demo.assorted) [(.signed 8, .tee (.update 18 [9])), (.root, .root (.tee (.approveUpdate 8)))] v := by
  refine ⟨by decide +kernel, ?_⟩
  cases hd : (Demo.at_ Demo.assorted).tee.data.get 8 with
  | none =>
    have : (Demo.at_ Demo.assorted).tee.data.get 8 ≠ none := by decide
    exact absurd hd this
  | some e =>
    have : ((Demo.at_ Demo.assorted).tee.data.get 8).map (·.addr) = some 18 := by decide
    rw [hd] at this
    have e1 : e.addr = 18 := by simpa using this
    have := C126_partial (c := Demo.cfg) Demo.cfg_ok (Demo.reach Demo.assorted (by decide)) (.forceUri (u := [9]) hd (by decide))
    rw [e1] at this
    exact this

/-- C126 fails for the address of an enclave: when root sets it, the old address no longer authenticates, when the operator
asks for it and root approves, the old address still does. -/
theorem C126_fails : ∃ w w1 w2, Reach Demo.cfg w ∧
    dispatch Demo.cfg (.root (.tee (.forceUpdate 8 (some 28) none))) .root w = .ok w1 ∧
    batch Demo.cfg w [(.signed 8, .tee (.update 28 [1])), (.root, .root (.tee (.approveUpdate 8)))] = .ok w2 ∧
    w1.tee.data.get 8 = w2.tee.data.get 8 ∧ (w.tee.data.get 8).map (·.uri) = some [1] ∧
    w1.tee.accOp.get 18 = none ∧ w2.tee.accOp.get 18 = some 8 :=
  ⟨Demo.at_ Demo.enclaves, _, _, Demo.reach _ (by decide), rfl, rfl, by decide, by decide, by decide, by decide⟩
