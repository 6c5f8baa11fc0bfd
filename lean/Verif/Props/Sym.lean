import Verif.Proofs.SymStep
import Verif.Props.Demo
/-
C97: no account is special.
C98: byte strings are opaque.
-/
open Spec

variable {c : Cfg} {w w' w1 w2 : World} {x x1 x2 : Call} {o : Origin}

/-! ## C97 -/

/-- C97: rename the accounts, replace the contents of byte strings, everywhere: in the configuration, the state, the
origin and the arguments of any call.  The call then does the same up to the renaming, and fails with the same error if
it fails. -/
theorem C97_calls (ρ : Ren) (c : Cfg) (x : Call) (o : Origin) (w : World) :
    dispatch (ρ.cfg c) (ρ.call x) (ρ.origin o) (ρ.world w) = (dispatch c x o w).map ρ.world :=
  ρ.dispatch c w x o

/-- … and so do block hooks, fees, payouts and whole histories. -/
theorem C97_histories (ρ : Ren) (c : Cfg) (w : World) (l : List Op) :
    run (ρ.cfg c) (ρ.world w) (l.map ρ.op) = ρ.world (run c w l) :=
  ρ.run c w l

/-- … so that a renamed reachable state is reachable. -/
theorem C97_reachable (ρ : Ren) (hr : Reach c w) : Reach (ρ.cfg c) (ρ.world w) :=
  ρ.reach hr

/-- Two users can exchange their roles on the same chain: the pallets' own accounts are the only ones that are special. -/
theorem C97_swap {a b : AccountId} (ha : ¬ c.pot a) (hb : ¬ c.pot b) (x : Call) (o : Origin) (w : World) :
    dispatch c ((swap a b).call x) ((swap a b).origin o) ((swap a b).world w) =
      (dispatch c x o w).map (swap a b).world := by
  have h : ∀ p, c.pot p → (swap a b).acc p = p := by
    intro p hp
    show (if p = a then b else if p = b then a else p) = p
    rw [if_neg (by rintro rfl; exact ha hp), if_neg (by rintro rfl; exact hb hp)]
  have e : (swap a b).cfg c = c := by
    simp only [Ren.cfg, h _ (Cfg.pot_auc), h _ (Cfg.pot_rent), h _ (Cfg.pot_tee), h _ (Cfg.pot_rew)]
  have := (swap a b).dispatch c w x o
  rwa [e] at this

/-- Users 1 and 2 exchange their roles: 2 owns NFT 0 and gives it to 1. -/
example :
    ((Demo.at_ [Demo.mint1]).nfts.get 0).map (·.owner) = some 1 ∧
      (((swap 1 2).world (Demo.at_ [Demo.mint1])).nfts.get 0).map (·.owner) = some 2 ∧
      (dispatch Demo.cfg (.nft (.transferNft 0 2)) (.signed 1) (Demo.at_ [Demo.mint1])).isOk = true ∧
      (dispatch Demo.cfg (.nft (.transferNft 0 1)) (.signed 2) ((swap 1 2).world (Demo.at_ [Demo.mint1]))).isOk = true := by
  decide

/-! ## C98 -/

theorem blind_cfg (c : Cfg) : blind.cfg c = c := rfl

/-- C98: two states, and two calls, that differ only in the contents of byte strings (off-chain data, secrets, addresses
on other chains, enclave URIs): the calls fail with the same error, or both succeed, and then the new states differ again
only in the contents of byte strings. -/
theorem C98_calls (hw : blind.world w1 = blind.world w2) (hx : blind.call x1 = blind.call x2) (o : Origin) :
    (dispatch c x1 o w1).map blind.world = (dispatch c x2 o w2).map blind.world := by
  have h1 := blind.dispatch c w1 x1 o
  have h2 := blind.dispatch c w2 x2 o
  rw [hw, hx] at h1
  exact h1.symm.trans h2

/-- … and so for whole histories. -/
theorem C98_histories (hw : blind.world w1 = blind.world w2) {l1 l2 : List Op} (hl : l1.map blind.op = l2.map blind.op) :
    blind.world (run c w1 l1) = blind.world (run c w2 l2) := by
  rw [← blind.run, ← blind.run, hw, hl]

/-- … in particular everybody has the same tokens and owns the same NFTs. -/
theorem C98_assets (hw : blind.world w1 = blind.world w2) {l1 l2 : List Op} (hl : l1.map blind.op = l2.map blind.op) :
    (∀ a, (run c w1 l1).bal.freeOf a = (run c w2 l2).bal.freeOf a) ∧
      (∀ n, ((run c w1 l1).nfts.get n).map (fun d => (d.owner, d.creator, d.coll, d.royalty, d.st)) =
        ((run c w2 l2).nfts.get n).map (fun d => (d.owner, d.creator, d.coll, d.royalty, d.st))) := by
  have h := C98_histories (c := c) hw hl
  refine ⟨fun a => ?_, fun n => ?_⟩
  · have e := congrArg (fun w => w.bal.freeOf (blind.acc a)) h
    have e' : ∀ w : World, (blind.world w).bal.freeOf (blind.acc a) = w.bal.freeOf a := fun w => Ren.bal_freeOf ..
    simpa only [e'] using e
  · have e := congrArg (fun w => (w.nfts.get n).map (fun d => (d.owner, d.creator, d.coll, d.royalty, d.st))) h
    have e' : ∀ w : World, (blind.world w).nfts.get n = (w.nfts.get n).map blind.nft := fun w => FMap.mapv_get ..
    simp only [e', Option.map_map] at e
    exact e

/-- The sender's byte string is stored as it is: nothing is computed from it. -/
theorem C98_stored (f : Data → Data) (hf : ∀ d, f d = [] ↔ d = []) (l : List Op) (w : World) (n : NFTId) :
    let ρ : Ren := ⟨id, fun _ _ h => h, f, hf⟩
    ((run c (ρ.world w) (l.map ρ.op)).nfts.get n).map (·.offchain) = ((run c w l).nfts.get n).map (fun d => f d.offchain) := by
  intro ρ
  have h := ρ.run c w l
  rw [show ρ.cfg c = c from rfl] at h
  rw [h, show (ρ.world (run c w l)).nfts.get n = ((run c w l).nfts.get n).map ρ.nft from FMap.mapv_get .., Option.map_map]
  rfl

/-- Two histories that differ in the off-chain data of NFT 0. -/
example : blind.op Demo.mint1 = blind.op (Demo.by_ 1 (.nft (.createNft [7, 7] ⟨100000, by omega⟩ none false))) ∧
    Demo.mint1 ≠ Demo.by_ 1 (.nft (.createNft [7, 7] ⟨100000, by omega⟩ none false)) := by
  refine ⟨rfl, fun h => ?_⟩
  simp at h
