import Verif.Proofs.Sym
/-
Renaming commutes with the calls of the NFT and the marketplace pallet.
-/
open Spec Sym

/-- Pushes a renaming through a model function and closes the goal up to decidability instances. -/
macro "ren" "[" ls:Lean.Parser.Tactic.simpLemma,* "]" : tactic =>
  `(tactic| (simp [-bind_pure_comp, $ls,*] <;> congr!))

namespace NftM
variable (ρ : Ren) (c : Cfg) (w : World) (who : AccountId)

theorem ren_next : nextNftId (ρ.world w) = Except.map (fun x => (x.1, ρ.world x.2)) (nextNftId w) := by
  ren [nextNftId, Ren.world, Ren.nftSt]

theorem ren_push (id : NFTId) (k : Option CollId) :
    pushToColl (ρ.cfg c) (ρ.world w) (ρ.acc who) id k = Except.map ρ.world (pushToColl c w who id k) := by
  cases k with
  | none => rfl
  | some k => ren [pushToColl, Ren.world, Ren.nftSt, Ren.coll, Ren.cfg, collCap]

theorem ren_nextNft : (ρ.world w).nft.nextNft = w.nft.nextNft := rfl

theorem ren_createHelper (d : Data) (r : Permill) (k : Option CollId) (s : Bool) :
    createHelper (ρ.cfg c) (ρ.world w) (ρ.acc who) (ρ.data d) r k s =
      Except.map ρ.world (createHelper c w who d r k s) := by
  have h2 : ∀ (w : World) n, (ρ.world w).putNft n
      { owner := ρ.acc who, creator := ρ.acc who, offchain := ρ.data d, coll := k, royalty := r, st := { soulbound := s } } =
      ρ.world (w.putNft n { owner := who, creator := who, offchain := d, coll := k, royalty := r, st := { soulbound := s } }) :=
    fun w n => by rw [← Ren.world_putNft]; rfl
  show ((ρ.bal w.bal).payFee c.ed (ρ.acc who) w.nft.fee >>= _) = _
  simp only [createHelper, Ren.bal_payFee, bind_map', map_bind', ren_nextNft, Ren.world_putBal, ren_push, ren_next,
    map_pure', h2]

theorem ren_addSecretHelper (n : NFTId) (d : Data) :
    addSecretHelper (ρ.cfg c) (ρ.world w) (ρ.acc who) n (ρ.data d) =
      Except.map ρ.world (addSecretHelper c w who n d) := by
  ren [addSecretHelper, Ren.world, Ren.nftSt, Ren.nft, Ren.cfg, Ren.bal_payFee, World.putBal, World.putNft]

theorem ren_toCapsuleHelper (n : NFTId) (d : Data) :
    toCapsuleHelper (ρ.cfg c) (ρ.world w) (ρ.acc who) n (ρ.data d) =
      Except.map ρ.world (toCapsuleHelper c w who n d) := by
  ren [toCapsuleHelper, Ren.world, Ren.nftSt, Ren.nft, Ren.cfg, Ren.bal_payFee, World.putBal, World.putNft]

theorem ren_dropFromColl (n : NFTId) (k : Option CollId) :
    dropFromColl (ρ.world w) n k = Except.map ρ.world (dropFromColl w n k) := by
  cases k with
  | none => rfl
  | some k => ren [dropFromColl, Ren.world, Ren.nftSt, Ren.coll]

theorem ren_burnNft (n : NFTId) : burnNft (ρ.world w) (ρ.acc who) n = Except.map ρ.world (burnNft w who n) := by
  have h : (ρ.world w).nfts.get n = (w.nfts.get n).map ρ.nft := FMap.mapv_get ..
  simp [-bind_pure_comp, burnNft, h, ren_dropFromColl, Ren.nft]
  ren [Ren.world, Ren.nftSt, apply_ite (FMap.mapv ρ.data), apply_ite (FMap.mapv (List.map ρ.shard))]

theorem ren_ensure : ensureEnclave (ρ.world w) (ρ.acc who) = (ensureEnclave w who).map ρ.shard := by
  simp only [ensureEnclave, Ren.world, Ren.teeSt, FMap.mapk_get]
  cases h : w.tee.accOp.get who with
  | none => rfl
  | some op =>
    simp only [Option.map_some, Option.bind_eq_bind, Option.bind_some, FMap.mapk_get]
    cases h : w.tee.opCluster.get op <;> rfl

theorem ren_pushShard (o : Option (List (ClusterId × AccountId))) (s : ClusterId × AccountId) :
    pushShard (ρ.cfg c) (o.map (List.map ρ.shard)) (ρ.shard s) =
      Except.map (Option.map (List.map ρ.shard)) (pushShard c o s) := by
  cases o with
  | none =>
    ren [pushShard, Ren.cfg, apply_ite (Option.map (List.map ρ.shard))]
  | some l =>
    have h : ∀ h : ClusterId × AccountId, (ρ.shard h).1 = h.1 := fun _ => rfl
    ren [pushShard, Ren.cfg, h, apply_ite (Option.map (List.map ρ.shard))]

theorem ren_call (x : Call) : call (ρ.cfg c) (ρ.world w) (ρ.acc who) (ρ.nftCall x) = Except.map ρ.world (call c w who x) := by
  cases x with
  | createNft d r k s => exact ren_createHelper ρ c w who d r k s
  | burnNft n => exact ren_burnNft ρ w who n
  | transferNft n a =>
    ren [call, Ren.nftCall, transferNft, Ren.world, Ren.nft, World.putNft]
  | delegateNft n a =>
    have h : ((a.map ρ.acc).getD (ρ.acc who)) = ρ.acc (a.getD who) := by cases a <;> rfl
    ren [call, Ren.nftCall, delegateNft, Ren.world, Ren.nft, World.putNft, h, Ren.nftSt, apply_ite (Option.map ρ.acc)]
  | setRoyalty n r => ren [call, Ren.nftCall, setRoyalty, Ren.world, Ren.nft, World.putNft]
  | createColl d l => ren [call, Ren.nftCall, createColl, Ren.world, Ren.coll, Ren.nftSt, Ren.cfg]
  | burnColl k => ren [call, Ren.nftCall, burnColl, Ren.world, Ren.coll, Ren.nftSt]
  | closeColl k => ren [call, Ren.nftCall, closeColl, Ren.world, Ren.coll, Ren.nftSt]
  | limitColl k l => ren [call, Ren.nftCall, limitColl, Ren.world, Ren.coll, Ren.nftSt, Ren.cfg]
  | addToColl n k =>
    ren [call, Ren.nftCall, addToColl, Ren.world, Ren.coll, Ren.nftSt, Ren.cfg, Ren.nft, collCap,
      World.putNft]
  | addSecret n d => exact ren_addSecretHelper ρ c w who n d
  | createSecret d s r k sb =>
    have h : (ρ.world w).bal = ρ.bal w.bal := rfl
    have h1 : (ρ.world w).nft.fee = w.nft.fee := rfl
    have h2 : (ρ.world w).nft.secretFee = w.nft.secretFee := rfl
    simp only [call, Ren.nftCall, createSecret, ren_createHelper, bind_map', map_bind', ren_nextNft, ren_addSecretHelper, h, h1, h2,
      Ren.bal_check]
  | addSecretShard n =>
    have h : ∀ o : Option (List (ClusterId × AccountId)), (o.map (List.map ρ.shard)).isSome = o.isSome := by simp
    simp [-bind_pure_comp, call, Ren.nftCall, addSecretShard, ren_ensure]
    ren [Ren.world, Ren.nftSt, ren_pushShard, Ren.nft, World.putNft]
  | toCapsule n d => exact ren_toCapsuleHelper ρ c w who n d
  | createCapsule d s r k sb =>
    have h : (ρ.world w).bal = ρ.bal w.bal := rfl
    have h1 : (ρ.world w).nft.fee = w.nft.fee := rfl
    have h2 : (ρ.world w).nft.capsuleFee = w.nft.capsuleFee := rfl
    simp only [call, Ren.nftCall, createCapsule, ren_createHelper, bind_map', map_bind', ren_nextNft, ren_toCapsuleHelper, h, h1,
      h2, Ren.bal_check]
  | setCapsuleData n d => ren [call, Ren.nftCall, setCapsuleData, Ren.world, Ren.nft, Ren.nftSt]
  | addCapsuleShard n =>
    simp [-bind_pure_comp, call, Ren.nftCall, addCapsuleShard, ren_ensure]
    ren [Ren.world, Ren.nftSt, ren_pushShard, Ren.nft, World.putNft]
  | notifyKey n => ren [call, Ren.nftCall, notifyKey, Ren.world, Ren.nft, World.putNft]
  | setCollData k d => ren [call, Ren.nftCall, setCollData, Ren.world, Ren.coll, Ren.nftSt]

end NftM

namespace MktM
variable (ρ : Ren) (c : Cfg) (w : World) (who : AccountId)

theorem ren_allowed (m : Mkt) (k : Option CollId) : allowedToList (ρ.mkt m) (ρ.acc who) k = allowedToList m who k := by
  obtain ⟨_, _, _, _, a, _, _⟩ := m
  cases a <;> simp [allowedToList, Ren.mkt]

theorem ren_apply {α : Type} (g : α → α) (o : Option α) (x : ConfigOp α) :
    apply (o.map g) (Ren.configOp g x) = (apply o x).map g := by
  cases x <;> rfl

theorem ren_call (x : Call) : call (ρ.cfg c) (ρ.world w) (ρ.acc who) (ρ.mktCall x) = Except.map ρ.world (call c w who x) := by
  cases x with
  | create k => ren [call, Ren.mktCall, create, Ren.world, Ren.mkt, Ren.mktSt, Ren.cfg, Ren.bal_payFee, World.putBal]
  | setOwner m a => ren [call, Ren.mktCall, setOwner, Ren.world, Ren.mkt, Ren.mktSt]
  | setKind m k => ren [call, Ren.mktCall, setKind, Ren.world, Ren.mkt, Ren.mktSt]
  | setConfig m f l a o k => ren [call, Ren.mktCall, setConfig, Ren.world, Ren.mkt, Ren.mktSt, ren_apply]
  | list n m p =>
    simp [-bind_pure_comp, call, Ren.mktCall, list, Ren.world, Ren.mktSt, ren_allowed, World.putBal, World.putNft]
    ren [Ren.mkt, Ren.nft, Ren.bal_transfer, Ren.sale, Ren.cfg]
  | unlist n => ren [call, Ren.mktCall, unlist, Ren.world, Ren.mkt, Ren.mktSt, Ren.nft, World.putNft]
  | buy n p =>
    ren [call, Ren.mktCall, buy, Ren.world, Ren.mktSt, World.putBal, World.putNft, Ren.mkt, Ren.nft, Ren.bal_transfer, Ren.sale, Ren.cfg]

end MktM
