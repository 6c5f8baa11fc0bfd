import Verif.Proofs.SymTee
import Verif.Props.RenumSpec
/-
Renumbering commutes with the calls of the NFT and the marketplace pallet.
-/
open Spec Sym

@[simp] theorem FMap.mapk_set {K V K' V' : Type} [DecidableEq K] [DecidableEq K'] (f : K → K') (hf : ∀ a b, f a = f b → a = b)
    (g : V → V') (m : FMap K V) (k : K) (o : Option V) : (m.set k o).mapk f hf g = (m.mapk f hf g).set (f k) (o.map g) := by
  cases o <;> simp [set]

namespace Spec.Num
variable (ρ : Num)

@[simp] theorem n_eq (a b : NFTId) : ρ.n a = ρ.n b ↔ a = b := ⟨ρ.nInj a b, fun e => by rw [e]⟩
@[simp] theorem k_eq (a b : CollId) : ρ.k a = ρ.k b ↔ a = b := ⟨ρ.kInj a b, fun e => by rw [e]⟩
@[simp] theorem m_eq (a b : MktId) : ρ.m a = ρ.m b ↔ a = b := ⟨ρ.mInj a b, fun e => by rw [e]⟩
@[simp] theorem cl_eq (a b : ClusterId) : ρ.cl a = ρ.cl b ↔ a = b := ⟨ρ.clInj a b, fun e => by rw [e]⟩
@[simp] theorem slot_eq (a b : SlotId) : ρ.slot a = ρ.slot b ↔ a = b := ⟨ρ.slotInj a b, fun e => by rw [e]⟩
@[simp] theorem chain_eq (a b : ChainId) : ρ.chain a = ρ.chain b ↔ a = b := ⟨ρ.chainInj a b, fun e => by rw [e]⟩

theorem n_injective : Function.Injective ρ.n := fun a b => ρ.nInj a b
theorem k_injective : Function.Injective ρ.k := fun a b => ρ.kInj a b

@[simp] theorem n_mem (a : NFTId) (l : List NFTId) : ρ.n a ∈ l.map ρ.n ↔ a ∈ l := List.mem_map_of_injective ρ.n_injective
@[simp] theorem k_mem (a : CollId) (l : List CollId) : ρ.k a ∈ l.map ρ.k ↔ a ∈ l := List.mem_map_of_injective ρ.k_injective

theorem shard_injective : Function.Injective ρ.shard := by
  rintro ⟨a, b⟩ ⟨a', b'⟩ h
  simp only [shard, Prod.mk.injEq] at h
  rw [ρ.clInj _ _ h.1, h.2]

@[simp] theorem shard_mem (a : ClusterId × AccountId) (l : List (ClusterId × AccountId)) : ρ.shard a ∈ l.map ρ.shard ↔ a ∈ l :=
  List.mem_map_of_injective ρ.shard_injective

/-! ## schedules -/

@[simp] theorem queue_find (q : Queue) (n : NFTId) : Queue.find (ρ.n n) (ρ.queue q) = Queue.find n q := by
  induction q with
  | nil => rfl
  | cons x t ih =>
    have ih' : Queue.find (ρ.n n) (t.map fun x => (ρ.n x.1, x.2)) = Queue.find n t := ih
    simp [queue, Queue.find, ih']

@[simp] theorem queue_has (q : Queue) (n : NFTId) : Queue.has (ρ.queue q) (ρ.n n) = Queue.has q n := by
  simp [Queue.has]

@[simp] theorem queue_remove (q : Queue) (n : NFTId) : Queue.remove (ρ.n n) (ρ.queue q) = ρ.queue (Queue.remove n q) := by
  induction q with
  | nil => rfl
  | cons x t ih =>
    have ih' : Queue.remove (ρ.n n) (t.map fun x => (ρ.n x.1, x.2)) = ρ.queue (Queue.remove n t) := ih
    simp only [queue, List.map_cons, Queue.remove, n_eq, ih']
    split <;> rfl

@[simp] theorem queue_ins (q : Queue) (n : NFTId) (b : Block) : Queue.ins (ρ.n n) b (ρ.queue q) = ρ.queue (Queue.ins n b q) := by
  induction q with
  | nil => rfl
  | cons x t ih =>
    have ih' : Queue.ins (ρ.n n) b (t.map fun x => (ρ.n x.1, x.2)) = ρ.queue (Queue.ins n b t) := ih
    simp only [queue, List.map_cons, Queue.ins, ih']
    split <;> rfl

@[simp] theorem queue_length (q : Queue) : (ρ.queue q).length = q.length := List.length_map ..

@[simp] theorem queue_insert (l : Nat) (q : Queue) (n : NFTId) (b : Block) :
    Queue.insert l (ρ.queue q) (ρ.n n) b = (Queue.insert l q n b).map ρ.queue := by
  simp only [Queue.insert, queue_length, queue_ins]
  split <;> rfl

@[simp] theorem queue_update (l : Nat) (q : Queue) (n : NFTId) (b : Block) :
    Queue.update l (ρ.queue q) (ρ.n n) b = Except.map ρ.queue (Queue.update l q n b) := by
  simp only [Queue.update, queue_has, queue_remove, queue_insert, expectSome_map']
  split <;> rfl

@[simp] theorem world_putBal (w : World) (b : Bal) : (ρ.world w).putBal b = ρ.world (w.putBal b) := rfl

@[simp] theorem world_ev (w : World) (e : Ev) : (ρ.world w).ev (ρ.ev e) = ρ.world (w.ev e) := rfl

@[simp] theorem world_putNft (w : World) (n : NFTId) (d : NFTData) :
    (ρ.world w).putNft (ρ.n n) (ρ.nft d) = ρ.world (w.putNft n d) := by
  simp [World.putNft, world]

end Spec.Num

/-- Pushes a renumbering through a model function. -/
macro "num" "[" ls:Lean.Parser.Tactic.simpLemma,* "]" : tactic =>
  `(tactic| (simp [-bind_pure_comp, Num.world, Num.nftSt, Num.cfg, Num.nft, Num.coll, World.putBal, World.putNft, $ls,*] <;> congr!))

namespace NftM
variable (ρ : Num) (c : Cfg) (w : World) (who : AccountId)

theorem num_push (id : NFTId) (k : Option CollId) :
    pushToColl (ρ.cfg c) (ρ.world w) who (ρ.n id) (k.map ρ.k) = Except.map ρ.world (pushToColl c w who id k) := by
  cases k with
  | none => rfl
  | some k => num [pushToColl, collCap]

theorem num_push_next {w w' : World} {id : NFTId} {k : Option CollId} (h : pushToColl c w who id k = .ok w') :
    w'.nft.nextNft = w.nft.nextNft := by
  cases k with
  | none => cases h; rfl
  | some k => simp only [pushToColl] at h; inv_ok at h; obtain ⟨_, _, _, _, _, _, rfl⟩ := h; rfl

theorem num_createHelper (hn : ρ.n w.nft.nextNft = w.nft.nextNft) (d : Data) (r : Permill) (k : Option CollId) (s : Bool) :
    createHelper (ρ.cfg c) (ρ.world w) who d r (k.map ρ.k) s = Except.map ρ.world (createHelper c w who d r k s) := by
  show (w.bal.payFee c.ed who w.nft.fee >>= _) = _
  simp only [createHelper, map_bind', Num.world_putBal]
  refine bind_congr' fun b => ?_
  have h1 : (ρ.world (w.putBal b)).nft.nextNft = ρ.n (w.putBal b).nft.nextNft := hn.symm
  rw [h1, num_push, bind_map']
  cases hp : pushToColl c (w.putBal b) who (w.putBal b).nft.nextNft k with
  | error e => rfl
  | ok v =>
    have h2 : v.nft.nextNft = w.nft.nextNft := (num_push_next _ _ hp).trans rfl
    have h3 : (ρ.world v).nft.nextNft = v.nft.nextNft := rfl
    show (nextNftId (ρ.world v) >>= _) = _
    simp only [nextNftId, h3]
    by_cases hx : v.nft.nextNft + 1 ≤ U32MAX
    · simp only [hx, if_true, expectSome, bind, Except.bind, pure, Except.pure, Except.map]
      have hn' : ρ.n v.nft.nextNft = v.nft.nextNft := by rw [h2, hn]
      generalize hd : ({ owner := who, creator := who, offchain := d, coll := k, royalty := r, st := { soulbound := s } } : NFTData) = D
      have e1 : ({ owner := who, creator := who, offchain := d, coll := k.map ρ.k, royalty := r, st := { soulbound := s } } : NFTData) = ρ.nft D := by
        rw [← hd]; rfl
      rw [e1]
      conv_lhs => rw [← hn']
      rw [← Num.world_putNft, hn']; rfl
    · simp only [hx, if_false, expectSome, bind, Except.bind, Except.map]

theorem num_helper_next {w w' : World} {d : Data} {r : Permill} {k : Option CollId} {s : Bool}
    (h : createHelper c w who d r k s = .ok w') : w'.nft.nextNft = w.nft.nextNft + 1 := by
  simp only [createHelper, nextNftId] at h
  obtain ⟨b, _, h⟩ := Exec.bind_ok.1 h
  obtain ⟨v, hv, h⟩ := Exec.bind_ok.1 h
  have hp := num_push_next _ _ hv
  by_cases hx : v.nft.nextNft + 1 ≤ U32MAX
  · simp only [hx, if_true, expectSome, bind, Except.bind, pure, Except.pure, Except.ok.injEq] at h
    subst h
    show v.nft.nextNft + 1 = _
    rw [hp]; rfl
  · simp only [hx, if_false, expectSome, bind, Except.bind] at h
    cases h

theorem num_addSecretHelper (n : NFTId) (d : Data) :
    addSecretHelper (ρ.cfg c) (ρ.world w) who (ρ.n n) d = Except.map ρ.world (addSecretHelper c w who n d) := by
  num [addSecretHelper]

theorem num_toCapsuleHelper (n : NFTId) (d : Data) :
    toCapsuleHelper (ρ.cfg c) (ρ.world w) who (ρ.n n) d = Except.map ρ.world (toCapsuleHelper c w who n d) := by
  num [toCapsuleHelper]

theorem num_swapRemove (l : List NFTId) (n : NFTId) : swapRemove (l.map ρ.n) (ρ.n n) = (swapRemove l n).map ρ.n := by
  have hr : ∀ (l : List NFTId) (z : NFTId), (l.map ρ.n).replace (ρ.n n) (ρ.n z) = (l.replace n z).map ρ.n := by
    intro l z
    induction l with
    | nil => rfl
    | cons x t ih =>
      simp only [List.map_cons, List.replace_cons, ih]
      by_cases h : n = x
      · subst h; simp
      · have h' : ¬ ρ.n n = ρ.n x := fun e => h (ρ.nInj _ _ e)
        simp [beq_eq_false_iff_ne.2 h, beq_eq_false_iff_ne.2 h']
  simp only [swapRemove, List.getLast?_map]
  cases l.getLast? with
  | none => rfl
  | some z =>
    simp only [Option.map_some, Num.n_eq, ← List.map_dropLast, Num.n_mem, hr]
    split <;> rfl

theorem num_dropFromColl (n : NFTId) (k : Option CollId) :
    dropFromColl (ρ.world w) (ρ.n n) (k.map ρ.k) = Except.map ρ.world (dropFromColl w n k) := by
  cases k with
  | none => rfl
  | some k => num [dropFromColl, num_swapRemove]

theorem num_burnNft (n : NFTId) : burnNft (ρ.world w) who (ρ.n n) = Except.map ρ.world (burnNft w who n) := by
  have h : (ρ.world w).nfts.get (ρ.n n) = (w.nfts.get n).map ρ.nft := FMap.mapk_get ρ.n ρ.nInj ..
  have h' : ∀ d, (ρ.nft d).coll = d.coll.map ρ.k := fun _ => rfl
  simp [-bind_pure_comp, burnNft, h, h', num_dropFromColl]
  num [apply_ite (FMap.mapk ρ.n ρ.nInj id), apply_ite (FMap.mapk ρ.n ρ.nInj (List.map ρ.shard))]

theorem num_ensure : ensureEnclave (ρ.world w) who = (ensureEnclave w who).map ρ.shard := by
  simp only [ensureEnclave, Num.world, Num.teeSt]
  cases h : w.tee.accOp.get who with
  | none => rfl
  | some op =>
    simp only [Option.bind_eq_bind, Option.bind_some, FMap.mapv_get]
    cases h : w.tee.opCluster.get op <;> rfl

theorem num_pushShard (o : Option (List (ClusterId × AccountId))) (s : ClusterId × AccountId) :
    pushShard (ρ.cfg c) (o.map (List.map ρ.shard)) (ρ.shard s) =
      Except.map (Option.map (List.map ρ.shard)) (pushShard c o s) := by
  cases o with
  | none =>
    num [pushShard, apply_ite (Option.map (List.map ρ.shard))]
  | some l =>
    have h : ∀ a b : ClusterId × AccountId, ((ρ.shard a).1 = (ρ.shard b).1) = (a.1 = b.1) := fun _ _ => propext (ρ.cl_eq ..)
    num [pushShard, h, apply_ite (Option.map (List.map ρ.shard))]

theorem num_call (hk : ρ.Keeps w) (x : Call) : call (ρ.cfg c) (ρ.world w) who (ρ.nftCall x) = Except.map ρ.world (call c w who x) := by
  have hn := hk.n _ (Nat.le_refl _)
  have hkk := hk.k _ (Nat.le_refl _)
  have hnx : (ρ.world w).nft.nextNft = ρ.n w.nft.nextNft := hn.symm
  cases x with
  | createNft d r k s => exact num_createHelper ρ c w who hn d r k s
  | burnNft n => exact num_burnNft ρ w who n
  | transferNft n a => num [call, Num.nftCall, transferNft]
  | delegateNft n a =>
    num [call, Num.nftCall, delegateNft]
  | setRoyalty n r => num [call, Num.nftCall, setRoyalty]
  | createColl d l =>
    num [call, Num.nftCall, createColl, hkk]
  | burnColl k => num [call, Num.nftCall, burnColl]
  | closeColl k => num [call, Num.nftCall, closeColl]
  | limitColl k l => num [call, Num.nftCall, limitColl]
  | addToColl n k => num [call, Num.nftCall, addToColl, collCap]
  | addSecret n d => exact num_addSecretHelper ρ c w who n d
  | createSecret d s r k sb =>
    have h : (ρ.world w).bal = w.bal := rfl
    have h1 : (ρ.world w).nft.fee = w.nft.fee := rfl
    have h2 : (ρ.world w).nft.secretFee = w.nft.secretFee := rfl
    simp only [call, Num.nftCall, createSecret, num_createHelper ρ c w who hn, bind_map', map_bind', h, h1, h2]
    refine bind_congr' fun _ => ?_
    cases hv : createHelper c w who d r k sb with
    | error e => rfl
    | ok v =>
      have e : (ρ.world v).nft.nextNft - 1 = ρ.n (v.nft.nextNft - 1) := by
        have := num_helper_next _ _ hv
        show v.nft.nextNft - 1 = _
        rw [this, Nat.add_sub_cancel, hn]
      show addSecretHelper (ρ.cfg c) (ρ.world v) who _ s = _
      rw [e, num_addSecretHelper]; rfl
  | addSecretShard n =>
    have hs : (ρ.world w).nft.secretShards.get (ρ.n n) = (w.nft.secretShards.get n).map (List.map ρ.shard) := FMap.mapk_get ρ.n ρ.nInj ..
    simp [-bind_pure_comp, call, Num.nftCall, addSecretShard, num_ensure, hs, num_pushShard]
    num []
  | toCapsule n d => exact num_toCapsuleHelper ρ c w who n d
  | createCapsule d s r k sb =>
    have h : (ρ.world w).bal = w.bal := rfl
    have h1 : (ρ.world w).nft.fee = w.nft.fee := rfl
    have h2 : (ρ.world w).nft.capsuleFee = w.nft.capsuleFee := rfl
    simp only [call, Num.nftCall, createCapsule, num_createHelper ρ c w who hn, bind_map', map_bind', h, h1, h2]
    refine bind_congr' fun _ => ?_
    cases hv : createHelper c w who d r k sb with
    | error e => rfl
    | ok v =>
      have e : (ρ.world v).nft.nextNft - 1 = ρ.n (v.nft.nextNft - 1) := by
        have := num_helper_next _ _ hv
        show v.nft.nextNft - 1 = _
        rw [this, Nat.add_sub_cancel, hn]
      show toCapsuleHelper (ρ.cfg c) (ρ.world v) who _ s = _
      rw [e, num_toCapsuleHelper]; rfl
  | setCapsuleData n d => num [call, Num.nftCall, setCapsuleData]
  | addCapsuleShard n =>
    have hs : (ρ.world w).nft.capsuleShards.get (ρ.n n) = (w.nft.capsuleShards.get n).map (List.map ρ.shard) := FMap.mapk_get ρ.n ρ.nInj ..
    simp [-bind_pure_comp, call, Num.nftCall, addCapsuleShard, num_ensure, hs, num_pushShard]
    num []
  | notifyKey n => num [call, Num.nftCall, notifyKey]
  | setCollData k d => num [call, Num.nftCall, setCollData]

end NftM

namespace MktM
variable (ρ : Num) (c : Cfg) (w : World) (who : AccountId)

theorem num_allowed (m : Mkt) (k : Option CollId) : allowedToList (ρ.mkt m) who (k.map ρ.k) = allowedToList m who k := by
  obtain ⟨_, _, _, _, _, _, a⟩ := m
  cases a <;> cases k <;> simp [allowedToList, Num.mkt]

theorem num_call (hk : ρ.Keeps w) (x : Call) : call (ρ.cfg c) (ρ.world w) who (ρ.mktCall x) = Except.map ρ.world (call c w who x) := by
  have hm := hk.m _ (Nat.le_refl _)
  cases x with
  | create k =>
    num [call, Num.mktCall, create, Num.mkt, Num.mktSt, hm]
  | setOwner m a => num [call, Num.mktCall, setOwner, Num.mkt, Num.mktSt]
  | setKind m k => num [call, Num.mktCall, setKind, Num.mkt, Num.mktSt]
  | setConfig m f l a o k => num [call, Num.mktCall, setConfig, Num.mkt, Num.mktSt, ren_apply]
  | list n m p =>
    have h' : ∀ d, (ρ.nft d).coll = d.coll.map ρ.k := fun _ => rfl
    simp [-bind_pure_comp, call, Num.mktCall, list, Num.world, Num.mktSt, h', num_allowed, World.putBal, World.putNft]
    num [Num.mkt, Num.sale]
  | unlist n => num [call, Num.mktCall, unlist, Num.mkt, Num.mktSt]
  | buy n p => num [call, Num.mktCall, buy, Num.mktSt, Num.mkt, Num.sale]

end MktM
