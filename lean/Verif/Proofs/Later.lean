import Verif.Props.LaterSpec
import Verif.Proofs.SymNft
/-
Moving in time commutes with schedules and with the calls that know no block numbers.
-/
open Spec Sym

namespace Spec.Later
variable (k : Block) (q : Queue) (n : NFTId) (b : Block)

@[simp] theorem queue_nil : queue k [] = [] := rfl
@[simp] theorem queue_cons (x : NFTId × Block) : queue k (x :: q) = (x.1, x.2 + k) :: queue k q := rfl
@[simp] theorem queue_length : (queue k q).length = q.length := List.length_map ..
@[simp] theorem queue_append (q' : Queue) : queue k (q ++ q') = queue k q ++ queue k q' := List.map_append ..

@[simp] theorem queue_find : (queue k q).find n = (q.find n).map (· + k) := by
  induction q with
  | nil => rfl
  | cons x t ih => simp only [queue_cons, Queue.find]; split <;> simp [ih]

@[simp] theorem queue_remove : (queue k q).remove n = queue k (q.remove n) := by
  induction q with
  | nil => rfl
  | cons x t ih => simp only [queue_cons, Queue.remove]; split <;> simp [ih]

@[simp] theorem queue_has : (queue k q).has n = q.has n := by simp [Queue.has]

@[simp] theorem queue_ins : Queue.ins n (b + k) (queue k q) = queue k (Queue.ins n b q) := by
  induction q with
  | nil => rfl
  | cons x t ih =>
    by_cases h : x.2 > b
    · simp [Queue.ins, h]
    · simp [Queue.ins, h, ih]

@[simp] theorem queue_insert (l : Nat) : Queue.insert l (queue k q) n (b + k) = (Queue.insert l q n b).map (queue k) := by
  simp only [Queue.insert, queue_length, queue_ins]
  split <;> rfl

@[simp] theorem queue_update (l : Nat) : (queue k q).update l n (b + k) = Except.map (queue k) (q.update l n b) := by
  simp only [Queue.update, queue_has, queue_remove, queue_insert, expectSome_map']
  split <;> rfl

end Spec.Later

/-- Pushes moving in time through a function that does not look at block numbers. -/
macro "lat" "[" ls:Lean.Parser.Tactic.simpLemma,* "]" : tactic =>
  `(tactic| (simp only [map_bind', map_pure', bind_map', $ls,*]; rfl))

namespace NftM
variable (k : Block) (c : Cfg) (w : World) (who : AccountId)

theorem later_next : nextNftId (Later.world k w) = Except.map (fun x => (x.1, Later.world k x.2)) (nextNftId w) := by
  lat [nextNftId]

theorem later_push (id : NFTId) (x : Option CollId) :
    pushToColl c (Later.world k w) who id x = Except.map (Later.world k) (pushToColl c w who id x) := by
  cases x with
  | none => rfl
  | some x => lat [pushToColl]

theorem later_createHelper (d : Data) (r : Permill) (x : Option CollId) (s : Bool) :
    createHelper c (Later.world k w) who d r x s = Except.map (Later.world k) (createHelper c w who d r x s) := by
  have h : ∀ b, (Later.world k w).putBal b = Later.world k (w.putBal b) := fun _ => rfl
  have h' : ∀ w : World, (Later.world k w).nft = w.nft := fun _ => rfl
  lat [createHelper, h, h', later_push, later_next]

theorem later_addSecretHelper (n : NFTId) (d : Data) :
    addSecretHelper c (Later.world k w) who n d = Except.map (Later.world k) (addSecretHelper c w who n d) := by
  lat [addSecretHelper]

theorem later_toCapsuleHelper (n : NFTId) (d : Data) :
    toCapsuleHelper c (Later.world k w) who n d = Except.map (Later.world k) (toCapsuleHelper c w who n d) := by
  lat [toCapsuleHelper]

theorem later_dropFromColl (n : NFTId) (x : Option CollId) :
    dropFromColl (Later.world k w) n x = Except.map (Later.world k) (dropFromColl w n x) := by
  cases x with
  | none => rfl
  | some x => lat [dropFromColl]

theorem later_call (x : Call) : call c (Later.world k w) who x = Except.map (Later.world k) (call c w who x) := by
  have h : ∀ w : World, (Later.world k w).nft = w.nft := fun _ => rfl
  cases x with
  | createNft d r x s => exact later_createHelper k c w who d r x s
  | burnNft n => lat [call, burnNft, later_dropFromColl]
  | transferNft n a => lat [call, transferNft]
  | delegateNft n a => lat [call, delegateNft]
  | setRoyalty n r => lat [call, setRoyalty]
  | createColl d l => lat [call, createColl]
  | burnColl x => lat [call, burnColl]
  | closeColl x => lat [call, closeColl]
  | limitColl x l => lat [call, limitColl]
  | addToColl n x => lat [call, addToColl]
  | addSecret n d => exact later_addSecretHelper k c w who n d
  | createSecret d s r x b => lat [call, createSecret, later_createHelper, later_addSecretHelper, h]
  | addSecretShard n => lat [call, addSecretShard]
  | toCapsule n d => exact later_toCapsuleHelper k c w who n d
  | createCapsule d s r x b => lat [call, createCapsule, later_createHelper, later_toCapsuleHelper, h]
  | setCapsuleData n d => lat [call, setCapsuleData]
  | addCapsuleShard n => lat [call, addCapsuleShard]
  | notifyKey n => lat [call, notifyKey]
  | setCollData x d => lat [call, setCollData]

end NftM

namespace MktM
variable (k : Block) (c : Cfg) (w : World) (who : AccountId)

theorem later_call (x : Call) : call c (Later.world k w) who x = Except.map (Later.world k) (call c w who x) := by
  cases x with
  | create x => lat [call, create]
  | setOwner m a => lat [call, setOwner]
  | setKind m x => lat [call, setKind]
  | setConfig m f l a o x => lat [call, setConfig]
  | list n m p => lat [call, list]
  | unlist n => lat [call, unlist]
  | buy n p => lat [call, buy]

end MktM
