import Verif.Props.SymSpec
import Mathlib.Data.List.Basic
import Mathlib.Data.List.Nodup
/-
Renaming commutes with what the model is built from.
-/
open Spec

/-! ## maps -/

namespace FMap
variable {K V K' V' : Type} [DecidableEq K] [DecidableEq K']

theorem ext_l {m m' : FMap K V} (h : m.l = m'.l) : m = m' := by
  cases m; cases m'; cases h; rfl

@[simp] theorem mapv_get (g : V → V') (m : FMap K V) (k : K) : (m.mapv g).get k = (m.get k).map g := by
  obtain ⟨l, nd⟩ := m
  show look k (l.map fun x => (x.1, g x.2)) = (look k l).map g
  clear nd
  induction l with
  | nil => rfl
  | cons x t ih => simp only [List.map_cons, look]; split <;> simp [ih]

theorem del_mapv (g : V → V') (k : K) (l : List (K × V)) :
    del k (l.map fun x => (x.1, g x.2)) = (del k l).map fun x => (x.1, g x.2) := by
  induction l with
  | nil => rfl
  | cons x t ih => simp only [List.map_cons, del]; split <;> simp [ih]

@[simp] theorem mapv_insert (g : V → V') (m : FMap K V) (k : K) (v : V) :
    (m.insert k v).mapv g = (m.mapv g).insert k (g v) :=
  ext_l (by simp [mapv, insert, del_mapv])

@[simp] theorem mapv_erase (g : V → V') (m : FMap K V) (k : K) : (m.erase k).mapv g = (m.mapv g).erase k :=
  ext_l (by simp [mapv, erase, del_mapv])

@[simp] theorem mapv_set (g : V → V') (m : FMap K V) (k : K) (o : Option V) :
    (m.set k o).mapv g = (m.mapv g).set k (o.map g) := by
  cases o <;> simp [set]

variable (f : K → K') (hf : ∀ a b, f a = f b → a = b) (g : V → V')

@[simp] theorem mapk_get (m : FMap K V) (k : K) : (m.mapk f hf g).get (f k) = (m.get k).map g := by
  obtain ⟨l, nd⟩ := m
  show look (f k) (l.map fun x => (f x.1, g x.2)) = (look k l).map g
  clear nd
  induction l with
  | nil => rfl
  | cons x t ih =>
    have : (f x.1 = f k) = (x.1 = k) := propext ⟨hf _ _, fun e => by rw [e]⟩
    simp only [List.map_cons, look, this]; split <;> simp [ih]

include hf in
theorem del_mapk (k : K) (l : List (K × V)) :
    del (f k) (l.map fun x => (f x.1, g x.2)) = (del k l).map fun x => (f x.1, g x.2) := by
  induction l with
  | nil => rfl
  | cons x t ih =>
    have : (f x.1 = f k) = (x.1 = k) := propext ⟨hf _ _, fun e => by rw [e]⟩
    simp only [List.map_cons, del, this]; split <;> simp [ih]

@[simp] theorem mapk_insert (m : FMap K V) (k : K) (v : V) :
    (m.insert k v).mapk f hf g = (m.mapk f hf g).insert (f k) (g v) :=
  ext_l (by simp [mapk, insert, del_mapk f hf])

@[simp] theorem mapk_erase (m : FMap K V) (k : K) : (m.erase k).mapk f hf g = (m.mapk f hf g).erase (f k) :=
  ext_l (by simp [mapk, erase, del_mapk f hf])

omit [DecidableEq K] [DecidableEq K'] in
@[simp] theorem mapk_card (m : FMap K V) : (m.mapk f hf g).card = m.card := by simp [card, mapk]

theorem mapk_filterKeys (m : FMap K V) (p : K → Bool) (p' : K' → Bool) (h : ∀ k, p' (f k) = p k) :
    (m.mapk f hf g).filterKeys p' = (m.filterKeys p).mapk f hf g :=
  ext_l (by
    show (m.l.map _).filter _ = (m.l.filter _).map _
    rw [List.filter_map]
    simp [Function.comp_def, h])

end FMap

/-! ## the error monad -/

namespace Sym
variable {α β γ : Type}

@[simp] theorem mapErr_map' (g : String → String) (f : α → β) (x : Except Err α) :
    mapErr g (Except.map f x) = Except.map f (mapErr g x) := by
  rcases x with (_ | _) | _ <;> rfl

@[simp] theorem map_bind' (f : β → γ) (x : Except Err α) (k : α → Except Err β) :
    Except.map f (x >>= k) = x >>= fun a => Except.map f (k a) := by
  cases x <;> rfl

@[simp] theorem map_pure' (f : α → β) (a : α) : Except.map f (pure a : Except Err α) = pure (f a) := rfl

@[simp] theorem map_ok' (f : α → β) (a : α) : Except.map f (.ok a : Except Err α) = .ok (f a) := rfl

@[simp] theorem map_error' (f : α → β) (e : Err) : Except.map f (.error e : Except Err α) = .error e := rfl

@[simp] theorem bind_map' (f : α → β) (x : Except Err α) (k : β → Except Err γ) :
    (Except.map f x >>= k) = x >>= fun a => k (f a) := by
  cases x <;> rfl

@[simp] theorem getOr_map' (f : α → β) (o : Option α) (e : String) : getOr (o.map f) e = Except.map f (getOr o e) := by
  cases o <;> rfl

@[simp] theorem expectSome_map' (f : α → β) (o : Option α) (e : String) :
    expectSome (o.map f) e = Except.map f (expectSome o e) := by
  cases o <;> rfl

theorem bind_congr' {x : Except Err α} {k k' : α → Except Err β} (h : ∀ a, k a = k' a) : (x >>= k) = (x >>= k') := by
  rw [funext h]

theorem require_congr' {p q : Prop} [Decidable p] [Decidable q] {e : String} {k k' : Unit → Except Err β} (h : p ↔ q)
    (h' : k () = k' ()) : (require p e >>= k) = (require q e >>= k') := by
  have : p = q := propext h
  subst this
  unfold require
  split
  · exact h'
  · rfl

end Sym

/-! ## accounts and lists -/

namespace Spec.Ren
variable (ρ : Ren)

@[simp] theorem acc_eq (a b : AccountId) : ρ.acc a = ρ.acc b ↔ a = b := ⟨ρ.inj a b, fun e => by rw [e]⟩

theorem acc_injective : Function.Injective ρ.acc := fun a b => ρ.inj a b

@[simp] theorem acc_mem (a : AccountId) (l : List AccountId) : ρ.acc a ∈ l.map ρ.acc ↔ a ∈ l :=
  List.mem_map_of_injective ρ.acc_injective

theorem shard_injective : Function.Injective ρ.shard := by
  rintro ⟨a, b⟩ ⟨a', b'⟩ h
  simp only [shard, Prod.mk.injEq] at h
  rw [h.1, ρ.inj _ _ h.2]

@[simp] theorem shard_mem (a : ClusterId × AccountId) (l : List (ClusterId × AccountId)) : ρ.shard a ∈ l.map ρ.shard ↔ a ∈ l :=
  List.mem_map_of_injective ρ.shard_injective

@[simp] theorem data_nil (d : Data) : ρ.data d = [] ↔ d = [] := ρ.empty d

/-! ## balances -/

@[simp] theorem bal_freeOf (b : Bal) (a : AccountId) : (ρ.bal b).freeOf (ρ.acc a) = b.freeOf a := by
  simp [Bal.freeOf, bal]

@[simp] theorem bal_frozen (b : Bal) (a : AccountId) : (ρ.bal b).frozen (ρ.acc a) = b.frozen a := by
  simp [Bal.frozen, bal]

@[simp] theorem bal_issuance (b : Bal) : (ρ.bal b).issuance = b.issuance := rfl

@[simp] theorem bal_setFree (b : Bal) (a : AccountId) (x : Balance) :
    (ρ.bal b).setFree (ρ.acc a) x = ρ.bal (b.setFree a x) := by
  unfold Bal.setFree
  split <;> simp [bal]

@[simp] theorem bal_settle (ed : Balance) (b : Bal) (a : AccountId) (x : Balance) :
    (ρ.bal b).settle ed (ρ.acc a) x = ρ.bal (b.settle ed a x) := by
  unfold Bal.settle
  split
  · rw [bal_setFree]; rfl
  · rw [bal_setFree]

@[simp] theorem bal_canLeave (ed : Balance) (b : Bal) (a : AccountId) (x : Balance) (l : Live) :
    (ρ.bal b).canLeave ed (ρ.acc a) x l ↔ b.canLeave ed a x l := by
  simp [Bal.canLeave]

open Sym

theorem bal_transfer (ed : Balance) (b : Bal) (s d : AccountId) (v : Balance) (l : Live) :
    (ρ.bal b).transfer ed (ρ.acc s) (ρ.acc d) v l = Except.map ρ.bal (b.transfer ed s d v l) := by
  unfold Bal.transfer
  simp only [acc_eq]
  split
  · rfl
  · simp only [map_bind', map_pure', bal_freeOf, bal_canLeave, bal_settle, bal_setFree]

theorem bal_withdraw (ed : Balance) (b : Bal) (a : AccountId) (v : Balance) (l : Live) :
    (ρ.bal b).withdraw ed (ρ.acc a) v l = Except.map ρ.bal (b.withdraw ed a v l) := by
  unfold Bal.withdraw
  split
  · rfl
  · simp only [map_bind', map_pure', bal_freeOf, bal_canLeave, bal_settle]

theorem bal_payFee (ed : Balance) (b : Bal) (a : AccountId) (v : Balance) :
    (ρ.bal b).payFee ed (ρ.acc a) v = Except.map ρ.bal (b.payFee ed a v) := by
  simp only [Bal.payFee, bal_withdraw, bind_map', map_bind', map_pure']
  rfl

@[simp] theorem bal_burn (b : Bal) (v : Balance) : (ρ.bal b).burn v = ρ.bal (b.burn v) := rfl

@[simp] theorem bal_mint (ed : Balance) (b : Bal) (a : AccountId) (v : Balance) :
    (ρ.bal b).mint ed (ρ.acc a) v = ρ.bal (b.mint ed a v) := by
  simp only [Bal.mint, bal_freeOf, bal_issuance, bal_setFree]
  split
  · rfl
  · rfl

@[simp] theorem bal_ensure (b : Bal) (a : AccountId) (x y : Balance) :
    (ρ.bal b).ensureCanWithdraw (ρ.acc a) x y ↔ b.ensureCanWithdraw a x y := by
  simp [Bal.ensureCanWithdraw]

@[simp] theorem bal_check (b : Bal) (a : AccountId) (x : Balance) :
    (ρ.bal b).balanceCheck (ρ.acc a) x ↔ b.balanceCheck a x := by
  simp [Bal.balanceCheck]

@[simp] theorem bal_setLock (b : Bal) (a : AccountId) (v : Balance) :
    (ρ.bal b).setLock (ρ.acc a) v = ρ.bal (b.setLock a v) := by
  unfold Bal.setLock
  split <;> simp [bal]

@[simp] theorem bal_removeLock (b : Bal) (a : AccountId) :
    (ρ.bal b).removeLock (ρ.acc a) = ρ.bal (b.removeLock a) := by
  simp [Bal.removeLock, bal]

@[simp] theorem world_putBal (w : World) (b : Bal) : (ρ.world w).putBal (ρ.bal b) = ρ.world (w.putBal b) := rfl

@[simp] theorem world_ev (w : World) (e : Ev) : (ρ.world w).ev (ρ.ev e) = ρ.world (w.ev e) := rfl

@[simp] theorem world_putNft (w : World) (n : NFTId) (d : NFTData) :
    (ρ.world w).putNft n (ρ.nft d) = ρ.world (w.putNft n d) := by
  simp [World.putNft, world]

end Spec.Ren
