import Verif.Props.ScopeSpec
/-
Tools for C102 and C103: runs in two states that agree on what a call is about.
-/
open Spec

/-- both fail with the same error, or both succeed with related results -/
def Out {α β : Type} (R : α → β → Prop) : Except Err α → Except Err β → Prop
  | .ok a, .ok b => R a b
  | .error e, .error f => e = f
  | _, _ => False

namespace Out
variable {α β γ δ : Type} {R : α → β → Prop} {S : γ → δ → Prop}

theorem bind {m : Except Err α} {m' : Except Err β} {f : α → Except Err γ} {g : β → Except Err δ}
    (h : Out R m m') (k : ∀ a b, m = .ok a → R a b → Out S (f a) (g b)) : Out S (m >>= f) (m' >>= g) := by
  cases m <;> cases m' <;> simp_all [Out, Bind.bind, Except.bind]

theorem bindEq {m : Except Err α} {f : α → Except Err γ} {g : α → Except Err δ}
    (k : ∀ a, m = .ok a → Out S (f a) (g a)) : Out S (m >>= f) (m >>= g) := by
  cases m <;> simp_all [Out, Bind.bind, Except.bind]

theorem req {p q : Prop} [Decidable p] [Decidable q] {e : String} {f : Unit → Except Err γ}
    {g : Unit → Except Err δ} (hpq : p ↔ q) (k : p → Out S (f ()) (g ())) :
    Out S (require p e >>= f) (require q e >>= g) := by
  by_cases hp : p
  · have hq := hpq.1 hp; simpa [require, hp, hq, Bind.bind, Except.bind] using k hp
  · have hq : ¬ q := fun x => hp (hpq.2 x)
    simp [require, hp, hq, Bind.bind, Except.bind, Out]

theorem pure {a : γ} {b : δ} (h : S a b) : Out S (Pure.pure a) (Pure.pure b) := h

theorem mapErr {m : Except Err α} {m' : Except Err β} {s : String → String} (h : Out R m m') :
    Out R (mapErr s m) (mapErr s m') := by
  rcases m with (_|_)|_ <;> rcases m' with (_|_)|_ <;> simp_all [Out, _root_.mapErr]

theorem mono {m : Except Err α} {m' : Except Err β} {R' : α → β → Prop} (h : Out R m m')
    (k : ∀ a b, R a b → R' a b) : Out R' m m' := by
  cases m <;> cases m' <;> simp_all [Out]

theorem refl {R : α → α → Prop} (h : ∀ a, R a a) (m : Except Err α) : Out R m m := by
  cases m <;> simp_all [Out]

end Out

/-- same clock and settings, and agreement on all items of `S` -/
structure Rel (S : List Item) (w1 w2 : World) : Prop where
  set : Settings w1 w2
  on : ∀ i ∈ S, same w1 w2 i

/-- balances that agree on the accounts in `S` -/
structure BalRel (S : List Item) (b1 b2 : Bal) : Prop where
  acc : ∀ a, Item.account a ∈ S → b1.free.get a = b2.free.get a ∧ b1.tee.get a = b2.tee.get a ∧
    b1.other.get a = b2.other.get a
  sup : Item.supply ∈ S → b1.issuance = b2.issuance ∧ b1.collected = b2.collected

namespace BalRel
variable {S : List Item} {b1 b2 : Bal}

theorem freeOf (h : BalRel S b1 b2) {a : AccountId} (ha : Item.account a ∈ S) : b1.freeOf a = b2.freeOf a := by
  simp [Bal.freeOf, (h.acc a ha).1]

theorem frozen (h : BalRel S b1 b2) {a : AccountId} (ha : Item.account a ∈ S) : b1.frozen a = b2.frozen a := by
  simp [Bal.frozen, (h.acc a ha).2]

theorem setFree (h : BalRel S b1 b2) (a : AccountId) (x : Balance) : BalRel S (b1.setFree a x) (b2.setFree a x) := by
  refine ⟨fun k hk => ?_, fun hs => h.sup hs⟩
  have h0 := h.acc k hk
  unfold Bal.setFree
  split <;> simp [FMap.get_insert, FMap.get_erase, h0]

theorem settle (h : BalRel S b1 b2) (ed : Balance) (a : AccountId) (x : Balance) :
    BalRel S (b1.settle ed a x) (b2.settle ed a x) := by
  unfold Bal.settle
  split
  · have h0 := h.setFree a 0
    exact ⟨h0.acc, fun hs => ⟨by simp [(h.sup hs).1], (h0.sup hs).2⟩⟩
  · exact h.setFree a x

theorem collect (h : BalRel S b1 b2) (v : Balance) : BalRel S (b1.collect v) (b2.collect v) :=
  ⟨h.acc, fun hs => by simp [Bal.collect, h.sup hs]⟩

theorem burn (h : BalRel S b1 b2) (v : Balance) : BalRel S (b1.burn v) (b2.burn v) :=
  ⟨h.acc, fun hs => by simp [Bal.burn, h.sup hs]⟩

theorem setLock (h : BalRel S b1 b2) (a : AccountId) (v : Balance) : BalRel S (b1.setLock a v) (b2.setLock a v) := by
  unfold Bal.setLock
  split
  · exact h
  · exact ⟨fun k hk => by simp [FMap.get_insert, h.acc k hk], h.sup⟩

theorem removeLock (h : BalRel S b1 b2) (a : AccountId) : BalRel S (b1.removeLock a) (b2.removeLock a) :=
  ⟨fun k hk => by simp [Bal.removeLock, FMap.get_erase, h.acc k hk], h.sup⟩

theorem canLeave (h : BalRel S b1 b2) {a : AccountId} (ha : Item.account a ∈ S) (ed x : Balance) (l : Live) :
    b1.canLeave ed a x l ↔ b2.canLeave ed a x l := by
  simp [Bal.canLeave, h.frozen ha]

theorem transfer (h : BalRel S b1 b2) {s d : AccountId} (hs : Item.account s ∈ S) (hd : Item.account d ∈ S)
    (ed v : Balance) (l : Live) : Out (BalRel S) (b1.transfer ed s d v l) (b2.transfer ed s d v l) := by
  unfold Bal.transfer
  split
  · exact h
  · rw [← h.freeOf hs, ← h.freeOf hd]
    exact .bindEq fun _ _ => .req (h.canLeave hs ..) fun _ => .bindEq fun _ _ =>
      .pure ((h.settle ..).setFree ..)

theorem withdraw (h : BalRel S b1 b2) {s : AccountId} (hs : Item.account s ∈ S)
    (ed v : Balance) (l : Live) : Out (BalRel S) (b1.withdraw ed s v l) (b2.withdraw ed s v l) := by
  unfold Bal.withdraw
  split
  · exact h
  · rw [← h.freeOf hs]
    exact .bindEq fun _ _ => .req (h.canLeave hs ..) fun _ => .pure (h.settle ..)

theorem payFee (h : BalRel S b1 b2) {s : AccountId} (hs : Item.account s ∈ S) (ed v : Balance) :
    Out (BalRel S) (b1.payFee ed s v) (b2.payFee ed s v) :=
  .bind (h.withdraw hs ..) fun _ _ _ h => .pure (h.collect v)

theorem mint (h : BalRel S b1 b2) {a : AccountId} (ha : Item.account a ∈ S) (hs : Item.supply ∈ S)
    (ed v : Balance) : BalRel S (b1.mint ed a v) (b2.mint ed a v) := by
  unfold Bal.mint
  dsimp only
  rw [(h.sup hs).1, h.freeOf ha]
  split
  · exact h
  · have h0 := h.setFree a (b2.freeOf a + min v (U128MAX - b2.issuance))
    exact ⟨h0.acc, fun _ => ⟨rfl, (h0.sup hs).2⟩⟩

theorem balanceCheck (h : BalRel S b1 b2) {a : AccountId} (ha : Item.account a ∈ S) (v : Balance) :
    b1.balanceCheck a v ↔ b2.balanceCheck a v := by
  simp [Bal.balanceCheck, Bal.ensureCanWithdraw, h.frozen ha, h.freeOf ha]

end BalRel

namespace Rel
variable {S : List Item} {w1 w2 : World}

theorem bal (h : Rel S w1 w2) : BalRel S w1.bal w2.bal :=
  ⟨fun a ha => h.on (.account a) ha, fun hs => h.on .supply hs⟩

theorem putBal (h : Rel S w1 w2) {b1 b2 : Bal} (hb : BalRel S b1 b2) : Rel S (w1.putBal b1) (w2.putBal b2) := by
  refine ⟨h.set, fun i hi => ?_⟩
  have h0 := h.on i hi
  cases i with
  | account a => exact hb.acc a hi
  | supply => exact hb.sup hi
  | _ => exact h0

theorem ev (h : Rel S w1 w2) (e : Ev) : Rel S (w1.ev e) (w2.ev e) :=
  ⟨h.set, fun i hi => by have h0 := h.on i hi; cases i <;> exact h0⟩

theorem ev2 (h : Rel S w1 w2) (e f : Ev) : Rel S (w1.ev e) (w2.ev f) :=
  ⟨h.set, fun i hi => by have h0 := h.on i hi; cases i <;> exact h0⟩

theorem putNft (h : Rel S w1 w2) (n : NFTId) (d : NFTData) : Rel S (w1.putNft n d) (w2.putNft n d) := by
  refine ⟨h.set, fun i hi => ?_⟩
  have h0 := h.on i hi
  cases i with
  | nft m =>
    refine ⟨?_, h0.2⟩
    simp [World.putNft, FMap.get_insert, h0.1]
  | _ => exact h0

end Rel

/-- finish a goal `Rel S w1' w2'` after equal updates on both sides -/
macro "rel_upd" h:term : tactic =>
  `(tactic| (refine Rel.mk (by have h0 := Rel.set $h; simp only [Settings, World.putNft, World.putBal, World.ev] at h0 ⊢; simp only [h0, and_self]) (fun i hi => ?_)
             have h0 := Rel.on $h i hi
             cases i <;> simp_all [same, World.putNft, World.putBal, World.ev, FMap.get_insert, FMap.get_erase, FMap.get_set]))

/-! what a call leaves alone -/

/-- same clock and settings, and agreement on all items outside `T` -/
structure Off (T : List Item) (w w' : World) : Prop where
  set : Settings w w'
  on : ∀ i, i ∉ T → same w w' i

/-- balances agree on accounts outside `T` -/
def BalOff (T : List Item) (b b' : Bal) : Prop :=
  ∀ a, Item.account a ∉ T → b.free.get a = b'.free.get a ∧ b.tee.get a = b'.tee.get a ∧
    b.other.get a = b'.other.get a

theorem Spec.same.rfl' (w : World) (i : Item) : same w w i := by cases i <;> simp [same]

theorem Spec.same.trans {w1 w2 w3 : World} {i : Item} (h : same w1 w2 i) (h' : same w2 w3 i) : same w1 w3 i := by
  cases i <;> simp_all [same]

theorem Spec.same.symm {w1 w2 : World} {i : Item} (h : same w1 w2 i) : same w2 w1 i := by
  cases i <;> simp_all [same]

theorem Spec.Settings.rfl' (w : World) : Settings w w := by simp [Settings]

theorem Spec.Settings.trans {w1 w2 w3 : World} (h : Settings w1 w2) (h' : Settings w2 w3) : Settings w1 w3 := by
  simp_all [Settings]

theorem Spec.Settings.symm {w1 w2 : World} (h : Settings w1 w2) : Settings w2 w1 := by
  simp_all [Settings]

namespace BalOff
variable {T : List Item} {b b' b'' : Bal}

theorem refl (b : Bal) : BalOff T b b := fun _ _ => ⟨rfl, rfl, rfl⟩

theorem trans (h : BalOff T b b') (h' : BalOff T b' b'') : BalOff T b b'' := fun a ha => by
  have h1 := h a ha; have h2 := h' a ha; simp_all

theorem setFree {a : AccountId} (ha : Item.account a ∈ T) (x : Balance) : BalOff T b (b.setFree a x) := by
  intro k hk
  have : k ≠ a := by rintro rfl; exact hk ha
  unfold Bal.setFree
  split <;> simp [FMap.get_insert, FMap.get_erase, this]

theorem settle {a : AccountId} (ha : Item.account a ∈ T) (ed x : Balance) : BalOff T b (b.settle ed a x) := by
  unfold Bal.settle
  split
  · exact setFree ha 0
  · exact setFree ha x

theorem transfer {s d : AccountId} (hs : Item.account s ∈ T) (hd : Item.account d ∈ T) {ed v : Balance} {l : Live}
    (h : b.transfer ed s d v l = .ok b') : BalOff T b b' := by
  unfold Bal.transfer at h
  split at h
  · cases h; exact refl b
  · inv_ok at h
    obtain ⟨-, -, -, rfl⟩ := h
    exact (settle hs _ _).trans (setFree hd _)

theorem withdraw {s : AccountId} (hs : Item.account s ∈ T) {ed v : Balance} {l : Live}
    (h : b.withdraw ed s v l = .ok b') : BalOff T b b' := by
  unfold Bal.withdraw at h
  split at h
  · cases h; exact refl b
  · inv_ok at h
    obtain ⟨-, -, rfl⟩ := h
    exact settle hs _ _

theorem payFee {s : AccountId} (hs : Item.account s ∈ T) {ed v : Balance}
    (h : b.payFee ed s v = .ok b') : BalOff T b b' := by
  unfold Bal.payFee at h
  inv_ok at h
  obtain ⟨x, hx, rfl⟩ := h
  exact fun a ha => withdraw hs hx a ha

theorem setLock {a : AccountId} (ha : Item.account a ∈ T) (v : Balance) : BalOff T b (b.setLock a v) := by
  intro k hk
  have : k ≠ a := by rintro rfl; exact hk ha
  unfold Bal.setLock
  split <;> simp [FMap.get_insert, this]

theorem removeLock {a : AccountId} (ha : Item.account a ∈ T) : BalOff T b (b.removeLock a) := by
  intro k hk
  have : k ≠ a := by rintro rfl; exact hk ha
  simp [Bal.removeLock, FMap.get_erase, this]

theorem mint {a : AccountId} (ha : Item.account a ∈ T) (ed v : Balance) : BalOff T b (b.mint ed a v) := by
  unfold Bal.mint
  dsimp only
  split
  · exact refl b
  · exact setFree ha _

end BalOff

namespace Off
variable {T : List Item} {w w' w'' : World}

theorem refl (w : World) : Off T w w := ⟨.rfl' w, fun i _ => .rfl' w i⟩

theorem trans (h : Off T w w') (h' : Off T w' w'') : Off T w w'' :=
  ⟨h.set.trans h'.set, fun i hi => (h.on i hi).trans (h'.on i hi)⟩

theorem putBal (ht : Item.supply ∈ T) {b : Bal} (h : BalOff T w.bal b) : Off T w (w.putBal b) := by
  refine ⟨.rfl' w, fun i hi => ?_⟩
  cases i with
  | account a => exact h a hi
  | supply => exact absurd ht hi
  | _ => simp [same, World.putBal]

theorem putNft {n : NFTId} (hn : Item.nft n ∈ T) (d : NFTData) : Off T w (w.putNft n d) := by
  refine ⟨.rfl' w, fun i hi => ?_⟩
  cases i with
  | nft m =>
    have : m ≠ n := by rintro rfl; exact hi hn
    simp [same, World.putNft, FMap.get_insert, this]
  | _ => simp [same, World.putNft]

theorem ev (e : Ev) : Off T w (w.ev e) := ⟨.rfl' w, fun i _ => by cases i <;> simp [same, World.ev]⟩

end Off

/-- finish a goal `Off T w w'` after updates at keys of `T` -/
macro "off_upd" : tactic =>
  `(tactic| (refine Off.mk (by simp [Settings, World.putNft, World.putBal, World.ev]) (fun i hi => ?_)
             cases i <;>
               simp only [same, World.putNft, World.putBal, World.ev, FMap.get_insert, FMap.get_erase, FMap.get_set] <;>
               grind))
