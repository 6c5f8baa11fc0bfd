import Verif.Proofs.ScopeBase
import Verif.Proofs.Bal
import Verif.Proofs.Pays
import Verif.Props.RicherSpec
/-
C110: whatever succeeds also succeeds with more tokens.
-/
open Spec

/-- if the first succeeds so does the second, and the results are related -/
structure Le {α β : Type} (R : α → β → Prop) (m1 : Except Err α) (m2 : Except Err β) : Prop where
  out : ∀ a, m1 = .ok a → ∃ b, m2 = .ok b ∧ R a b

namespace Le
variable {α β γ δ : Type} {R : α → β → Prop} {S : γ → δ → Prop}

theorem bind {m1 : Except Err α} {m2 : Except Err β} {f : α → Except Err γ} {g : β → Except Err δ}
    (h : Le R m1 m2) (hf : ∀ a b, R a b → Le S (f a) (g b)) : Le S (m1 >>= f) (m2 >>= g) := by
  refine ⟨fun z hz => ?_⟩
  cases m1 with
  | error e => cases hz
  | ok a =>
    obtain ⟨b, rfl, hr⟩ := h.out a rfl
    exact (hf a b hr).out z hz

theorem bindEq {m : Except Err α} {f : α → Except Err γ} {g : α → Except Err δ}
    (hf : ∀ a, Le S (f a) (g a)) : Le S (m >>= f) (m >>= g) := by
  refine ⟨fun z hz => ?_⟩
  cases m with
  | error e => cases hz
  | ok a => exact (hf a).out z hz

theorem req {p q : Prop} [Decidable p] [Decidable q] {e e' : String} {f : Unit → Except Err γ}
    {g : Unit → Except Err δ} (hpq : p → q) (hf : p → Le S (f ()) (g ())) :
    Le S (require p e >>= f) (require q e' >>= g) := by
  refine ⟨fun z hz => ?_⟩
  by_cases hp : p
  · simp only [require, hp, hpq hp, if_true] at hz ⊢
    exact (hf hp).out z hz
  · simp only [require, hp, if_false] at hz; cases hz

theorem mapErr {f g : String → String} {m1 : Except Err α} {m2 : Except Err β} (h : Le R m1 m2) :
    Le R (mapErr f m1) (mapErr g m2) := by
  refine ⟨fun a ha => ?_⟩
  rw [Exec.mapErr_ok] at ha
  obtain ⟨b, hb, hr⟩ := h.out a ha
  exact ⟨b, Exec.mapErr_ok.mpr hb, hr⟩

theorem pure {a : α} {b : β} (h : R a b) : Le R (Pure.pure a) (Pure.pure b) := by
  refine ⟨fun z hz => ?_⟩
  cases hz
  exact ⟨b, rfl, h⟩

theorem ok {a : α} {b : β} (h : R a b) : Le R (.ok a) (.ok b) := pure h

end Le

/-- at least as many tokens on every account, the same stakes, no larger locks and the same fees collected -/
structure BalLe (b1 b2 : Bal) : Prop where
  free : ∀ a, b1.freeOf a ≤ b2.freeOf a
  tee : b1.tee = b2.tee
  other : ∀ a, (b2.other.get a).getD 0 ≤ (b1.other.get a).getD 0
  coll : b1.collected = b2.collected

namespace BalLe
variable {b1 b2 : Bal}

theorem frozen (h : BalLe b1 b2) (a : AccountId) : b2.frozen a ≤ b1.frozen a := by
  have := h.other a
  unfold Bal.frozen; rw [h.tee]; omega

theorem setFree (h : BalLe b1 b2) {x y : Balance} (a : AccountId) (hxy : x ≤ y) :
    BalLe (b1.setFree a x) (b2.setFree a y) := by
  refine ⟨fun z => ?_, h.tee, h.other, h.coll⟩
  have := h.free z
  by_cases e : z = a
  · subst e; simpa [Bal.freeOf_setFree] using hxy
  · simpa [Bal.freeOf_setFree, e] using this

theorem settle (h : BalLe b1 b2) {x y ed : Balance} (a : AccountId) (hxy : x ≤ y) :
    BalLe (b1.settle ed a x) (b2.settle ed a y) := by
  unfold Bal.settle
  split
  · split
    · have := h.setFree a (Nat.le_refl 0)
      exact ⟨this.free, this.tee, this.other, this.coll⟩
    · have := h.setFree a (Nat.zero_le y)
      exact ⟨this.free, this.tee, this.other, this.coll⟩
  · rw [if_neg (by omega)]
    exact h.setFree a hxy

theorem canLeave (h : BalLe b1 b2) {x y ed : Balance} {a : AccountId} {l : Live} (hxy : x ≤ y)
    (hc : b1.canLeave ed a x l) : b2.canLeave ed a y l := by
  unfold Bal.canLeave at *
  have hf := h.frozen a
  refine ⟨by omega, fun hy => ?_⟩
  have := hc.2 (by omega)
  exact ⟨this.1, by omega⟩

theorem transfer (h : BalLe b1 b2) (ed : Balance) (src dst : AccountId) (v : Balance) (l : Live) :
    Le BalLe (b1.transfer ed src dst v l) (b2.transfer ed src dst v l) := by
  unfold Bal.transfer
  split
  · exact .ok h
  · have hs := h.free src
    have hd := h.free dst
    refine .req (by omega) fun _ => .req (h.canLeave (by omega)) fun _ => .req (by omega) fun _ => .pure ?_
    exact (h.settle src (by omega)).setFree dst (by omega)

theorem withdraw (h : BalLe b1 b2) (ed : Balance) (a : AccountId) (v : Balance) (l : Live) :
    Le BalLe (b1.withdraw ed a v l) (b2.withdraw ed a v l) := by
  unfold Bal.withdraw
  split
  · exact .ok h
  · have hs := h.free a
    refine .req (by omega) fun _ => .req (h.canLeave (by omega)) fun _ => .pure ?_
    exact h.settle a (by omega)

theorem payFee (h : BalLe b1 b2) (ed : Balance) (a : AccountId) (v : Balance) :
    Le BalLe (b1.payFee ed a v) (b2.payFee ed a v) := by
  unfold Bal.payFee
  refine .bind (h.withdraw ..) fun x y h => .pure ?_
  exact ⟨h.free, h.tee, h.other, by simp [Bal.collect, h.coll]⟩

theorem burn (h : BalLe b1 b2) (v : Balance) : BalLe (b1.burn v) (b2.burn v) :=
  ⟨h.free, h.tee, h.other, h.coll⟩

theorem check (h : BalLe b1 b2) {a : AccountId} {v : Balance} (hc : b1.balanceCheck a v) : b2.balanceCheck a v := by
  unfold Bal.balanceCheck Bal.ensureCanWithdraw at *
  have := h.free a
  have := h.frozen a
  omega

theorem ensure (h : BalLe b1 b2) {a : AccountId} {v x y : Balance} (hxy : x ≤ y)
    (hc : b1.ensureCanWithdraw a v x) : b2.ensureCanWithdraw a v y := by
  unfold Bal.ensureCanWithdraw at *
  have := h.frozen a
  omega

theorem setLock (h : BalLe b1 b2) (a : AccountId) (v : Balance) : BalLe (b1.setLock a v) (b2.setLock a v) := by
  unfold Bal.setLock
  split
  · exact h
  · exact ⟨h.free, by simp [h.tee], h.other, h.coll⟩

theorem removeLock (h : BalLe b1 b2) (a : AccountId) : BalLe (b1.removeLock a) (b2.removeLock a) :=
  ⟨h.free, by simp [Bal.removeLock, h.tee], h.other, h.coll⟩

theorem mint (h : BalLe b1 b2) {ed : Balance} (a : AccountId) {v : Balance} (hv : b2.issuance + v ≤ U128MAX) :
    BalLe (b1.mint ed a v) (b2.mint ed a v) := by
  have e2 : min v (U128MAX - b2.issuance) = v := by omega
  have e1 : min v (U128MAX - b1.issuance) ≤ v := by omega
  unfold Bal.mint
  rw [e2]
  dsimp only
  generalize min v (U128MAX - b1.issuance) = u at *
  have ha := h.free a
  by_cases hx : u = 0 ∨ b1.freeOf a = 0 ∧ u < ed
  · rw [if_pos hx]
    split
    · exact h
    · refine ⟨fun z => ?_, h.tee, h.other, h.coll⟩
      have hz := h.free z
      show b1.freeOf z ≤ (b2.setFree a (b2.freeOf a + v)).freeOf z
      rw [Bal.freeOf_setFree]
      split
      · next e => subst e; omega
      · exact hz
  · rw [if_neg hx, if_neg (by omega)]
    have := h.setFree a (x := b1.freeOf a + u) (y := b2.freeOf a + v) (by omega)
    exact ⟨this.free, this.tee, this.other, this.coll⟩

end BalLe

/-- the same world with at least as many tokens on every account -/
def RichW (w1 w2 : World) : Prop := ∃ b, w2 = w1.putBal b ∧ BalLe w1.bal b

namespace RichW

theorem of {w1 w2 : World} {b1 b2 : Bal} (e : w2 = w1.putBal b2) (h : BalLe b1 b2) (hb : w1.bal = b1) : RichW w1 w2 :=
  ⟨b2, e, hb ▸ h⟩

end RichW

/-- step over equal actions -/
macro "le_steps" : tactic => `(tactic| repeat refine Le.bindEq fun _ => ?_)

/-- a call that passes the balances on unchanged -/
macro "le_same " h:term : tactic => `(tactic| (le_steps; exact Le.pure ⟨_, rfl, $h⟩))

variable {c : Cfg} {w : World} {b : Bal}

namespace NftM

theorem pushToColl_le (h : BalLe w.bal b) (who : AccountId) (id : NFTId) (k : Option CollId) :
    Le RichW (pushToColl c w who id k) (pushToColl c (w.putBal b) who id k) := by
  cases k with
  | none => exact .pure ⟨b, rfl, h⟩
  | some k => unfold pushToColl; le_same h

theorem createHelper_le (h : BalLe w.bal b) (who : AccountId) (data : Data) (r : Permill) (k : Option CollId)
    (s : Bool) : Le RichW (createHelper c w who data r k s) (createHelper c (w.putBal b) who data r k s) := by
  unfold createHelper
  refine .bind (h.payFee ..) fun b1 b2 hb => ?_
  refine .bind (pushToColl_le (w := w.putBal b1) (b := b2) hb who w.nft.nextNft k) fun v1 v2 hv => ?_
  obtain ⟨b', rfl, h'⟩ := hv
  unfold nextNftId
  simp only [bind_assoc, pure_bind]
  le_same h'

theorem addSecretHelper_le (h : BalLe w.bal b) (who : AccountId) (n : NFTId) (data : Data) :
    Le RichW (addSecretHelper c w who n data) (addSecretHelper c (w.putBal b) who n data) := by
  unfold addSecretHelper
  le_steps
  refine .bind (h.payFee ..) fun b1 b2 hb => .pure ⟨b2, rfl, hb⟩

theorem toCapsuleHelper_le (h : BalLe w.bal b) (who : AccountId) (n : NFTId) (data : Data) :
    Le RichW (toCapsuleHelper c w who n data) (toCapsuleHelper c (w.putBal b) who n data) := by
  unfold toCapsuleHelper
  le_steps
  refine .bind (h.payFee ..) fun b1 b2 hb => .pure ⟨b2, rfl, hb⟩

theorem dropFromColl_le (h : BalLe w.bal b) (n : NFTId) (k : Option CollId) :
    Le RichW (dropFromColl w n k) (dropFromColl (w.putBal b) n k) := by
  cases k with
  | none => exact .pure ⟨b, rfl, h⟩
  | some k => unfold dropFromColl; le_same h

theorem call_le (h : BalLe w.bal b) (who : AccountId) (x : Call) :
    Le RichW (call c w who x) (call c (w.putBal b) who x) := by
  cases x with
  | createNft => exact createHelper_le h ..
  | addSecret => exact addSecretHelper_le h ..
  | toCapsule => exact toCapsuleHelper_le h ..
  | createSecret =>
    simp only [call, createSecret]
    refine .req h.check fun _ => .bind (createHelper_le h ..) fun v1 v2 hv => ?_
    obtain ⟨b', rfl, h'⟩ := hv
    exact addSecretHelper_le h' ..
  | createCapsule =>
    simp only [call, createCapsule]
    refine .req h.check fun _ => .bind (createHelper_le h ..) fun v1 v2 hv => ?_
    obtain ⟨b', rfl, h'⟩ := hv
    exact toCapsuleHelper_le h' ..
  | burnNft =>
    simp only [call, burnNft]
    le_steps
    refine .bind (dropFromColl_le h ..) fun v1 v2 hv => ?_
    obtain ⟨b', rfl, h'⟩ := hv
    exact .pure ⟨b', rfl, h'⟩
  | transferNft => simp only [call, transferNft]; le_same h
  | delegateNft => simp only [call, delegateNft]; le_same h
  | setRoyalty => simp only [call, setRoyalty]; le_same h
  | createColl => simp only [call, createColl]; le_same h
  | burnColl => simp only [call, burnColl]; le_same h
  | closeColl => simp only [call, closeColl]; le_same h
  | limitColl => simp only [call, limitColl]; le_same h
  | addToColl => simp only [call, addToColl]; le_same h
  | addSecretShard => simp only [call, addSecretShard]; le_same h
  | setCapsuleData => simp only [call, setCapsuleData]; le_same h
  | addCapsuleShard => simp only [call, addCapsuleShard]; le_same h
  | notifyKey => simp only [call, notifyKey]; le_same h
  | setCollData => simp only [call, setCollData]; le_same h

end NftM

namespace MktM

theorem call_le (h : BalLe w.bal b) (who : AccountId) (x : Call) :
    Le RichW (call c w who x) (call c (w.putBal b) who x) := by
  cases x with
  | create =>
    simp only [call, create]
    refine .bind (h.payFee ..) fun b1 b2 hb => ?_
    le_same hb
  | setOwner => simp only [call, setOwner]; le_same h
  | setKind => simp only [call, setKind]; le_same h
  | setConfig => simp only [call, setConfig]; le_same h
  | list =>
    simp only [call, list]
    le_steps
    refine .bind (h.transfer ..) fun b1 b2 hb => ?_
    le_same hb
  | unlist => simp only [call, unlist]; le_same h
  | buy =>
    simp only [call, buy]
    le_steps
    refine .req (fun hp => Nat.le_trans hp (h.free _)) fun _ => ?_
    refine .bind (h.transfer ..) fun b1 b2 h => ?_
    le_steps
    refine .bind (h.transfer ..) fun b1 b2 h => ?_
    le_steps
    refine .bind (h.transfer ..) fun b1 b2 h => ?_
    le_same h

end MktM

namespace AucM

theorem paySeq_le {b1 b2 : Bal} (h : BalLe b1 b2) (src : AccountId) (l : Live) (p : List (AccountId × Balance))
    (hok : (paySeq c b1 src l p).2 = .ok ()) :
    (paySeq c b2 src l p).2 = .ok () ∧ BalLe (paySeq c b1 src l p).1 (paySeq c b2 src l p).1 := by
  induction p generalizing b1 b2 with
  | nil => exact ⟨rfl, h⟩
  | cons x t ih =>
    obtain ⟨d, v⟩ := x
    simp only [paySeq] at hok ⊢
    cases hx : b1.transfer c.ed src d v l with
    | error e => simp [hx] at hok
    | ok b1' =>
      obtain ⟨b2', hy, h'⟩ := (h.transfer c.ed src d v l).out b1' hx
      simp only [hx, hy] at hok ⊢
      exact ih h' hok

theorem payForNftExt_le (h : BalLe w.bal b) (n : NFTId) (src : AccountId) (v : Balance) (d : NFTData) (a : Auction) :
    Le BalLe (payForNftExt c w n src v d a) (payForNftExt c (w.putBal b) n src v d a) := by
  refine ⟨fun z hz => ?_⟩
  unfold payForNftExt payForNft at *
  have e1 : (w.putBal b).mkt = w.mkt := rfl
  have e2 : (w.putBal b).auc = w.auc := rfl
  have e3 : (w.putBal b).bal = b := rfl
  rw [e1, e2, e3]
  cases hm : w.mkt.mkts.get a.mkt with
  | none => simp [hm] at hz
  | some m =>
    cases hk : w.auc.comm.get n with
    | none => simp [hm, hk] at hz
    | some k =>
      simp only [hm, hk] at hz ⊢
      have h0 := paySeq_le (c := c) h src (if src = c.aucPot then .allowDeath else .keepAlive)
        [(m.owner, (cuts v k d.royalty).1), (d.creator, (cuts v k d.royalty).2.1),
          (a.creator, (cuts v k d.royalty).2.2)]
      generalize paySeq c w.bal _ _ _ = x at *
      generalize paySeq c b _ _ _ = y at *
      obtain ⟨b1, r1⟩ := x
      obtain ⟨b2, r2⟩ := y
      cases r1 with
      | error e => cases hz
      | ok u =>
        cases hz
        obtain ⟨rfl, h1⟩ := h0 rfl
        exact ⟨b2, rfl, h1⟩

theorem call_le (h : BalLe w.bal b) (who : AccountId) (x : Call) :
    Le RichW (call c w who x) (call c (w.putBal b) who x) := by
  cases x with
  | create => simp only [call, create]; le_same h
  | cancel => simp only [call, cancel]; le_same h
  | end_ =>
    simp only [call, end_]
    le_steps
    refine .bind (payForNftExt_le h ..) fun b1 b2 h => ?_
    le_same h
  | addBid =>
    simp only [call, addBid]
    le_steps
    refine .bind (h.transfer ..) fun b1 b2 h => ?_
    le_same h
  | removeBid =>
    simp only [call, removeBidCall]
    le_steps
    refine .bind (h.transfer ..) fun b1 b2 h => ?_
    le_same h
  | buyItNow =>
    simp only [call, buyItNow]
    le_steps
    refine .bind (payForNftExt_le h ..) fun b1 b2 h => ?_
    le_same h
  | claim =>
    simp only [call, claim]
    le_steps
    refine .bind (h.transfer ..) fun b1 b2 h => ?_
    le_same h

end AucM

namespace TrM

theorem transmit_le (h : BalLe w.bal b) (n : NFTId) : Le RichW (transmit w n) (transmit (w.putBal b) n) := by
  unfold transmit; le_same h

theorem consentEffect_le (h : BalLe w.bal b) (n : NFTId) (p : Protocol) (t : Nat) (l : List AccountId)
    (who : AccountId) : Le RichW (consentEffect c w n p t l who) (consentEffect c (w.putBal b) n p t l who) := by
  unfold consentEffect
  have e1 : (w.putBal b).tr = w.tr := rfl
  have e2 : (w.putBal b).now = w.now := rfl
  rw [e1, e2]
  split
  · exact .pure ⟨_, rfl, h⟩
  · split
    · split
      · refine .bind (transmit_le (w := { w with tr := { w.tr with consents := w.tr.consents.erase n } }) h n)
          fun v1 v2 hv => ?_
        obtain ⟨b', rfl, h'⟩ := hv
        exact .pure ⟨b', rfl, h'⟩
      · le_same h
    · refine .bind (transmit_le (w := { w with tr := { w.tr with consents := w.tr.consents.erase n } }) h n)
          fun v1 v2 hv => ?_
      obtain ⟨b', rfl, h'⟩ := hv
      exact .pure ⟨b', rfl, h'⟩

theorem call_le (h : BalLe w.bal b) (who : AccountId) (x : Call) :
    Le RichW (call c w who x) (call c (w.putBal b) who x) := by
  cases x with
  | set =>
    simp only [call, set]
    le_steps
    refine .bind (h.payFee ..) fun b1 b2 h => ?_
    le_same h
  | remove => simp only [call, remove]; le_same h
  | resetTimer => simp only [call, resetTimer]; le_same h
  | addConsent =>
    simp only [call, addConsent]
    le_steps
    exact consentEffect_le h ..

end TrM

namespace TeeM

theorem call_le (h : BalLe w.bal b) (who : AccountId) (x : Call) :
    Le RichW (call c w who x) (call c (w.putBal b) who x) := by
  cases x with
  | register =>
    simp only [call, register]
    le_steps
    have hf := h.free who
    refine .req (fun hp => Nat.le_trans hp hf) fun _ => .req (h.ensure (Nat.sub_le_sub_right hf _)) fun _ => ?_
    exact .pure ⟨_, rfl, h.setLock ..⟩
  | unregister =>
    simp only [call, unregister]
    have e : (w.putBal b).tee = w.tee := rfl
    rw [e]
    split
    · unfold unregisterAssigned; le_same h
    · unfold dropRegistration; le_steps; exact .pure ⟨_, rfl, h.removeLock _⟩
  | update => simp only [call, update]; le_same h
  | cancelUpdate => simp only [call, dropUpdate]; le_same h
  | withdraw => simp only [call, withdraw]; le_steps; exact .pure ⟨_, rfl, h.removeLock _⟩
  | submitReport => simp only [call, submitReport]; le_same h
  | claim =>
    simp only [call, claim]
    le_steps
    refine .bind (h.transfer ..) fun b1 b2 h => ?_
    le_same h
  | bondExtra =>
    simp only [call, bondExtra]
    le_steps
    have hf := h.free who
    refine .req (fun hp => Nat.le_trans hp hf) fun _ => .req (h.ensure (Nat.sub_le_sub_right hf _)) fun _ => ?_
    exact .pure ⟨_, rfl, h.setLock ..⟩
  | refundExcess => simp only [call, refundExcess]; le_steps; exact .pure ⟨_, rfl, h.setLock ..⟩

end TeeM

namespace BrM

theorem call_le (h : BalLe w.bal b) (who : AccountId) (x : Call) (hx : b.issuance + issues (.br x) ≤ U128MAX) :
    Le RichW (call c w who x) (call c (w.putBal b) who x) := by
  cases x with
  | vote k t =>
    simp only [call, voteFor]
    le_steps
    next y =>
    refine .pure ?_
    unfold payout
    cases y.2 with
    | true => exact ⟨_, rfl, h.mint t.recipient hx⟩
    | false => exact ⟨_, rfl, h⟩
  | deposit =>
    simp only [call, deposit]
    le_steps
    refine .req (fun hp => Nat.le_trans hp (h.free _)) fun _ => ?_
    refine .bind (h.payFee ..) fun b1 b2 h => ?_
    refine .bind (h.withdraw ..) fun b1 b2 h => ?_
    exact .pure ⟨_, rfl, h.burn _⟩

end BrM

/-- an action that succeeds also succeeds with more tokens, to the same effect -/
structure ActMono (a : Act) : Prop where
  out : ∀ w b, BalLe w.bal b → (a w).2 = .ok () → ∃ b', a (w.putBal b) = ((a w).1.putBal b', .ok ()) ∧
    BalLe (a w).1.bal b'

namespace ActMono

theorem skip : ActMono Act.skip := ⟨fun _ b h _ => ⟨b, rfl, h⟩⟩

theorem seq {a b : Act} (ha : ActMono a) (hb : ActMono b) : ActMono (a.seq b) := by
  refine ⟨fun w x h hok => ?_⟩
  have h1 := ha.out w x h
  unfold Act.seq at hok ⊢
  generalize a w = y at *
  obtain ⟨v, r⟩ := y
  cases r with
  | error e => cases hok
  | ok u =>
    obtain ⟨b', e, h'⟩ := h1 rfl
    rw [e]
    exact hb.out v b' h' hok

theorem ext {a : Act} (ha : ActMono a) (h : BalLe w.bal b) : Le RichW (a.ext w) (a.ext (w.putBal b)) := by
  refine ⟨fun z hz => ?_⟩
  have h1 := ha.out w b h
  unfold Act.ext at hz ⊢
  generalize a w = y at *
  obtain ⟨v, r⟩ := y
  cases r with
  | error e => cases hz
  | ok u =>
    cases hz
    obtain ⟨b', e, h'⟩ := h1 rfl
    rw [e]
    exact ⟨_, rfl, b', rfl, h'⟩

end ActMono

namespace RentM

theorem payAct_mono (src dst : AccountId) (v : Balance) (l : Live) : ActMono (payAct c src dst v l) := by
  refine ⟨fun w b h hok => ?_⟩
  have h1 := h.transfer c.ed src dst v l
  unfold payAct at hok ⊢
  have e3 : (w.putBal b).bal = b := rfl
  rw [e3]
  cases hx : w.bal.transfer c.ed src dst v l with
  | error e => simp [hx] at hok
  | ok b1 =>
    obtain ⟨b2, hy, h'⟩ := h1.out b1 hx
    rw [hy]
    exact ⟨b2, rfl, h'⟩

theorem chownAct_mono (n : NFTId) (a : AccountId) : ActMono (chownAct n a) := by
  refine ⟨fun w b h hok => ?_⟩
  unfold chownAct at hok ⊢
  have e3 : (w.putBal b).nfts = w.nfts := rfl
  rw [e3]
  cases hx : w.nfts.get n with
  | none => simp [hx] at hok
  | some d => exact ⟨b, rfl, h⟩

theorem chownOpt_mono (n : Option NFTId) (a : AccountId) : ActMono (chownOpt n a) := by
  cases n with
  | none => exact .skip
  | some n => exact chownAct_mono n a

theorem returnFee_mono (f : CancelFee) (a : AccountId) : ActMono (returnFee c f a) :=
  (payAct_mono ..).seq (chownOpt_mono ..)

theorem returnFlexible_mono (x y : AccountId) (p : Permill) (v : Balance) : ActMono (returnFlexible c x y p v) :=
  (payAct_mono ..).seq (payAct_mono ..)

theorem handleFinished_mono (n : NFTId) : ActMono (handleFinished c n) := by
  refine ⟨fun w b h hok => ?_⟩
  unfold handleFinished at hok ⊢
  have e1 : (w.putBal b).nfts = w.nfts := rfl
  have e2 : (w.putBal b).rent = w.rent := rfl
  rw [e1, e2]
  cases hk : w.rent.contracts.get n with
  | none => simp [hk] at hok
  | some k =>
    cases hd : w.nfts.get n with
    | none => simp [hk, hd] at hok
    | some d =>
      simp only [hk, hd] at hok ⊢
      refine (ActMono.seq (payAct_mono ..) (.seq ?_ (.seq (chownOpt_mono ..) (.seq ?_ ?_)))).out w b h hok
      · cases k.rentee with
        | none => exact .skip
        | some r => exact payAct_mono ..
      · cases k.rentee with
        | none => exact .skip
        | some r => exact chownOpt_mono ..
      · exact ⟨fun w b h _ => ⟨b, rfl, h⟩⟩

theorem depositRenterNft_le (h : BalLe w.bal b) (who : AccountId) (n : Option NFTId) :
    Le RichW (depositRenterNft c w who n) (depositRenterNft c (w.putBal b) who n) := by
  cases n with
  | none => exact .pure ⟨b, rfl, h⟩
  | some n => unfold depositRenterNft; le_same h

theorem penalty_le (h : BalLe w.bal b) (k : Contract) (now : Block) (f : CancelFee) (x y : AccountId) :
    Le RichW (penalty c k now f x y w) (penalty c k now f x y (w.putBal b)) := by
  unfold penalty
  split
  · le_steps
    exact (returnFlexible_mono ..).ext h
  · exact (returnFee_mono ..).ext h

theorem checkNft_le (who : AccountId) (n : Option NFTId) : checkNft (w.putBal b) who n = checkNft w who n := by
  cases n <;> rfl

theorem takeFees_le (h : BalLe w.bal b) (r : AccountId) (k : Contract) :
    Le RichW (takeFees c w r k) (takeFees c (w.putBal b) r k) := by
  unfold takeFees
  refine .bind (h.transfer ..).mapErr fun b1 b2 h => ?_
  refine .bind (h.transfer ..).mapErr fun b1 b2 h => ?_
  simp only [checkNft_le]
  le_steps
  refine .bind ((chownOpt_mono ..).ext (w := w.putBal b1) h) fun v1 v2 hv => ?_
  obtain ⟨b', rfl, h'⟩ := hv
  exact (chownOpt_mono ..).ext h'

theorem startContract_le (h : BalLe w.bal b) (n : NFTId) (k : Contract) (r : AccountId) :
    Le RichW (startContract c w n k r) (startContract c (w.putBal b) n k r) := by
  unfold startContract
  refine .bind (takeFees_le h ..) fun v1 v2 hv => ?_
  obtain ⟨b', rfl, h'⟩ := hv
  le_same h'

theorem call_le (h : BalLe w.bal b) (who : AccountId) (x : Call) :
    Le RichW (call c w who x) (call c (w.putBal b) who x) := by
  cases x with
  | create =>
    simp only [call, create]
    le_steps
    refine .bind (h.transfer ..).mapErr fun b1 b2 h => ?_
    refine .bind (depositRenterNft_le (w := w.putBal b1) h ..) fun v1 v2 hv => ?_
    obtain ⟨b', rfl, h'⟩ := hv
    le_same h'
  | cancel n =>
    simp only [call, cancel]
    le_steps
    exact (handleFinished_mono n).ext (w := { w with rent := { w.rent with
      availQ := w.rent.availQ.remove n, offers := w.rent.offers.erase n } }) h
  | revoke =>
    simp only [call, revoke]
    le_steps
    refine .bind ((returnFee_mono ..).ext h) fun v1 v2 hv => ?_
    obtain ⟨b', rfl, h'⟩ := hv
    refine .bind (penalty_le h' ..) fun v1 v2 hv => ?_
    obtain ⟨b', rfl, h'⟩ := hv
    le_same h'
  | rent => simp only [call, rent]; le_steps; exact startContract_le h ..
  | makeOffer =>
    simp only [call, makeOffer, checkNft_le]
    le_steps
    refine .req h.check fun _ => .req h.check fun _ => .req h.check fun _ => ?_
    le_same h
  | acceptOffer => simp only [call, acceptOffer]; le_steps; exact startContract_le h ..
  | retractOffer => simp only [call, retractOffer]; le_same h
  | changeTerms => simp only [call, changeTerms]; le_same h
  | acceptTerms => simp only [call, acceptTerms]; le_same h

end RentM

theorem signed_le (h : BalLe w.bal b) (who : AccountId) (x : Call) (hx : b.issuance + issues x ≤ U128MAX) :
    Le RichW (signedCall c w who x) (signedCall c (w.putBal b) who x) := by
  cases x with
  | nft x => exact NftM.call_le h who x
  | mkt x => exact MktM.call_le h who x
  | auc x => exact AucM.call_le h who x
  | rent x => exact RentM.call_le h who x
  | tr x => exact TrM.call_le h who x
  | tee x => exact TeeM.call_le h who x
  | br x => exact BrM.call_le h who x hx
  | bal dst v l =>
    refine ⟨fun z hz => ?_⟩
    simp only [signedCall] at hz ⊢
    cases hy : w.bal.transfer c.ed who dst v l with
    | error e => rw [hy] at hz; cases hz
    | ok b1 =>
      rw [hy] at hz
      cases hz
      obtain ⟨b2, e, h'⟩ := (h.transfer c.ed who dst v l).out b1 hy
      have e3 : (w.putBal b).bal = b := rfl
      rw [e3, e]
      exact ⟨_, rfl, b2, rfl, h'⟩
  | root => exact ⟨fun z hz => by cases hz⟩
  | ext => exact ⟨fun z hz => by cases hz⟩
  | mandate => exact ⟨fun z hz => by cases hz⟩

/-- a signed call raises the issuance by what it mints at most -/
theorem signed_issuance {w' : World} {a : AccountId} {x : Call} (h : signedCall c w a x = .ok w') :
    w'.bal.issuance ≤ w.bal.issuance + issues x := by
  cases x with
  | nft x => exact (NftM.call_pays h).issuance.1
  | mkt x => exact (MktM.call_pays h).issuance.1
  | auc x => exact (AucM.call_pays h).issuance.1
  | rent x => exact (RentM.call_pays h).issuance.1
  | tr x => exact (TrM.call_pays h).issuance.1
  | tee x =>
    have hl : ∀ (b : Bal) a v, (b.setLock a v).issuance = b.issuance := by
      intro b a v; unfold Bal.setLock; split <;> rfl
    show w'.bal.issuance ≤ w.bal.issuance
    cases x <;> simp only [signedCall, TeeM.call] at h
    case register =>
      simp only [TeeM.register] at h; frame_auto at h
      exact Nat.le_of_eq (hl ..)
    case unregister =>
      unfold TeeM.unregister at h
      split at h
      · simp only [TeeM.unregisterAssigned] at h; frame_auto at h; exact Nat.le_refl _
      · simp only [TeeM.dropRegistration] at h; frame_auto at h; exact Nat.le_refl _
    case update => simp only [TeeM.update] at h; frame_auto at h; exact Nat.le_refl _
    case cancelUpdate => simp only [TeeM.dropUpdate] at h; frame_auto at h; exact Nat.le_refl _
    case withdraw => simp only [TeeM.withdraw] at h; frame_auto at h; exact Nat.le_refl _
    case submitReport => simp only [TeeM.submitReport] at h; frame_auto at h; exact Nat.le_refl _
    case claim =>
      simp only [TeeM.claim] at h; inv_ok at h
      obtain ⟨_, _, _, b, _, _, _, _, _, _, _, h1, rfl⟩ := h
      show b.issuance ≤ _
      rcases Bal.transfer_issuance h1 with h2 | h2 <;> omega
    case bondExtra => simp only [TeeM.bondExtra] at h; frame_auto at h; exact Nat.le_of_eq (hl ..)
    case refundExcess => simp only [TeeM.refundExcess] at h; frame_auto at h; exact Nat.le_of_eq (hl ..)
  | br x =>
    cases x with
    | vote k t =>
      simp only [signedCall, BrM.call, BrM.voteFor] at h; inv_ok at h
      obtain ⟨y, _, _, _, rfl⟩ := h
      unfold BrM.payout
      cases y.2 with
      | true => exact (Bal.mint_issuance (ed := c.ed) w.bal t.recipient t.amount).2.1
      | false => exact Nat.le_add_right _ _
    | deposit =>
      simp only [signedCall, BrM.call, BrM.deposit] at h; inv_ok at h
      obtain ⟨b1, b2, _, _, h1, h2, rfl⟩ := h
      have e1 := (Bal.payFee_issuance h1).1
      have e2 : b2.issuance ≤ b1.issuance := by
        rcases Bal.withdraw_ok h2 with ⟨-, rfl⟩ | ⟨-, -, -, rfl⟩
        · exact Nat.le_refl _
        · rw [Bal.settle_issuance]; omega
      show b2.issuance - _ ≤ _
      omega
  | bal dst v l =>
    simp only [signedCall] at h
    cases hy : w.bal.transfer c.ed a dst v l with
    | error e => rw [hy] at h; cases h
    | ok b1 => rw [hy] at h; cases h; show b1.issuance ≤ _; rcases Bal.transfer_issuance hy with h2 | h2 <;> omega
  | root => cases h
  | ext => cases h
  | mandate => cases h

namespace Spec

theorem Richer.bal {w1 w2 : World} (h : Richer w1 w2) : BalLe w1.bal w2.bal := ⟨h.1, h.2.1, h.2.2.1, h.2.2.2.1⟩

theorem Richer.eq {w1 w2 : World} (h : Richer w1 w2) : w2 = w1.putBal w2.bal := h.2.2.2.2.symm

end Spec

theorem RichW.richer {w1 w2 : World} (h : RichW w1 w2) : Richer w1 w2 := by
  obtain ⟨b, rfl, h⟩ := h
  exact ⟨h.free, h.tee, h.other, h.coll, rfl⟩
