import Verif.Props.ErasSpec
import Verif.Proofs.SymNft
import Verif.Proofs.TeeRew
/-
Moving the eras commutes with everything but, in the first eras, the TEE pallet.
-/
open Spec Sym

/-- Pushes moving the eras through a function that does not look at them. -/
macro "eras" "[" ls:Lean.Parser.Tactic.simpLemma,* "]" : tactic =>
  `(tactic| (simp only [map_bind', map_pure', bind_map', $ls,*]; rfl))

namespace NftM
variable (k : Era) (c : Cfg) (w : World) (who : AccountId)

theorem eras_next : nextNftId (Eras.world k w) = Except.map (fun x => (x.1, Eras.world k x.2)) (nextNftId w) := by
  eras [nextNftId]

theorem eras_push (id : NFTId) (x : Option CollId) :
    pushToColl c (Eras.world k w) who id x = Except.map (Eras.world k) (pushToColl c w who id x) := by
  cases x with
  | none => rfl
  | some x => eras [pushToColl]

theorem eras_createHelper (d : Data) (r : Permill) (x : Option CollId) (s : Bool) :
    createHelper c (Eras.world k w) who d r x s = Except.map (Eras.world k) (createHelper c w who d r x s) := by
  have h : ∀ b, (Eras.world k w).putBal b = Eras.world k (w.putBal b) := fun _ => rfl
  have h' : ∀ w : World, (Eras.world k w).nft = w.nft := fun _ => rfl
  eras [createHelper, h, h', eras_push, eras_next]

theorem eras_addSecretHelper (n : NFTId) (d : Data) :
    addSecretHelper c (Eras.world k w) who n d = Except.map (Eras.world k) (addSecretHelper c w who n d) := by
  eras [addSecretHelper]

theorem eras_toCapsuleHelper (n : NFTId) (d : Data) :
    toCapsuleHelper c (Eras.world k w) who n d = Except.map (Eras.world k) (toCapsuleHelper c w who n d) := by
  eras [toCapsuleHelper]

theorem eras_dropFromColl (n : NFTId) (x : Option CollId) :
    dropFromColl (Eras.world k w) n x = Except.map (Eras.world k) (dropFromColl w n x) := by
  cases x with
  | none => rfl
  | some x => eras [dropFromColl]

theorem eras_call (x : Call) : call c (Eras.world k w) who x = Except.map (Eras.world k) (call c w who x) := by
  have h : ∀ w : World, (Eras.world k w).nft = w.nft := fun _ => rfl
  cases x with
  | createNft d r x s => exact eras_createHelper k c w who d r x s
  | burnNft n => eras [call, burnNft, eras_dropFromColl]
  | transferNft n a => eras [call, transferNft]
  | delegateNft n a => eras [call, delegateNft]
  | setRoyalty n r => eras [call, setRoyalty]
  | createColl d l => eras [call, createColl]
  | burnColl x => eras [call, burnColl]
  | closeColl x => eras [call, closeColl]
  | limitColl x l => eras [call, limitColl]
  | addToColl n x => eras [call, addToColl]
  | addSecret n d => exact eras_addSecretHelper k c w who n d
  | createSecret d s r x b => eras [call, createSecret, eras_createHelper, eras_addSecretHelper, h]
  | addSecretShard n => eras [call, addSecretShard]
  | toCapsule n d => exact eras_toCapsuleHelper k c w who n d
  | createCapsule d s r x b => eras [call, createCapsule, eras_createHelper, eras_toCapsuleHelper, h]
  | setCapsuleData n d => eras [call, setCapsuleData]
  | addCapsuleShard n => eras [call, addCapsuleShard]
  | notifyKey n => eras [call, notifyKey]
  | setCollData x d => eras [call, setCollData]

end NftM

namespace MktM
variable (k : Era) (c : Cfg) (w : World) (who : AccountId)

theorem eras_call (x : Call) : call c (Eras.world k w) who x = Except.map (Eras.world k) (call c w who x) := by
  cases x with
  | create x => eras [call, create]
  | setOwner m a => eras [call, setOwner]
  | setKind m x => eras [call, setKind]
  | setConfig m f l a o x => eras [call, setConfig]
  | list n m p => eras [call, list]
  | unlist n => eras [call, unlist]
  | buy n p => eras [call, buy]

end MktM

namespace AucM
variable (k : Era) (c : Cfg) (w : World) (who : AccountId)

theorem eras_call (x : Call) : call c (Eras.world k w) who x = Except.map (Eras.world k) (call c w who x) := by
  cases x with
  | create n m s e p b => eras [call, create]
  | cancel n => eras [call, cancel]
  | end_ n => eras [call, end_]
  | addBid n v => eras [call, addBid]
  | removeBid n => eras [call, removeBidCall]
  | buyItNow n p => eras [call, buyItNow]
  | claim => eras [call, claim]

theorem eras_settleOne (n : NFTId) :
    settleOne c (Eras.world k w) n = (Eras.world k (settleOne c w n).1, (settleOne c w n).2) := by
  have hn : (Eras.world k w).nfts.get n = w.nfts.get n := rfl
  have ha : (Eras.world k w).auc.auctions.get n = w.auc.auctions.get n := rfl
  have hp : ∀ v d a, payForNft c (Eras.world k w) n c.aucPot v d a = payForNft c w n c.aucPot v d a := fun _ _ _ => rfl
  unfold settleOne
  rw [ha, hn]
  rcases (w.auc.auctions.get n).eq_none_or_eq_some with h1 | ⟨a, h1⟩
  · rw [h1]
  · rcases (w.nfts.get n).eq_none_or_eq_some with h2 | ⟨d, h2⟩
    · rw [h1, h2]
    · rw [h1, h2]
      rcases (a.bids.getLast?).eq_none_or_eq_some with h3 | ⟨top, h3⟩
      · simp only [h3]; rfl
      · simp only [h3, hp]
        rcases payForNft c w n c.aucPot top.2 d a with ⟨b, _ | _⟩ <;> rfl

theorem eras_hookLoop (q : Queue) (m : Nat) :
    hookLoop c (Eras.world k w) q m = (Eras.world k (hookLoop c w q m).1, (hookLoop c w q m).2) := by
  induction q generalizing w m with
  | nil => rfl
  | cons x t ih =>
    have h : (Eras.world k w).now = w.now := rfl
    simp only [hookLoop, eras_settleOne, ih, h]
    split
    · split
      · split <;> rfl
      · rfl
    · rfl

theorem eras_hook : hook c (Eras.world k w) = Eras.world k (hook c w) := by
  simp only [hook, show (Eras.world k w).auc.deadlines = w.auc.deadlines from rfl, eras_hookLoop]
  rfl

end AucM

namespace Eras

/-- `a` does not depend on the era in which it is run -/
structure Ageless (k : Era) (a : Act) : Prop where
  eq : ∀ w, a (Eras.world k w) = (Eras.world k (a w).1, (a w).2)

theorem Ageless.skip (k : Era) : Ageless k Act.skip := ⟨fun _ => rfl⟩

theorem Ageless.seq {k : Era} {a a' : Act} (h : Ageless k a) (h' : Ageless k a') : Ageless k (a.seq a') := by
  refine ⟨fun w => ?_⟩
  simp only [Act.seq, h.eq w]
  rcases a w with ⟨w', _ | _⟩
  · rfl
  · exact h'.eq w'

theorem Ageless.ext {k : Era} {a : Act} (h : Ageless k a) (w : World) :
    a.ext (Eras.world k w) = Except.map (Eras.world k) (a.ext w) := by
  simp only [Act.ext, h.eq w]
  rcases a w with ⟨w', _ | _⟩ <;> rfl

end Eras

namespace RentM
open _root_.Eras
variable (k : Era) (c : Cfg) (w : World) (who : AccountId)

theorem eras_pay (s d : AccountId) (v : Balance) (l : Live) : Ageless k (payAct c s d v l) := by
  refine ⟨fun w => ?_⟩
  have h : (Eras.world k w).bal = w.bal := rfl
  simp only [payAct, h]
  cases w.bal.transfer c.ed s d v l <;> rfl

theorem eras_chown (n : NFTId) (a : AccountId) : Ageless k (chownAct n a) := by
  refine ⟨fun w => ?_⟩
  have h : (Eras.world k w).nfts = w.nfts := rfl
  simp only [chownAct, h]
  cases w.nfts.get n <;> rfl

theorem eras_chownOpt (n : Option NFTId) (a : AccountId) : Ageless k (chownOpt n a) := by
  cases n
  · exact .skip k
  · exact eras_chown k ..

theorem eras_handleFinished (n : NFTId) : Ageless k (handleFinished c n) := by
  refine ⟨fun w => ?_⟩
  have hn : (Eras.world k w).nfts = w.nfts := rfl
  have hr : (Eras.world k w).rent = w.rent := rfl
  simp only [handleFinished, hn, hr]
  cases w.rent.contracts.get n with
  | none => rfl
  | some t =>
    cases w.nfts.get n with
    | none => rfl
    | some d =>
      refine (Ageless.seq (eras_pay k c ..) (.seq ?_ (.seq (eras_chownOpt k ..) (.seq ?_ ⟨fun w => rfl⟩)))).eq w
      · cases t.rentee
        · exact .skip k
        · exact eras_pay k c ..
      · cases t.rentee
        · exact .skip k
        · exact eras_chownOpt k ..

theorem eras_returnFee (f : CancelFee) (a : AccountId) : Ageless k (returnFee c f a) :=
  .seq (eras_pay k c ..) (eras_chownOpt k ..)

theorem eras_returnFlexible (a b : AccountId) (p : Permill) (v : Balance) : Ageless k (returnFlexible c a b p v) :=
  .seq (eras_pay k c ..) (eras_pay k c ..)

theorem eras_depositRenterNft (o : Option NFTId) :
    depositRenterNft c (Eras.world k w) who o = Except.map (Eras.world k) (depositRenterNft c w who o) := by
  cases o with
  | none => rfl
  | some id => eras [depositRenterNft]

theorem eras_penalty (t : Contract) (now : Block) (f : CancelFee) (a b : AccountId) :
    penalty c t now f a b (Eras.world k w) = Except.map (Eras.world k) (penalty c t now f a b w) := by
  cases h : flexible f with
  | none =>
    simp only [penalty, h]
    exact (eras_returnFee k c f b).ext w
  | some v =>
    simp only [penalty, h, (eras_returnFlexible k c ..).ext, map_bind']

theorem eras_checkNft (o : Option NFTId) : checkNft (Eras.world k w) who o = checkNft w who o := rfl

theorem eras_takeFees (t : Contract) :
    takeFees c (Eras.world k w) who t = Except.map (Eras.world k) (takeFees c w who t) := by
  have h1 : (Eras.world k w).bal = w.bal := rfl
  have h5 : ∀ b, (Eras.world k w).putBal b = Eras.world k (w.putBal b) := fun _ => rfl
  simp only [takeFees, h1, h5, map_bind', eras_checkNft, (eras_chownOpt k ..).ext, bind_map']

theorem eras_startContract (n : NFTId) (t : Contract) :
    startContract c (Eras.world k w) n t who = Except.map (Eras.world k) (startContract c w n t who) := by
  eras [startContract, eras_takeFees]

theorem eras_call (x : Call) : call c (Eras.world k w) who x = Except.map (Eras.world k) (call c w who x) := by
  cases x with
  | create n d a r f x y =>
    have h3 : ∀ b, (Eras.world k w).putBal b = Eras.world k (w.putBal b) := fun _ => rfl
    eras [call, create, h3, eras_depositRenterNft]
  | cancel n =>
    have hc : ∀ w : World, ({ Eras.world k w with rent := { (Eras.world k w).rent with
        availQ := (Eras.world k w).rent.availQ.remove n, offers := (Eras.world k w).rent.offers.erase n } } : World) =
        Eras.world k { w with rent := { w.rent with availQ := w.rent.availQ.remove n, offers := w.rent.offers.erase n } } :=
      fun _ => rfl
    have hh := fun w => (eras_handleFinished k c n).ext w
    eras [call, cancel, hc, hh]
  | revoke n =>
    have hh := fun f a w => (eras_returnFee k c f a).ext w
    eras [call, revoke, hh, eras_penalty]
  | rent n b => eras [call, rent, eras_startContract]
  | makeOffer n b => eras [call, makeOffer, eras_checkNft]
  | acceptOffer n a => eras [call, acceptOffer, eras_startContract]
  | retractOffer n => eras [call, retractOffer]
  | changeTerms n f p m ch => eras [call, changeTerms]
  | acceptTerms n f p m ch => eras [call, acceptTerms]

theorem eras_handleSub (n : NFTId) :
    handleSub c (Eras.world k w) n = (Eras.world k (handleSub c w n).1, (handleSub c w n).2) := by
  have hb : (Eras.world k w).bal = w.bal := rfl
  have hr : (Eras.world k w).rent = w.rent := rfl
  have hn : (Eras.world k w).now = w.now := rfl
  simp only [handleSub, hb, hr, hn]
  cases w.rent.contracts.get n with
  | none => rfl
  | some t =>
    simp only
    cases t.rentee with
    | none => rfl
    | some r =>
      cases t.rentFee with
      | nft _ => rfl
      | tokens fee =>
        simp only
        split
        · rfl
        · cases w.bal.transfer c.ed r t.renter fee .keepAlive <;> rfl

theorem eras_finishLoop (q : Queue) (m : Nat) :
    finishLoop c (Eras.world k w) q m = (Eras.world k (finishLoop c w q m).1, (finishLoop c w q m).2) := by
  induction q generalizing w m with
  | nil => rfl
  | cons x t ih =>
    have h : (Eras.world k w).now = w.now := rfl
    simp only [finishLoop, (eras_handleFinished k c _).eq, ih, h]
    split
    · split <;> rfl
    · rfl

theorem eras_subOne (n : NFTId) (t : Queue) :
    subOne c (Eras.world k w) n t = (Eras.world k (subOne c w n t).1, (subOne c w n t).2) := by
  simp only [subOne, eras_handleSub]
  rcases handleSub c w n with ⟨w', _ | b⟩
  · simp only [(eras_handleFinished k c _).eq]
  · cases Queue.insert c.rentLimit t n b <;> rfl

theorem eras_subLoop (q : Queue) (m f : Nat) :
    subLoop c (Eras.world k w) q m f = (Eras.world k (subLoop c w q m f).1, (subLoop c w q m f).2) := by
  induction f generalizing w q m with
  | zero => rfl
  | succ f ih =>
    cases q with
    | nil => rfl
    | cons x t =>
      have h : (Eras.world k w).now = w.now := rfl
      simp only [subLoop, eras_subOne, ih, h]
      split
      · split <;> rfl
      · rfl

theorem eras_hook : hook c (Eras.world k w) = Eras.world k (hook c w) := by
  simp only [hook, show (Eras.world k w).rent = w.rent from rfl, eras_finishLoop, eras_subLoop]
  split <;> rfl

end RentM

namespace TrM
variable (k : Era) (c : Cfg) (w : World) (who : AccountId)

theorem eras_transmit (n : NFTId) : transmit (Eras.world k w) n = Except.map (Eras.world k) (transmit w n) := by
  eras [transmit]

theorem eras_consentEffect (n : NFTId) (p : Protocol) (t : Nat) (l : List AccountId) :
    consentEffect c (Eras.world k w) n p t l who = Except.map (Eras.world k) (consentEffect c w n p t l who) := by
  have he : ({ Eras.world k w with tr := { (Eras.world k w).tr with consents := (Eras.world k w).tr.consents.erase n } } : World) =
      Eras.world k { w with tr := { w.tr with consents := w.tr.consents.erase n } } := rfl
  have hd : (Eras.world k w).now = w.now := rfl
  simp only [consentEffect, he]
  simp only [hd]
  by_cases hl : l.length < t
  · rw [if_pos hl, if_pos hl]; rfl
  · rw [if_neg hl, if_neg hl]
    cases endBlock p with
    | none => eras [eras_transmit]
    | some e =>
      by_cases h : e ≤ w.now
      · simp only [if_pos h]; eras [eras_transmit]
      · simp only [if_neg h]; eras []

theorem eras_call (x : Call) : call c (Eras.world k w) who x = Except.map (Eras.world k) (call c w who x) := by
  cases x with
  | set n a p x => eras [call, set]
  | remove n => eras [call, remove]
  | resetTimer n b => eras [call, resetTimer]
  | addConsent n => eras [call, addConsent, eras_consentEffect]

theorem eras_setFee (x : ProtocolKind) (v : Balance) : setFee (Eras.world k w) x v = Eras.world k (setFee w x v) := by
  cases x <;> rfl

theorem eras_hookOne (n : NFTId) : hookOne (Eras.world k w) n = (Eras.world k (hookOne w n).1, (hookOne w n).2) := by
  simp only [hookOne, eras_transmit]
  cases transmit w n <;> rfl

theorem eras_hookLoop (q : Queue) (m : Nat) :
    hookLoop c (Eras.world k w) q m = (Eras.world k (hookLoop c w q m).1, (hookLoop c w q m).2) := by
  induction q generalizing w m with
  | nil => rfl
  | cons x t ih =>
    have h : (Eras.world k w).now = w.now := rfl
    simp only [hookLoop, eras_hookOne, ih, h]
    split
    · generalize (if (hookOne w x.1).2 = true then m + 1 else m) = m'
      split <;> rfl
    · rfl

theorem eras_hook : hook c (Eras.world k w) = Eras.world k (hook c w) := by
  simp only [hook, show (Eras.world k w).tr.queue = w.tr.queue from rfl, eras_hookLoop]
  split <;> rfl

end TrM

namespace TeeM
variable (k : Era) (c : Cfg) (w : World) (who : AccountId)

theorem eras_dropRegistration : dropRegistration (Eras.world k w) who = Except.map (Eras.world k) (dropRegistration w who) := by
  eras [dropRegistration]

theorem eras_dropUpdate : dropUpdate (Eras.world k w) who = Except.map (Eras.world k) (dropUpdate w who) := by
  eras [dropUpdate]

theorem eras_unassign : unassign (Eras.world k w) who = Except.map (Eras.world k) (unassign w who) := by
  ren [unassign, Eras.world, Eras.teeSt]

theorem eras_approveAddr (e : Enclave) (a : AccountId) :
    approveAddr (Eras.world k w) who e a = Except.map (Eras.world k) (approveAddr w who e a) := by
  simp only [approveAddr]
  split
  · rfl
  · eras []

theorem eras_forceAddr (e : Enclave) (a : Option AccountId) :
    forceAddr (Eras.world k w) who e a = Except.map (fun x => (Eras.world k x.1, x.2)) (forceAddr w who e a) := by
  cases a with
  | none => rfl
  | some a =>
    by_cases h : e.addr = a
    · simp only [forceAddr, if_pos h]; eras []
    · simp only [forceAddr, if_neg h]; eras []

theorem eras_reward (e : Era) : reward (Eras.world k w).tee (e + k) who = reward w.tee e who := by
  have h : (Eras.world k w).tee.reports.get (e + k, who) = w.tee.reports.get (e, who) := by
    show FMap.get (FMap.mapk (Eras.key k) (Eras.key_inj k) id w.tee.reports) (Eras.key k (e, who)) = _
    rw [FMap.mapk_get, Option.map_id_fun, id]
  simp only [reward, h]
  rfl

theorem eras_call (x : Call) (hx : ¬ Eras.First c w (.tee x)) :
    call c (Eras.world k w) who (Eras.teeCall k x) = Except.map (Eras.world k) (call c w who x) := by
  have ha' : ∀ a, w.active = some a → (Eras.world k w).active = some (a + k) := fun a ha => by simp [Eras.world, ha]
  have hn' : w.active = none → (Eras.world k w).active = none := fun ha => by simp [Eras.world, ha]
  have hgn : ∀ s, getOr (none : Option Era) s = Except.error (.e s) := fun _ => rfl
  have erb : ∀ (y : Err) (f : Era → Except Err World), (Except.error y >>= f) = Except.error y := fun _ _ => rfl
  have hg : ∀ (y : Era) s, getOr (some y) s = Except.ok y := fun _ _ => rfl
  have okb : ∀ (y : Era) (f : Era → Except Err World), (Except.ok y >>= f) = f y := fun _ _ => rfl
  cases x with
  | register a u => eras [call, Eras.teeCall, register]
  | unregister =>
    have h : (Eras.world k w).tee.data = w.tee.data := rfl
    simp only [call, Eras.teeCall, unregister, h]
    cases w.tee.data.get who with
    | none => exact eras_dropRegistration k w who
    | some e => eras [unregisterAssigned]
  | update a u => eras [call, Eras.teeCall, update]
  | cancelUpdate => exact eras_dropUpdate k w who
  | withdraw => eras [call, Eras.teeCall, withdraw]
  | submitReport o r =>
    rcases (w.active).eq_none_or_eq_some with ha | ⟨a, ha⟩
    · simp only [call, Eras.teeCall, submitReport, ha, hn' ha, hgn, erb, map_bind']
      rfl
    have h0 : a ≠ 0 := fun e => hx (show w.active = some 0 by rw [ha, e])
    have e1 : a + k - 1 = a - 1 + k := by omega
    have e2 : (Eras.world k w).tee.reports.get (a - 1 + k, o) = w.tee.reports.get (a - 1, o) := by
      show FMap.get (FMap.mapk (Eras.key k) (Eras.key_inj k) id w.tee.reports) (Eras.key k (a - 1, o)) = _
      rw [FMap.mapk_get, Option.map_id_fun, id]
    have e3 : ∀ l, (Eras.world k w).tee.reports.insert (a - 1 + k, o) l =
        (w.tee.reports.insert (a - 1, o) l).mapk (Eras.key k) (Eras.key_inj k) id := by
      intro l
      rw [FMap.mapk_insert]
      rfl
    simp only [call, Eras.teeCall, submitReport, ha, ha' a ha, hg, okb, e1, e2, e3, map_bind', map_pure']
    simp only [← ha' a ha, ← ha]
    rfl
  | claim e =>
    rcases (w.active).eq_none_or_eq_some with ha | ⟨a, ha⟩
    · have e2 : (Eras.world k w).tee.claimed.get (e + k, who) = w.tee.claimed.get (e, who) := by
        show FMap.get (FMap.mapk (Eras.key k) (Eras.key_inj k) id w.tee.claimed) (Eras.key k (e, who)) = _
        rw [FMap.mapk_get, Option.map_id_fun, id]
      simp only [call, Eras.teeCall, claim, ha, hn' ha, hgn, erb, map_bind', e2]
      rfl
    have h0 : 0 < e ∨ c.history ≤ a := by
      by_contra h
      exact hx ⟨by omega, fun b hb => by rw [ha] at hb; cases hb; omega⟩
    have e1 : ∀ s, (e + k < a + k - 2 ∧ a + k - c.history < e + k ∧ s + k ≤ e + k) =
        (e < a - 2 ∧ a - c.history < e ∧ s ≤ e) := by
      intro s
      apply propext
      omega
    have e2 : (Eras.world k w).tee.claimed.get (e + k, who) = w.tee.claimed.get (e, who) := by
      show FMap.get (FMap.mapk (Eras.key k) (Eras.key_inj k) id w.tee.claimed) (Eras.key k (e, who)) = _
      rw [FMap.mapk_get, Option.map_id_fun, id]
    have e3 : ∀ v, (Eras.world k w).tee.claimed.insert (e + k, who) v =
        (w.tee.claimed.insert (e, who) v).mapk (Eras.key k) (Eras.key_inj k) id := by
      intro v
      rw [FMap.mapk_insert]
      rfl
    have e4 : (Eras.world k w).tee.assignedEra.get who = (w.tee.assignedEra.get who).map (· + k) := FMap.mapv_get ..
    have e5 : ∀ b, ((Eras.world k w).putBal b).tee = (Eras.world k w).tee := fun _ => rfl
    simp only [call, Eras.teeCall, claim, ha, ha' a ha, hg, okb, e2, e4, e5, e3, getOr_map', bind_map', e1, eras_reward, map_bind', map_pure']
    rfl
  | bondExtra => eras [call, Eras.teeCall, bondExtra]
  | refundExcess => eras [call, Eras.teeCall, refundExcess]

theorem eras_root (x : RootCall) : root c (Eras.world k w) (Eras.teeRoot k x) = Except.map (Eras.world k) (root c w x) := by
  cases x with
  | assign a s t =>
    have e1 : ∀ e, (Eras.world k w).tee.assignedEra.insert a (e + k) = (w.tee.assignedEra.insert a e).mapv (· + k) := by
      intro e
      rw [FMap.mapv_insert]
      rfl
    have e2 : (Eras.world k w).active = w.active.map (· + k) := rfl
    simp only [root, Eras.teeRoot, assign, e2, getOr_map', bind_map', e1, map_bind', map_pure']
    rfl
  | removeRegistration a => exact eras_dropRegistration k w a
  | rejectUpdate a => exact eras_dropUpdate k w a
  | approveUnregister a => eras [root, Eras.teeRoot, approveUnregister, eras_unassign]
  | forceRemove a => eras [root, Eras.teeRoot, forceRemove, eras_unassign]
  | approveUpdate a => eras [root, Eras.teeRoot, approveUpdate, eras_approveAddr]
  | forceUpdate a b u => eras [root, Eras.teeRoot, forceUpdate, eras_forceAddr]
  | createCluster t => eras [root, Eras.teeRoot, createCluster]
  | updateCluster x t => eras [root, Eras.teeRoot, updateCluster]
  | removeCluster x => eras [root, Eras.teeRoot, removeCluster]
  | registerServer s => eras [root, Eras.teeRoot, registerServer]
  | unregisterServer a => eras [root, Eras.teeRoot, unregisterServer]
  | setServerType a t => eras [root, Eras.teeRoot, setServerType]
  | setWeights p => rfl
  | setStakingAmount x => rfl
  | setPool x => rfl
  | setAssignedEra a e =>
    have e1 : (Eras.world k w).tee.assignedEra.insert a (e + k) = (w.tee.assignedEra.insert a e).mapv (· + k) := by
      rw [FMap.mapv_insert]
      rfl
    have e2 : (Eras.world k w).tee.assignedEra.get a = (w.tee.assignedEra.get a).map (· + k) := FMap.mapv_get ..
    simp only [root, Eras.teeRoot, setAssignedEra, e1, e2, getOr_map', bind_map', map_bind', map_pure']
    rfl

theorem eras_hook : hook c (Eras.world k w) = Eras.world k (hook c w) := by
  rcases (w.active).eq_none_or_eq_some with ha | ⟨a, ha⟩
  · have ha' : (Eras.world k w).active = none := by simp [Eras.world, ha]
    simp only [hook, ha, ha']
  have ha' : (Eras.world k w).active = some (a + k) := by simp [Eras.world, ha]
  by_cases h1 : c.history ≤ a
  · have e1 : a + k - c.history = a - c.history + k := by omega
    have e2 : ∀ {V : Type} (m : FMap (Era × AccountId) V),
        (m.mapk (Eras.key k) (Eras.key_inj k) id).filterKeys (fun x => decide (x.1 ≠ a - c.history + k)) =
          (m.filterKeys fun x => decide (x.1 ≠ a - c.history)).mapk (Eras.key k) (Eras.key_inj k) id := by
      intro V m
      refine FMap.mapk_filterKeys _ _ _ m _ _ ?_
      intro x
      simp [Eras.key]
    simp only [hook, ha, ha', if_pos h1, if_pos (show c.history ≤ a + k by omega), e1, clearEra]
    simp only [Eras.world, Eras.teeSt, e2, ha, Option.map_some]
  · by_cases h2 : c.history ≤ a + k
    · have e2 : ∀ {V : Type} (m : FMap (Era × AccountId) V),
          (m.mapk (Eras.key k) (Eras.key_inj k) id).filterKeys (fun x => decide (x.1 ≠ a + k - c.history)) =
            m.mapk (Eras.key k) (Eras.key_inj k) id := by
        intro V m
        refine (FMap.mapk_filterKeys _ _ _ m (fun _ => true) _ ?_).trans ?_
        · intro x
          exact decide_eq_true (show x.1 + k ≠ a + k - c.history by omega)
        · congr 1
          exact FMap.ext_l (List.filter_true _)
      simp only [hook, ha, ha', if_neg h1, if_pos h2, clearEra]
      simp only [Eras.world, Eras.teeSt, e2, ha, Option.map_some]
    · simp only [hook, ha, ha', if_neg h1, if_neg h2]

end TeeM

namespace BrM
variable (k : Era) (c : Cfg) (w : World) (who : AccountId)

theorem eras_payout (x : ChainId) (t : Transfer) (b : Bool) :
    payout c (Eras.world k w) x t b = Eras.world k (payout c w x t b) := by
  cases b <;> rfl

theorem eras_call (x : Call) : call c (Eras.world k w) who x = Except.map (Eras.world k) (call c w who x) := by
  cases x with
  | vote x t =>
    have h4 : ∀ p, ({ Eras.world k w with br := { (Eras.world k w).br with
        votes := (Eras.world k w).br.votes.insert (x, t) p } } : World) =
        Eras.world k { w with br := { w.br with votes := w.br.votes.insert (x, t) p } } := fun _ => rfl
    have h5 : ∀ w : World, (Eras.world k w).ev (.voted x t who) = Eras.world k (w.ev (.voted x t who)) := fun _ => rfl
    have h6 : ∀ o, vote c (Eras.world k w) who o = vote c w who o := fun o => by cases o <;> rfl
    eras [call, voteFor, h4, h5, h6, eras_payout]
  | deposit v r x => eras [call, deposit]

theorem eras_ext (x : ExtCall) : ext c (Eras.world k w) x = Except.map (Eras.world k) (ext c w x) := by
  cases x with
  | setThreshold t => eras [ext, setThreshold]
  | addChain x => eras [ext, addChain]
  | setRelayers l => rfl
  | setNonce x n => eras [ext, setNonce]
  | setFee x => rfl
  | setExtra x => rfl

end BrM

namespace RewM
variable (k : Era) (c : Cfg) (w : World)

theorem eras_txFee (p : AccountId) (f t : Balance) (a : Option AccountId) :
    txFee c (Eras.world k w) p f t a = Except.map (Eras.world k) (txFee c w p f t a) := by
  eras [txFee]

theorem eras_eraPayout : eraPayout c (Eras.world k w) = (Eras.world k (eraPayout c w).1, (eraPayout c w).2) := by
  have hb : (Eras.world k w).bal = w.bal := rfl
  have hr : (Eras.world k w).rew = w.rew := rfl
  simp only [eraPayout, hb, hr]
  cases w.bal.withdraw c.ed c.rewPot (min (w.bal.freeOf c.rewPot) w.rew.extra) .allowDeath <;> rfl

end RewM

namespace Eras
variable (k : Era) (c : Cfg) (w : World)
open Spec.Eras

theorem signedCall (a : AccountId) (x : Call) (hx : ¬ First c w x) :
    _root_.signedCall c (world k w) a (call k x) = Except.map (world k) (_root_.signedCall c w a x) := by
  cases x with
  | nft x => exact NftM.eras_call k c w a x
  | mkt x => exact MktM.eras_call k c w a x
  | auc x => exact AucM.eras_call k c w a x
  | rent x => exact RentM.eras_call k c w a x
  | tr x => exact TrM.eras_call k c w a x
  | tee x => exact TeeM.eras_call k c w a x hx
  | br x => exact BrM.eras_call k c w a x
  | bal d v l =>
    show Except.map _ (w.bal.transfer c.ed a d v l) = _
    simp only [_root_.signedCall]
    cases w.bal.transfer c.ed a d v l <;> rfl
  | root _ => rfl
  | ext _ => rfl
  | mandate _ => rfl

theorem rootCall (x : RootCall) :
    _root_.rootCall c (world k w) (Spec.Eras.rootCall k x) = Except.map (world k) (_root_.rootCall c w x) := by
  cases x with
  | tee r => exact TeeM.eras_root k c w r
  | trFee x v => exact congrArg Except.ok (TrM.eras_setFee k w x v)
  | _ => rfl

theorem mandateResult (r : Except Err World) :
    _root_.mandateResult (world k w) (Except.map (world k) r) = Except.map (world k) (_root_.mandateResult w r) := by
  rcases r with (_ | _) | _ <;> rfl

theorem dispatch (x : Call) (o : Origin) (hx : ∀ a, o = .signed a → ¬ First c w x) :
    _root_.dispatch c (call k x) o (world k w) = Except.map (world k) (_root_.dispatch c x o w) := by
  induction x generalizing o with
  | mandate x ih =>
    cases o with
    | signed a => exact signedCall k c w a (.mandate x) (hx a rfl)
    | root => simp only [_root_.dispatch, call, ih .root (fun _ h => nomatch h), mandateResult]
    | ext => simp only [_root_.dispatch, call, ih .root (fun _ h => nomatch h), mandateResult]
  | root x =>
    cases o with
    | signed a => exact signedCall k c w a (.root x) (hx a rfl)
    | root => exact rootCall k c w x
    | ext => rfl
  | ext x =>
    cases o with
    | signed a => exact signedCall k c w a (.ext x) (hx a rfl)
    | root => exact BrM.eras_ext k c w x
    | ext => exact BrM.eras_ext k c w x
  | nft x => cases o with | signed a => exact signedCall k c w a (.nft x) (hx a rfl) | _ => rfl
  | mkt x => cases o with | signed a => exact signedCall k c w a (.mkt x) (hx a rfl) | _ => rfl
  | auc x => cases o with | signed a => exact signedCall k c w a (.auc x) (hx a rfl) | _ => rfl
  | rent x => cases o with | signed a => exact signedCall k c w a (.rent x) (hx a rfl) | _ => rfl
  | tr x => cases o with | signed a => exact signedCall k c w a (.tr x) (hx a rfl) | _ => rfl
  | tee x => cases o with | signed a => exact signedCall k c w a (.tee x) (hx a rfl) | _ => rfl
  | br x => cases o with | signed a => exact signedCall k c w a (.br x) (hx a rfl) | _ => rfl
  | bal d v l => cases o with | signed a => exact signedCall k c w a (.bal d v l) (hx a rfl) | _ => rfl

theorem orSame (r : Except Err World) : _root_.orSame (world k w) (Except.map (world k) r) = world k (_root_.orSame w r) := by
  cases r <;> rfl

theorem step (o : Op) (ho : ∀ a x, o = .call (.signed a) x → ¬ First c w x) :
    _root_.step c (world k w) (op k o) = world k (_root_.step c w o) := by
  cases o with
  | call o x => simp only [_root_.step, op, dispatch k c w x o (fun a h => ho a x (by rw [h])), orSame]
  | hookAuc => exact AucM.eras_hook k c w
  | hookRent => exact RentM.eras_hook k c w
  | hookTr => exact TrM.eras_hook k c w
  | hookTee => exact TeeM.eras_hook k c w
  | tick => rfl
  | era e =>
    have h1 : (world k w).active = w.active.map (· + k) := rfl
    have h2 : (∀ a ∈ w.active.map (· + k), a ≤ e + k) = (∀ a ∈ w.active, a ≤ e) := by
      cases w.active <;> simp
    simp only [_root_.step, op, h1, h2]
    split <;> rfl
  | txFee p f t a => simp only [_root_.step, op, RewM.eras_txFee, orSame]
  | eraPayout => exact congrArg Prod.fst (RewM.eras_eraPayout k c w)
  | mint a v => rfl
  | lock a v => rfl

end Eras

namespace Eras
variable {c : Cfg} {w : World}
open Spec.Eras

theorem run (k : Era) (l : List Op) (hl : Usual c w l) :
    _root_.run c (world k w) (l.map (op k)) = world k (_root_.run c w l) := by
  induction l generalizing w with
  | nil => rfl
  | cons o l ih =>
    show _root_.run c (_root_.step c (world k w) (op k o)) (l.map (op k)) = world k (_root_.run c (_root_.step c w o) l)
    rw [step k c w o hl.1]
    exact ih hl.2

end Eras
