import Verif.Proofs.RenumAuc
/-
Renumbering commutes with the calls and the hook of the rent pallet.
-/
open Spec Sym

namespace Sym

/-- `b` is what `a` is after renumbering -/
structure ActNum (ρ : Num) (a b : Act) : Prop where
  eq : ∀ w, b (ρ.world w) = (ρ.world (a w).1, (a w).2)

theorem ActNum.skip (ρ : Num) : ActNum ρ Act.skip Act.skip := ⟨fun _ => rfl⟩

theorem ActNum.seq {ρ : Num} {a a' b b' : Act} (h : ActNum ρ a b) (h' : ActNum ρ a' b') : ActNum ρ (a.seq a') (b.seq b') := by
  refine ⟨fun w => ?_⟩
  simp only [Act.seq, h.eq w]
  rcases a w with ⟨w', _ | _⟩
  · rfl
  · exact h'.eq w'

theorem ActNum.ext {ρ : Num} {a b : Act} (h : ActNum ρ a b) (w : World) : b.ext (ρ.world w) = Except.map ρ.world (a.ext w) := by
  simp only [Act.ext, h.eq w]
  rcases a w with ⟨w', _ | _⟩ <;> rfl

end Sym

namespace RentM
variable (ρ : Num) (c : Cfg) (w : World) (who : AccountId)

@[simp] theorem num_feeTokens (f : CancelFee) : feeTokens (ρ.cancelFee f) = feeTokens f := by cases f <;> rfl
@[simp] theorem num_feeNft (f : CancelFee) : feeNft (ρ.cancelFee f) = (feeNft f).map ρ.n := by cases f <;> rfl
@[simp] theorem num_flexible (f : CancelFee) : flexible (ρ.cancelFee f) = flexible f := by cases f <;> rfl
@[simp] theorem num_rentTokens (f : RentFee) : rentTokens (ρ.rentFee f) = rentTokens f := by cases f <;> rfl
@[simp] theorem num_rentNft (f : RentFee) : rentNft (ρ.rentFee f) = (rentNft f).map ρ.n := by cases f <;> rfl
@[simp] theorem num_allowsRent (d : Duration) (f : RentFee) : allowsRent d (ρ.rentFee f) = allowsRent d f := by
  cases d <;> cases f <;> rfl
@[simp] theorem num_allowsCancel (d : Duration) (f : CancelFee) : allowsCancel d (ρ.cancelFee f) = allowsCancel d f := by
  cases d <;> cases f <;> rfl

theorem num_pay (s d : AccountId) (v : Balance) (l : Live) : ActNum ρ (payAct c s d v l) (payAct (ρ.cfg c) s d v l) := by
  refine ⟨fun w => ?_⟩
  simp only [payAct, show (ρ.world w).bal = w.bal from rfl, show (ρ.cfg c).ed = c.ed from rfl]
  cases w.bal.transfer c.ed s d v l <;> rfl

theorem num_chown (n : NFTId) (a : AccountId) : ActNum ρ (chownAct n a) (chownAct (ρ.n n) a) := by
  refine ⟨fun w => ?_⟩
  have hn : (ρ.world w).nfts.get (ρ.n n) = (w.nfts.get n).map ρ.nft := FMap.mapk_get ρ.n ρ.nInj ..
  simp only [chownAct, hn]
  cases w.nfts.get n with
  | none => rfl
  | some d => simp [Num.world, World.putNft, Num.nft]

theorem num_chownOpt (n : Option NFTId) (a : AccountId) : ActNum ρ (chownOpt n a) (chownOpt (n.map ρ.n) a) := by
  cases n
  · exact .skip ρ
  · exact num_chown ρ ..

theorem num_handleFinished (n : NFTId) : ActNum ρ (handleFinished c n) (handleFinished (ρ.cfg c) (ρ.n n)) := by
  refine ⟨fun w => ?_⟩
  have hn : (ρ.world w).nfts.get (ρ.n n) = (w.nfts.get n).map ρ.nft := FMap.mapk_get ρ.n ρ.nInj ..
  have hk : (ρ.world w).rent.contracts.get (ρ.n n) = (w.rent.contracts.get n).map ρ.contract := FMap.mapk_get ρ.n ρ.nInj ..
  simp only [handleFinished, hn, hk]
  cases w.rent.contracts.get n with
  | none => rfl
  | some k =>
    cases w.nfts.get n with
    | none => rfl
    | some d =>
      simp only [Option.map_some, Num.contract, num_feeTokens, num_feeNft]
      refine (ActNum.seq (num_pay ρ c ..) (.seq ?_ (.seq (num_chownOpt ρ ..) (.seq ?_ ?_)))).eq w
      · cases h : k.rentee
        · exact .skip ρ
        · exact num_pay ρ c ..
      · cases h : k.rentee
        · exact .skip ρ
        · exact num_chownOpt ρ ..
      · refine ⟨fun w => ?_⟩
        simp [Num.world, Num.rentSt, World.putNft, Num.nft]

theorem num_returnFee (f : CancelFee) (a : AccountId) : ActNum ρ (returnFee c f a) (returnFee (ρ.cfg c) (ρ.cancelFee f) a) := by
  simp only [returnFee, num_feeTokens, num_feeNft]
  exact .seq (num_pay ρ c ..) (num_chownOpt ρ ..)

theorem num_returnFlexible (a b : AccountId) (p : Permill) (v : Balance) :
    ActNum ρ (returnFlexible c a b p v) (returnFlexible (ρ.cfg c) a b p v) :=
  .seq (num_pay ρ c ..) (num_pay ρ c ..)

theorem num_depositRenterNft (o : Option NFTId) :
    depositRenterNft (ρ.cfg c) (ρ.world w) who (o.map ρ.n) = Except.map ρ.world (depositRenterNft c w who o) := by
  cases o with
  | none => rfl
  | some id => num [depositRenterNft]

theorem num_penalty (k : Contract) (now : Block) (f : CancelFee) (a b : AccountId) :
    penalty (ρ.cfg c) (ρ.contract k) now (ρ.cancelFee f) a b (ρ.world w) = Except.map ρ.world (penalty c k now f a b w) := by
  cases h : flexible f with
  | none =>
    simp only [penalty, num_flexible, h]
    exact (num_returnFee ρ c f b).ext w
  | some v =>
    simp only [penalty, num_flexible, h, (num_returnFlexible ρ c ..).ext, map_bind']
    rfl

theorem num_checkNft (o : Option NFTId) : checkNft (ρ.world w) who (o.map ρ.n) = checkNft w who o := by
  cases o with
  | none => rfl
  | some id => num [checkNft]

theorem num_takeFees (k : Contract) :
    takeFees (ρ.cfg c) (ρ.world w) who (ρ.contract k) = Except.map ρ.world (takeFees c w who k) := by
  have h1 : (ρ.world w).bal = w.bal := rfl
  have h2 : (ρ.contract k).renter = k.renter := rfl
  have h3 : (ρ.contract k).rentFee = ρ.rentFee k.rentFee := rfl
  have h4 : (ρ.contract k).renteeFee = ρ.cancelFee k.renteeFee := rfl
  have h5 : (ρ.cfg c).rentPot = c.rentPot := rfl
  have h6 : (ρ.cfg c).ed = c.ed := rfl
  simp only [takeFees, h1, h2, h3, h4, h5, h6, num_rentTokens, num_feeTokens, num_rentNft, num_feeNft, bind_map', map_bind',
    Num.world_putBal, num_checkNft, (num_chownOpt ρ ..).ext]

theorem num_insertKind (r : RentSt) (d : Duration) (n : NFTId) (b : Block) :
    insertKind (ρ.cfg c) (ρ.rentSt r) d (ρ.n n) b = (insertKind c r d n b).map ρ.rentSt := by
  cases d <;> simp only [insertKind, Num.rentSt, Num.cfg, Num.queue_insert, Option.map_map] <;> rfl

theorem num_removeKind (r : RentSt) (d : Duration) (n : NFTId) : removeKind (ρ.rentSt r) d (ρ.n n) = ρ.rentSt (removeKind r d n) := by
  cases d <;> simp [removeKind, Num.rentSt]

theorem num_startContract (n : NFTId) (k : Contract) :
    startContract (ρ.cfg c) (ρ.world w) (ρ.n n) (ρ.contract k) who = Except.map ρ.world (startContract c w n k who) := by
  have h0 : ∀ w : World, ({ (ρ.world w).rent with availQ := (ρ.world w).rent.availQ.remove (ρ.n n) } : RentSt) =
    ρ.rentSt { w.rent with availQ := w.rent.availQ.remove n } := fun _ => by simp [Num.world, Num.rentSt]
  have h1 : (ρ.contract k).duration = k.duration := rfl
  simp only [startContract, num_takeFees, bind_map', map_bind', h0, h1, num_insertKind, getOr_map']
  congr! 4
  simp [Num.world, Num.rentSt, Num.contract]

theorem num_call (x : Call) : call (ρ.cfg c) (ρ.world w) who (ρ.rentCall x) = Except.map ρ.world (call c w who x) := by
  have hn : ∀ n, (ρ.world w).nfts.get (ρ.n n) = (w.nfts.get n).map ρ.nft := fun n => FMap.mapk_get ρ.n ρ.nInj ..
  have hk : ∀ n, (ρ.world w).rent.contracts.get (ρ.n n) = (w.rent.contracts.get n).map ρ.contract := fun n => FMap.mapk_get ρ.n ρ.nInj ..
  have ho : ∀ n, (ρ.world w).rent.offers.get (ρ.n n) = (w.rent.offers.get n).map id := fun n => FMap.mapk_get ρ.n ρ.nInj ..
  have hr : ∀ k : Contract, (ρ.contract k).renter = k.renter := fun _ => rfl
  cases x with
  | create n d a r f x y =>
    have hb : (ρ.world w).bal = w.bal := rfl
    have hp : (ρ.cfg c).rentPot = c.rentPot := rfl
    have he : (ρ.cfg c).ed = c.ed := rfl
    have h1 : ∀ o : Option NFTId, (∀ id ∈ o.map ρ.n, ((ρ.world w).nfts.get id).isSome) = (∀ id ∈ o, (w.nfts.get id).isSome) := by
      intro o; cases o <;> simp [hn]
    simp only [call, Num.rentCall, create, hn, hb, hp, he, num_depositRenterNft, num_allowsRent, num_allowsCancel, num_feeTokens,
      num_rentNft, num_feeNft, h1, getOr_map', bind_map', map_bind', Num.world_putBal]
    num [Num.rentSt, Num.contract, World.ev, Num.ev]
  | cancel n =>
    have hc : ∀ w : World, ({ ρ.world w with rent := { (ρ.world w).rent with
        availQ := (ρ.world w).rent.availQ.remove (ρ.n n), offers := (ρ.world w).rent.offers.erase (ρ.n n) } } : World) =
        ρ.world { w with rent := { w.rent with availQ := w.rent.availQ.remove n, offers := w.rent.offers.erase n } } := by
      intro w
      simp [Num.world, Num.rentSt]
    have hh := fun w => (num_handleFinished ρ c n).ext w
    simp only [call, Num.rentCall, cancel, hk, hr, hc, hh, getOr_map', bind_map', map_bind']
    num [Num.contract]
  | revoke n =>
    have hh := fun f a w => (num_returnFee ρ c f a).ext w
    have h1 : ∀ k : Contract, (ρ.contract k).rentee = k.rentee := fun _ => rfl
    have h3 : ∀ k : Contract, (ρ.contract k).renteeFee = ρ.cancelFee k.renteeFee := fun _ => rfl
    have h4 : ∀ k : Contract, (ρ.contract k).renterFee = ρ.cancelFee k.renterFee := fun _ => rfl
    have h5 : ∀ k : Contract, (ρ.contract k).renterCanRevoke = k.renterCanRevoke := fun _ => rfl
    have h6 : ∀ k : Contract, (ρ.contract k).duration = k.duration := fun _ => rfl
    have h8 : ∀ w : World, (ρ.world w).now = w.now := fun _ => rfl
    have h9 : ∀ (p : Prop) (a b : CancelFee) [Decidable p], (if p then ρ.cancelFee a else ρ.cancelFee b) = ρ.cancelFee (if p then a else b) :=
      fun p a b _ => (apply_ite ρ.cancelFee p a b).symm
    have h10 : ∀ w : World, (ρ.world w).nfts.get (ρ.n n) = (w.nfts.get n).map ρ.nft := fun w => FMap.mapk_get ρ.n ρ.nInj ..
    simp only [call, Num.rentCall, revoke, hk, hr, getOr_map', bind_map', map_bind', h1, h3, h4, h5, h6, h8, h9, hh,
      num_penalty, h10]
    simp [-bind_pure_comp, Num.world, Num.nft, World.putNft, num_removeKind]
    num [Num.rentSt]
  | rent n b =>
    simp only [call, Num.rentCall, rent, hk, num_startContract, getOr_map', bind_map', map_bind']
    num [Num.contract]
  | makeOffer n b =>
    have hb : (ρ.world w).bal = w.bal := rfl
    have h3 : ∀ k : Contract, (ρ.contract k).rentFee = ρ.rentFee k.rentFee := fun _ => rfl
    have h4 : ∀ k : Contract, (ρ.contract k).renteeFee = ρ.cancelFee k.renteeFee := fun _ => rfl
    simp only [call, Num.rentCall, makeOffer, hk, ho, hb, h3, h4, num_rentTokens, num_feeTokens, num_rentNft, num_feeNft, getOr_map', bind_map',
      map_bind', num_checkNft]
    num [Num.contract, Num.rentSt, World.ev, Num.ev]
  | acceptOffer n a =>
    simp only [call, Num.rentCall, acceptOffer, hk, hr, ho, num_startContract, getOr_map', bind_map', map_bind']
    num [Num.contract]
  | retractOffer n => num [call, Num.rentCall, retractOffer, ho, Num.rentSt]
  | changeTerms n f p m ch =>
    num [call, Num.rentCall, changeTerms, Num.rentSt, Num.contract, apply_ite (FMap.mapk ρ.n ρ.nInj id)]
  | acceptTerms n f p m ch =>
    have hf : ∀ x : RentFee, (ρ.rentFee x = .tokens f) = (x = .tokens f) := fun x => by cases x <;> simp [Num.rentFee]
    num [call, Num.rentCall, acceptTerms, Num.rentSt, Num.contract, hf]

theorem num_handleSub (n : NFTId) :
    handleSub (ρ.cfg c) (ρ.world w) (ρ.n n) = (ρ.world (handleSub c w n).1, (handleSub c w n).2) := by
  have hk : (ρ.world w).rent.contracts.get (ρ.n n) = (w.rent.contracts.get n).map ρ.contract := FMap.mapk_get ρ.n ρ.nInj ..
  have hb : (ρ.world w).bal = w.bal := rfl
  have he : (ρ.cfg c).ed = c.ed := rfl
  have hw : (ρ.world w).now = w.now := rfl
  simp only [handleSub, hk, hb]
  cases w.rent.contracts.get n with
  | none => rfl
  | some k =>
    have h1 : (ρ.contract k).rentee = k.rentee := rfl
    have h2 : (ρ.contract k).rentFee = ρ.rentFee k.rentFee := rfl
    have h3 : hasEnded (ρ.contract k) w.now = hasEnded k w.now := rfl
    have h4 : (ρ.contract k).duration = k.duration := rfl
    have h5 : (ρ.contract k).renter = k.renter := rfl
    simp only [Option.map_some, h1, h2, h3, h4, h5, hw, he]
    cases k.rentee with
    | none => rfl
    | some r =>
      cases k.rentFee with
      | nft _ => rfl
      | tokens fee =>
        simp only [Num.rentFee]
        split
        · rfl
        · cases w.bal.transfer c.ed r k.renter fee .keepAlive <;> rfl

theorem num_finishLoop (q : Queue) (k : Nat) :
    finishLoop (ρ.cfg c) (ρ.world w) (ρ.queue q) k =
      (ρ.world (finishLoop c w q k).1, ρ.queue (finishLoop c w q k).2.1, (finishLoop c w q k).2.2) := by
  induction q generalizing w k with
  | nil => rfl
  | cons x t ih =>
    have ih' := fun w k => ih w k
    simp only [Num.queue] at ih'
    simp only [Num.queue, List.map_cons, finishLoop, (num_handleFinished ρ c _).eq, ih']
    rw [show (ρ.world w).now = w.now from rfl, show (ρ.cfg c).rentActions = c.rentActions from rfl]
    split
    · split <;> rfl
    · rfl

theorem num_subOne (n : NFTId) (t : Queue) :
    subOne (ρ.cfg c) (ρ.world w) (ρ.n n) (ρ.queue t) = (ρ.world (subOne c w n t).1, ρ.queue (subOne c w n t).2) := by
  simp only [subOne, num_handleSub]
  rcases handleSub c w n with ⟨w', _ | b⟩
  · simp only [(num_handleFinished ρ c _).eq]
  · simp only [Num.queue_insert, show (ρ.cfg c).rentLimit = c.rentLimit from rfl]
    cases Queue.insert c.rentLimit t n b <;> rfl

theorem num_subLoop (q : Queue) (k f : Nat) :
    subLoop (ρ.cfg c) (ρ.world w) (ρ.queue q) k f =
      (ρ.world (subLoop c w q k f).1, ρ.queue (subLoop c w q k f).2.1, (subLoop c w q k f).2.2) := by
  induction f generalizing w q k with
  | zero => rfl
  | succ f ih =>
    cases q with
    | nil => rfl
    | cons x t =>
      have hs := num_subOne ρ c w x.1 t
      have e : ρ.queue (x :: t) = (ρ.n x.1, x.2) :: ρ.queue t := rfl
      simp only [e, subLoop, hs, ih]
      rw [show (ρ.world w).now = w.now from rfl, show (ρ.cfg c).rentActions = c.rentActions from rfl]
      split
      · split <;> rfl
      · rfl

theorem num_hook : hook (ρ.cfg c) (ρ.world w) = ρ.world (hook c w) := by
  simp only [hook, show (ρ.world w).rent.fixedQ = ρ.queue w.rent.fixedQ from rfl, show (ρ.world w).rent.subQ = ρ.queue w.rent.subQ from rfl,
    show (ρ.world w).rent.availQ = ρ.queue w.rent.availQ from rfl, show (ρ.cfg c).rentActions = c.rentActions from rfl,
    num_finishLoop, num_subLoop]
  split <;> rfl

end RentM
