import Verif.Proofs.SymAuc
/-
Renaming commutes with the calls and the hook of the rent pallet.
-/
open Spec Sym

namespace Sym

/-- `b` is what `a` is after renaming -/
structure ActRen (ρ : Ren) (a b : Act) : Prop where
  eq : ∀ w, b (ρ.world w) = (ρ.world (a w).1, (a w).2)

theorem ActRen.skip (ρ : Ren) : ActRen ρ Act.skip Act.skip := ⟨fun _ => rfl⟩

theorem ActRen.seq {ρ : Ren} {a a' b b' : Act} (h : ActRen ρ a b) (h' : ActRen ρ a' b') : ActRen ρ (a.seq a') (b.seq b') := by
  refine ⟨fun w => ?_⟩
  simp only [Act.seq, h.eq w]
  rcases a w with ⟨w', _ | _⟩
  · rfl
  · exact h'.eq w'

theorem ActRen.ext {ρ : Ren} {a b : Act} (h : ActRen ρ a b) (w : World) : b.ext (ρ.world w) = Except.map ρ.world (a.ext w) := by
  simp only [Act.ext, h.eq w]
  rcases a w with ⟨w', _ | _⟩ <;> rfl

end Sym

namespace RentM
variable (ρ : Ren) (c : Cfg) (w : World) (who : AccountId)

theorem ren_pay (s d : AccountId) (v : Balance) (l : Live) :
    ActRen ρ (payAct c s d v l) (payAct (ρ.cfg c) (ρ.acc s) (ρ.acc d) v l) := by
  refine ⟨fun w => ?_⟩
  have h : (ρ.world w).bal.transfer (ρ.cfg c).ed (ρ.acc s) (ρ.acc d) v l = Except.map ρ.bal (w.bal.transfer c.ed s d v l) :=
    Ren.bal_transfer ..
  simp only [payAct, h]
  cases w.bal.transfer c.ed s d v l <;> rfl

theorem ren_chown (n : NFTId) (a : AccountId) : ActRen ρ (chownAct n a) (chownAct n (ρ.acc a)) := by
  refine ⟨fun w => ?_⟩
  have hn : (ρ.world w).nfts.get n = (w.nfts.get n).map ρ.nft := FMap.mapv_get ..
  simp only [chownAct, hn]
  cases w.nfts.get n with
  | none => rfl
  | some d => simp [Ren.world, World.putNft, Ren.nft]

theorem ren_chownOpt (n : Option NFTId) (a : AccountId) : ActRen ρ (chownOpt n a) (chownOpt n (ρ.acc a)) := by
  cases n
  · exact .skip ρ
  · exact ren_chown ρ ..

theorem ren_handleFinished (n : NFTId) : ActRen ρ (handleFinished c n) (handleFinished (ρ.cfg c) n) := by
  refine ⟨fun w => ?_⟩
  have hn : (ρ.world w).nfts.get n = (w.nfts.get n).map ρ.nft := FMap.mapv_get ..
  have hk : (ρ.world w).rent.contracts.get n = (w.rent.contracts.get n).map ρ.contract := FMap.mapv_get ..
  simp only [handleFinished, hn, hk]
  cases w.rent.contracts.get n with
  | none => rfl
  | some k =>
    cases w.nfts.get n with
    | none => rfl
    | some d =>
      simp only [Option.map_some]
      refine (ActRen.seq (ren_pay ρ c ..) (.seq ?_ (.seq (ren_chownOpt ρ ..) (.seq ?_ ?_)))).eq w
      · cases h : k.rentee
        · simp only [Ren.contract, h]; exact .skip ρ
        · simp only [Ren.contract, h]; exact ren_pay ρ c ..
      · cases h : k.rentee
        · simp only [Ren.contract, h]; exact .skip ρ
        · simp only [Ren.contract, h]; exact ren_chownOpt ρ ..
      · refine ⟨fun w => ?_⟩
        simp [Ren.world, Ren.rentSt, World.putNft, Ren.nft]

theorem ren_returnFee (f : CancelFee) (a : AccountId) : ActRen ρ (returnFee c f a) (returnFee (ρ.cfg c) f (ρ.acc a)) :=
  .seq (ren_pay ρ c ..) (ren_chownOpt ρ ..)

theorem ren_returnFlexible (a b : AccountId) (p : Permill) (v : Balance) :
    ActRen ρ (returnFlexible c a b p v) (returnFlexible (ρ.cfg c) (ρ.acc a) (ρ.acc b) p v) :=
  .seq (ren_pay ρ c ..) (ren_pay ρ c ..)

theorem ren_depositRenterNft (o : Option NFTId) :
    depositRenterNft (ρ.cfg c) (ρ.world w) (ρ.acc who) o = Except.map ρ.world (depositRenterNft c w who o) := by
  cases o with
  | none => rfl
  | some id => ren [depositRenterNft, Ren.world, World.putNft, Ren.nft, Ren.cfg]

theorem ren_penalty (k : Contract) (now : Block) (f : CancelFee) (a b : AccountId) :
    penalty (ρ.cfg c) (ρ.contract k) now f (ρ.acc a) (ρ.acc b) (ρ.world w) = Except.map ρ.world (penalty c k now f a b w) := by
  cases h : flexible f with
  | none =>
    simp only [penalty, h]
    exact (ren_returnFee ρ c f b).ext w
  | some v =>
    simp only [penalty, h, (ren_returnFlexible ρ c ..).ext, map_bind']
    rfl

theorem ren_checkNft (o : Option NFTId) : checkNft (ρ.world w) (ρ.acc who) o = checkNft w who o := by
  cases o with
  | none => rfl
  | some id => ren [checkNft, Ren.world, Ren.nft]

theorem ren_takeFees (k : Contract) :
    takeFees (ρ.cfg c) (ρ.world w) (ρ.acc who) (ρ.contract k) = Except.map ρ.world (takeFees c w who k) := by
  have h : ∀ (b : Bal) (s d : AccountId) v l, (ρ.bal b).transfer (ρ.cfg c).ed (ρ.acc s) (ρ.acc d) v l =
    Except.map ρ.bal (b.transfer c.ed s d v l) := fun _ _ _ _ _ => Ren.bal_transfer ..
  have h1 : (ρ.world w).bal = ρ.bal w.bal := rfl
  have h2 : (ρ.contract k).renter = ρ.acc k.renter := rfl
  have h3 : (ρ.contract k).rentFee = k.rentFee := rfl
  have h4 : (ρ.contract k).renteeFee = k.renteeFee := rfl
  have h5 : (ρ.cfg c).rentPot = ρ.acc c.rentPot := rfl
  simp only [takeFees, h1, h2, h3, h4, h5, h, mapErr_map', bind_map', map_bind', Ren.world_putBal, ren_checkNft, (ren_chownOpt ρ ..).ext]

theorem ren_insertKind (r : RentSt) (d : Duration) (n : NFTId) (b : Block) :
    insertKind (ρ.cfg c) (ρ.rentSt r) d n b = (insertKind c r d n b).map ρ.rentSt := by
  cases d <;> simp only [insertKind, Ren.rentSt, Ren.cfg, Option.map_map] <;> rfl

theorem ren_startContract (n : NFTId) (k : Contract) :
    startContract (ρ.cfg c) (ρ.world w) n (ρ.contract k) (ρ.acc who) = Except.map ρ.world (startContract c w n k who) := by
  have h0 : ∀ w : World, ({ (ρ.world w).rent with availQ := (ρ.world w).rent.availQ.remove n } : RentSt) =
    ρ.rentSt { w.rent with availQ := w.rent.availQ.remove n } := fun _ => rfl
  have h1 : (ρ.contract k).duration = k.duration := rfl
  simp only [startContract, ren_takeFees, bind_map', map_bind', h0, h1, ren_insertKind, getOr_map']
  congr! 4
  simp [Ren.world, Ren.rentSt, Ren.contract]

theorem ren_admitted (a : Acceptance) : admitted (ρ.acceptance a) (ρ.acc who) = admitted a who := by
  rcases a with (_ | l) | (_ | l) <;> simp [admitted, allowList, Ren.acceptance]

theorem ren_isManual (a : Acceptance) : isManual (ρ.acceptance a) = isManual a := by
  cases a <;> rfl

theorem ren_call (x : Call) : call (ρ.cfg c) (ρ.world w) (ρ.acc who) (ρ.rentCall x) = Except.map ρ.world (call c w who x) := by
  have hn : ∀ n, (ρ.world w).nfts.get n = (w.nfts.get n).map ρ.nft := fun n => FMap.mapv_get ..
  have hk : ∀ n, (ρ.world w).rent.contracts.get n = (w.rent.contracts.get n).map ρ.contract := fun n => FMap.mapv_get ..
  have ho : ∀ n, (ρ.world w).rent.offers.get n = (w.rent.offers.get n).map (List.map ρ.acc) := fun n => FMap.mapv_get ..
  have hr : ∀ k : Contract, ((ρ.contract k).renter = ρ.acc who) = (k.renter = who) := fun k => propext (ρ.acc_eq ..)
  cases x with
  | create n d a r f x y =>
    have hb : (ρ.world w).bal = ρ.bal w.bal := rfl
    have hp : (ρ.cfg c).rentPot = ρ.acc c.rentPot := rfl
    simp [-bind_pure_comp, call, Ren.rentCall, create, hn, hb, hp, Ren.bal_transfer, ren_depositRenterNft]
    ren [Ren.world, Ren.rentSt, Ren.contract, World.putNft, World.ev, Ren.ev, Ren.nft, Ren.cfg]
  | cancel n =>
    have hc : ∀ w : World, ({ ρ.world w with rent := { (ρ.world w).rent with
        availQ := (ρ.world w).rent.availQ.remove n, offers := (ρ.world w).rent.offers.erase n } } : World) =
        ρ.world { w with rent := { w.rent with availQ := w.rent.availQ.remove n, offers := w.rent.offers.erase n } } := by
      intro w
      simp [Ren.world, Ren.rentSt]
    have hh := fun w => (ren_handleFinished ρ c n).ext w
    simp only [call, Ren.rentCall, cancel, hk, hr, hc, hh, getOr_map', bind_map', map_bind']
    ren [Ren.contract]
  | revoke n =>
    have hh := fun f a w => (ren_returnFee ρ c f a).ext w
    have h1 : ∀ k : Contract, (ρ.contract k).rentee = k.rentee.map ρ.acc := fun _ => rfl
    have h2 : ∀ k : Contract, (ρ.contract k).renter = ρ.acc k.renter := fun _ => rfl
    have h3 : ∀ k : Contract, (ρ.contract k).renteeFee = k.renteeFee := fun _ => rfl
    have h4 : ∀ k : Contract, (ρ.contract k).renterFee = k.renterFee := fun _ => rfl
    have h5 : ∀ k : Contract, (ρ.contract k).renterCanRevoke = k.renterCanRevoke := fun _ => rfl
    have h6 : ∀ k : Contract, (ρ.contract k).duration = k.duration := fun _ => rfl
    have h7 : ∀ a b : AccountId, (ρ.acc a = ρ.acc b) = (a = b) := fun a b => propext (ρ.acc_eq a b)
    have h8 : ∀ w : World, (ρ.world w).now = w.now := fun _ => rfl
    have h9 : ∀ (p : Prop) (a b : AccountId) [Decidable p], (if p then ρ.acc a else ρ.acc b) = ρ.acc (if p then a else b) :=
      fun p a b _ => (apply_ite ρ.acc p a b).symm
    have h10 : ∀ w : World, (ρ.world w).nfts.get n = (w.nfts.get n).map ρ.nft := fun w => FMap.mapv_get ..
    have h11 : ∀ (r : RentSt) (d : Duration), removeKind (ρ.rentSt r) d n = ρ.rentSt (removeKind r d n) := fun r d => by
      cases d <;> rfl
    simp only [call, Ren.rentCall, revoke, hk, getOr_map', bind_map', map_bind', h1, h2, h3, h4, h5, h6, h7, h8, h9, hh,
      ren_penalty, h10]
    simp [-bind_pure_comp, Ren.world, Ren.nft, World.putNft, h11]
    ren [Ren.rentSt]
  | rent n b =>
    simp only [call, Ren.rentCall, rent, hk, ren_startContract, getOr_map', bind_map', map_bind']
    ren [Ren.contract, ren_isManual, ren_admitted]
  | makeOffer n b =>
    have hb : (ρ.world w).bal = ρ.bal w.bal := rfl
    have hl : ((w.rent.offers.get n).map (List.map ρ.acc)).getD [] = ((w.rent.offers.get n).getD []).map ρ.acc := by
      cases w.rent.offers.get n <;> rfl
    simp only [call, Ren.rentCall, makeOffer, hk, ho, hb, hl, getOr_map', bind_map', map_bind', ren_checkNft]
    ren [Ren.contract, ren_isManual, ren_admitted, Ren.cfg, Ren.world, Ren.rentSt, World.ev, Ren.ev]
  | acceptOffer n a =>
    simp only [call, Ren.rentCall, acceptOffer, hk, hr, ho, ren_startContract, getOr_map', bind_map', map_bind']
    ren [Ren.contract]
  | retractOffer n =>
    have he : ∀ l : List AccountId, (l.map ρ.acc).erase (ρ.acc who) = (l.erase who).map ρ.acc := fun l =>
      (List.map_erase ρ.acc_injective ..).symm
    ren [call, Ren.rentCall, retractOffer, ho, he, Ren.world, Ren.rentSt]
  | changeTerms n f p m ch =>
    ren [call, Ren.rentCall, changeTerms, Ren.world, Ren.rentSt, Ren.contract, Ren.cfg, apply_ite (FMap.mapv (List.map ρ.acc))]
  | acceptTerms n f p m ch =>
    ren [call, Ren.rentCall, acceptTerms, Ren.world, Ren.rentSt, Ren.contract]
    rename_i k _
    refine require_eq' (propext ?_)
    cases k.rentee <;> simp

theorem ren_handleSub (n : NFTId) :
    handleSub (ρ.cfg c) (ρ.world w) n = (ρ.world (handleSub c w n).1, (handleSub c w n).2) := by
  have hk : (ρ.world w).rent.contracts.get n = (w.rent.contracts.get n).map ρ.contract := FMap.mapv_get ..
  have hb : (ρ.world w).bal = ρ.bal w.bal := rfl
  have h : ∀ (b : Bal) (s d : AccountId) v l, (ρ.bal b).transfer (ρ.cfg c).ed (ρ.acc s) (ρ.acc d) v l =
    Except.map ρ.bal (b.transfer c.ed s d v l) := fun _ _ _ _ _ => Ren.bal_transfer ..
  simp only [handleSub, hk, hb]
  cases w.rent.contracts.get n with
  | none => rfl
  | some k =>
    simp only [Option.map_some, Ren.contract]
    cases k.rentee with
    | none => rfl
    | some r =>
      cases k.rentFee with
      | nft _ => rfl
      | tokens fee =>
        simp only [Option.map_some, h]
        have : hasEnded (ρ.contract k) w.now = hasEnded k w.now := rfl
        split
        · rename_i h1
          rw [if_pos]
          exact h1
        · rename_i h1
          rw [if_neg]
          · cases w.bal.transfer c.ed r k.renter fee .keepAlive <;> rfl
          · exact h1

theorem ren_finishLoop (q : Queue) (k : Nat) :
    finishLoop (ρ.cfg c) (ρ.world w) q k = (ρ.world (finishLoop c w q k).1, (finishLoop c w q k).2) := by
  induction q generalizing w k with
  | nil => rfl
  | cons x t ih =>
    simp only [finishLoop, (ren_handleFinished ρ c _).eq, ih]
    rw [show (ρ.world w).now = w.now from rfl, show (ρ.cfg c).rentActions = c.rentActions from rfl]
    split
    · split <;> rfl
    · rfl

theorem ren_subOne (n : NFTId) (t : Queue) :
    subOne (ρ.cfg c) (ρ.world w) n t = (ρ.world (subOne c w n t).1, (subOne c w n t).2) := by
  simp only [subOne, ren_handleSub]
  rcases handleSub c w n with ⟨w', _ | b⟩
  · simp only [(ren_handleFinished ρ c _).eq]
  · rfl

theorem ren_subLoop (q : Queue) (k f : Nat) :
    subLoop (ρ.cfg c) (ρ.world w) q k f = (ρ.world (subLoop c w q k f).1, (subLoop c w q k f).2) := by
  induction f generalizing w q k with
  | zero => rfl
  | succ f ih =>
    cases q with
    | nil => rfl
    | cons x t =>
      simp only [subLoop, ren_subOne, ih]
      rw [show (ρ.world w).now = w.now from rfl, show (ρ.cfg c).rentActions = c.rentActions from rfl]
      split
      · split <;> rfl
      · rfl

theorem ren_hook : hook (ρ.cfg c) (ρ.world w) = ρ.world (hook c w) := by
  simp only [hook, show (ρ.world w).rent.fixedQ = w.rent.fixedQ from rfl, show (ρ.world w).rent.subQ = w.rent.subQ from rfl,
    show (ρ.world w).rent.availQ = w.rent.availQ from rfl, show (ρ.cfg c).rentActions = c.rentActions from rfl,
    ren_finishLoop, ren_subLoop]
  split <;> rfl

end RentM
