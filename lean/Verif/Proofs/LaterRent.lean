import Verif.Proofs.LaterAuc
/-
Moving in time commutes with the calls and the hook of the rent pallet.
-/
open Spec Sym

namespace Later

/-- `a` does not depend on the block at which it is run -/
structure Timeless (k : Block) (a : Act) : Prop where
  eq : ∀ w, a (Later.world k w) = (Later.world k (a w).1, (a w).2)

theorem Timeless.skip (k : Block) : Timeless k Act.skip := ⟨fun _ => rfl⟩

theorem Timeless.seq {k : Block} {a a' : Act} (h : Timeless k a) (h' : Timeless k a') : Timeless k (a.seq a') := by
  refine ⟨fun w => ?_⟩
  simp only [Act.seq, h.eq w]
  rcases a w with ⟨w', _ | _⟩
  · rfl
  · exact h'.eq w'

theorem Timeless.ext {k : Block} {a : Act} (h : Timeless k a) (w : World) :
    a.ext (Later.world k w) = Except.map (Later.world k) (a.ext w) := by
  simp only [Act.ext, h.eq w]
  rcases a w with ⟨w', _ | _⟩ <;> rfl

end Later

namespace RentM
open _root_.Later
variable (k : Block) (c : Cfg) (w : World) (who : AccountId)

theorem later_get (n : NFTId) : (Later.world k w).rent.contracts.get n = (w.rent.contracts.get n).map (Later.contract k) :=
  FMap.mapv_get ..

theorem later_pay (s d : AccountId) (v : Balance) (l : Live) : Timeless k (payAct c s d v l) := by
  refine ⟨fun w => ?_⟩
  have h : (Later.world k w).bal = w.bal := rfl
  simp only [payAct, h]
  cases w.bal.transfer c.ed s d v l <;> rfl

theorem later_chown (n : NFTId) (a : AccountId) : Timeless k (chownAct n a) := by
  refine ⟨fun w => ?_⟩
  have h : (Later.world k w).nfts = w.nfts := rfl
  simp only [chownAct, h]
  cases w.nfts.get n <;> rfl

theorem later_chownOpt (n : Option NFTId) (a : AccountId) : Timeless k (chownOpt n a) := by
  cases n
  · exact .skip k
  · exact later_chown k ..

theorem later_handleFinished (n : NFTId) : Timeless k (handleFinished c n) := by
  refine ⟨fun w => ?_⟩
  have hn : (Later.world k w).nfts = w.nfts := rfl
  simp only [handleFinished, hn, later_get]
  cases w.rent.contracts.get n with
  | none => rfl
  | some t =>
    cases w.nfts.get n with
    | none => rfl
    | some d =>
      simp only [Option.map_some]
      refine (Timeless.seq (later_pay k c ..) (.seq ?_ (.seq (later_chownOpt k ..) (.seq ?_ ?_)))).eq w
      · cases h : t.rentee
        · simp only [Later.contract, h]; exact .skip k
        · simp only [Later.contract, h]; exact later_pay k c ..
      · cases h : t.rentee
        · simp only [Later.contract, h]; exact .skip k
        · simp only [Later.contract, h]; exact later_chownOpt k ..
      · refine ⟨fun w => ?_⟩
        simp [Later.world, Later.rentSt, World.putNft]

theorem later_returnFee (f : CancelFee) (a : AccountId) : Timeless k (returnFee c f a) :=
  .seq (later_pay k c ..) (later_chownOpt k ..)

theorem later_returnFlexible (a b : AccountId) (p : Permill) (v : Balance) : Timeless k (returnFlexible c a b p v) :=
  .seq (later_pay k c ..) (later_pay k c ..)

theorem later_depositRenterNft (o : Option NFTId) :
    depositRenterNft c (Later.world k w) who o = Except.map (Later.world k) (depositRenterNft c w who o) := by
  cases o with
  | none => rfl
  | some id => lat [depositRenterNft]

theorem later_completion (t : Contract) (now : Block) : completion (Later.contract k t) (now + k) = completion t now := by
  simp only [completion, Later.contract]
  cases t.start with
  | none => rfl
  | some s =>
    have h1 : now + k - (s + k) = now - s := Nat.add_sub_add_right ..
    have h2 : (s + k ≤ now + k) = (s ≤ now) := propext (Nat.add_le_add_iff_right ..)
    show (do
        let _ ← expectSome (if s + k ≤ now + k then some () else none) "attempt to subtract with overflow"
        let _ ← expectSome (if full t.duration ≠ 0 then some () else none) "attempt to divide by zero"
        pure (Permill.fromPercent (min ((now + k - (s + k)) * 100) U32MAX / full t.duration)) : Except Err Permill) = _
    simp only [h1, h2]
    rfl

theorem later_hasEnded (t : Contract) (now : Block) : hasEnded (Later.contract k t) (now + k) = hasEnded t now := by
  simp only [hasEnded, Later.contract]
  cases t.start with
  | none => rfl
  | some s =>
    have h1 : now + k - (s + k) = now - s := Nat.add_sub_add_right ..
    simp [h1]

theorem later_penalty (t : Contract) (now : Block) (f : CancelFee) (a b : AccountId) :
    penalty c (Later.contract k t) (now + k) f a b (Later.world k w) = Except.map (Later.world k) (penalty c t now f a b w) := by
  cases h : flexible f with
  | none =>
    simp only [penalty, h]
    exact (later_returnFee k c f b).ext w
  | some v =>
    simp only [penalty, h, (later_returnFlexible k c ..).ext, map_bind', later_completion]

theorem later_checkNft (o : Option NFTId) : checkNft (Later.world k w) who o = checkNft w who o := rfl

theorem later_takeFees (t : Contract) :
    takeFees c (Later.world k w) who (Later.contract k t) = Except.map (Later.world k) (takeFees c w who t) := by
  have h1 : (Later.world k w).bal = w.bal := rfl
  have h2 : (Later.contract k t).renter = t.renter := rfl
  have h3 : (Later.contract k t).rentFee = t.rentFee := rfl
  have h4 : (Later.contract k t).renteeFee = t.renteeFee := rfl
  have h5 : ∀ b, (Later.world k w).putBal b = Later.world k (w.putBal b) := fun _ => rfl
  simp only [takeFees, h1, h2, h3, h4, h5, map_bind', later_checkNft, (later_chownOpt k ..).ext, bind_map']

theorem later_insertKind (r : RentSt) (d : Duration) (n : NFTId) (b : Block) :
    insertKind c (Later.rentSt k r) d n (b + k) = (insertKind c r d n b).map (Later.rentSt k) := by
  cases d <;> simp only [insertKind, Later.rentSt, Later.queue_insert, Option.map_map] <;> rfl

theorem later_removeKind (r : RentSt) (d : Duration) (n : NFTId) :
    removeKind (Later.rentSt k r) d n = Later.rentSt k (removeKind r d n) := by
  cases d <;> simp [removeKind, Later.rentSt]

theorem later_startContract (n : NFTId) (t : Contract) :
    startContract c (Later.world k w) n (Later.contract k t) who = Except.map (Later.world k) (startContract c w n t who) := by
  have h0 : ∀ w : World, ({ (Later.world k w).rent with availQ := (Later.world k w).rent.availQ.remove n } : RentSt) =
    Later.rentSt k { w.rent with availQ := w.rent.availQ.remove n } := fun _ => by simp [Later.world, Later.rentSt]
  have h1 : (Later.contract k t).duration = t.duration := rfl
  have h2 : ∀ w : World, (Later.world k w).now + period t.duration = w.now + period t.duration + k := fun _ => Nat.add_right_comm ..
  simp only [startContract, later_takeFees, bind_map', map_bind', h0, h1, h2, later_insertKind, getOr_map']
  congr! 4
  simp [Later.world, Later.rentSt, Later.contract]

theorem later_call (x : Call) : call c (Later.world k w) who (Later.rentCall k x) = Except.map (Later.world k) (call c w who x) := by
  have hn : ∀ n, (Later.world k w).nfts.get n = w.nfts.get n := fun n => rfl
  have ho : ∀ n, (Later.world k w).rent.offers.get n = w.rent.offers.get n := fun n => rfl
  have hb : (Later.world k w).bal = w.bal := rfl
  have hcr : ∀ (t : Contract) b, ((Later.contract k t).creation = b + k) = (t.creation = b) := fun t b =>
    propext (Nat.add_right_cancel_iff ..)
  have hst : ∀ (t : Contract), ((Later.contract k t).start = none) = (t.start = none) := fun t => by
    simp [Later.contract]
  cases x with
  | create n d a r f x y =>
    have h2 : ∀ w : World, (Later.world k w).now + c.rentAvail = w.now + c.rentAvail + k := fun _ => Nat.add_right_comm ..
    have h3 : ∀ b, (Later.world k w).putBal b = Later.world k (w.putBal b) := fun _ => rfl
    have h4 : ∀ w : World, (Later.world k w).rent.availQ = Later.queue k w.rent.availQ := fun _ => rfl
    have h5 : (Later.world k w).rent.fixedQ.length = w.rent.fixedQ.length := Later.queue_length ..
    have h6 : (Later.world k w).rent.subQ.length = w.rent.subQ.length := Later.queue_length ..
    have h7 : (Later.world k w).rent.availQ.length = w.rent.availQ.length := Later.queue_length ..
    simp only [call, Later.rentCall, create, hn, hb, h5, h6, h7, h3, later_depositRenterNft, map_bind', bind_map', map_pure']
    simp only [h2, h4, Later.queue_insert, getOr_map', bind_map']
    ren [Later.world, Later.rentSt, Later.contract, World.putNft, World.ev, Later.ev]
  | cancel n =>
    have hc : ∀ w : World, ({ Later.world k w with rent := { (Later.world k w).rent with
        availQ := (Later.world k w).rent.availQ.remove n, offers := (Later.world k w).rent.offers.erase n } } : World) =
        Later.world k { w with rent := { w.rent with availQ := w.rent.availQ.remove n, offers := w.rent.offers.erase n } } := by
      intro w
      simp [Later.world, Later.rentSt]
    have hh := fun w => (later_handleFinished k c n).ext w
    simp only [call, Later.rentCall, cancel, later_get, hc, hh, getOr_map', bind_map', map_bind']
    ren [Later.contract]
  | revoke n =>
    have hh := fun f a w => (later_returnFee k c f a).ext w
    have h1 : ∀ t : Contract, (Later.contract k t).rentee = t.rentee := fun _ => rfl
    have h2 : ∀ t : Contract, (Later.contract k t).renter = t.renter := fun _ => rfl
    have h3 : ∀ t : Contract, (Later.contract k t).renteeFee = t.renteeFee := fun _ => rfl
    have h4 : ∀ t : Contract, (Later.contract k t).renterFee = t.renterFee := fun _ => rfl
    have h5 : ∀ t : Contract, (Later.contract k t).renterCanRevoke = t.renterCanRevoke := fun _ => rfl
    have h6 : ∀ t : Contract, (Later.contract k t).duration = t.duration := fun _ => rfl
    have h8 : ∀ w : World, (Later.world k w).now = w.now + k := fun _ => rfl
    have h10 : ∀ w : World, (Later.world k w).nfts.get n = w.nfts.get n := fun w => rfl
    simp only [call, Later.rentCall, revoke, later_get, getOr_map', bind_map', map_bind', h1, h2, h3, h4, h5, h6, h8, hh,
      later_penalty, h10]
    simp [-bind_pure_comp, Later.world, World.putNft, later_removeKind]
    ren [Later.rentSt]
  | rent n b =>
    simp only [call, Later.rentCall, rent, later_get, later_startContract, getOr_map', bind_map', map_bind', hcr]
    ren [Later.contract]
  | makeOffer n b =>
    simp only [call, Later.rentCall, makeOffer, later_get, ho, hb, getOr_map', bind_map', map_bind', later_checkNft, hcr, hst]
    ren [Later.contract, Later.world, Later.rentSt, World.ev, Later.ev]
  | acceptOffer n a =>
    simp only [call, Later.rentCall, acceptOffer, later_get, ho, later_startContract, getOr_map', bind_map', map_bind']
    ren [Later.contract]
  | retractOffer n => lat [call, Later.rentCall, retractOffer]
  | changeTerms n f p m ch =>
    ren [call, Later.rentCall, changeTerms, Later.world, Later.rentSt, Later.contract]
  | acceptTerms n f p m ch =>
    ren [call, Later.rentCall, acceptTerms, Later.world, Later.rentSt, Later.contract]

theorem later_handleSub (n : NFTId) :
    handleSub c (Later.world k w) n = (Later.world k (handleSub c w n).1, (handleSub c w n).2.map (· + k)) := by
  have hb : (Later.world k w).bal = w.bal := rfl
  simp only [handleSub, later_get, hb]
  cases w.rent.contracts.get n with
  | none => rfl
  | some t =>
    have h1 : (Later.contract k t).rentee = t.rentee := rfl
    have h2 : (Later.contract k t).renter = t.renter := rfl
    have h3 : (Later.contract k t).rentFee = t.rentFee := rfl
    have h6 : (Later.contract k t).duration = t.duration := rfl
    have h7 : hasEnded (Later.contract k t) (Later.world k w).now = hasEnded t w.now := later_hasEnded ..
    have h8 : (Later.world k w).now + period t.duration = w.now + period t.duration + k := Nat.add_right_comm ..
    simp only [Option.map_some, h1, h2, h3, h6, h7, h8]
    cases t.rentee with
    | none => rfl
    | some r =>
      cases t.rentFee with
      | nft _ => rfl
      | tokens fee =>
        simp only
        split
        · rfl
        · cases w.bal.transfer c.ed r t.renter fee .keepAlive <;> rfl

theorem later_due (b : Block) : (b + k ≤ (Later.world k w).now) = (b ≤ w.now) := propext (Nat.add_le_add_iff_right ..)

theorem later_finishLoop (q : Queue) (m : Nat) :
    finishLoop c (Later.world k w) (Later.queue k q) m =
      (Later.world k (finishLoop c w q m).1, Later.queue k (finishLoop c w q m).2.1, (finishLoop c w q m).2.2) := by
  induction q generalizing w m with
  | nil => rfl
  | cons x t ih =>
    simp only [Later.queue_cons, finishLoop, (later_handleFinished k c _).eq, ih, later_due]
    split
    · split <;> rfl
    · rfl

theorem later_subOne (n : NFTId) (t : Queue) :
    subOne c (Later.world k w) n (Later.queue k t) = (Later.world k (subOne c w n t).1, Later.queue k (subOne c w n t).2) := by
  simp only [subOne, later_handleSub]
  rcases handleSub c w n with ⟨w', _ | b⟩
  · simp only [Option.map_none, (later_handleFinished k c _).eq]
  · simp only [Option.map_some, Later.queue_insert]
    cases Queue.insert c.rentLimit t n b <;> rfl

theorem later_subLoop (q : Queue) (m f : Nat) :
    subLoop c (Later.world k w) (Later.queue k q) m f =
      (Later.world k (subLoop c w q m f).1, Later.queue k (subLoop c w q m f).2.1, (subLoop c w q m f).2.2) := by
  induction f generalizing w q m with
  | zero => rfl
  | succ f ih =>
    cases q with
    | nil => rfl
    | cons x t =>
      simp only [Later.queue_cons, subLoop, later_subOne, ih, later_due]
      split
      · split <;> rfl
      · rfl

theorem later_hook : hook c (Later.world k w) = Later.world k (hook c w) := by
  simp only [hook, show (Later.world k w).rent.fixedQ = Later.queue k w.rent.fixedQ from rfl,
    show (Later.world k w).rent.subQ = Later.queue k w.rent.subQ from rfl,
    show (Later.world k w).rent.availQ = Later.queue k w.rent.availQ from rfl, later_finishLoop, later_subLoop]
  split <;> rfl

end RentM
