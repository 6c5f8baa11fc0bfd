import Verif.Proofs.Later
import Verif.Proofs.SymAuc
/-
Moving in time commutes with the calls and the hook of the auction pallet.
-/
open Spec Sym

namespace AucM
variable (k : Block) (c : Cfg) (w : World) (who : AccountId)

theorem later_get (n : NFTId) : (Later.world k w).auc.auctions.get n = (w.auc.auctions.get n).map (Later.auction k) :=
  FMap.mapv_get ..

theorem later_payForNft (n : NFTId) (src : AccountId) (v : Balance) (d : NFTData) (a : Auction) :
    payForNft c (Later.world k w) n src v d (Later.auction k a) = payForNft c w n src v d a := rfl

theorem later_payForNftExt (n : NFTId) (src : AccountId) (v : Balance) (d : NFTData) (a : Auction) :
    payForNftExt c (Later.world k w) n src v d (Later.auction k a) = payForNftExt c w n src v d a := rfl

theorem later_extend (a : Auction) (now : Block) :
    extend c (Later.auction k a) (now + k) = (Later.auction k (extend c a now).1, (extend c a now).2.map (· + k)) := by
  have h : (Later.auction k a).fin - (now + k) = a.fin - now := Nat.add_sub_add_right ..
  unfold extend
  rw [h]
  split
  · have : (Later.auction k a).fin + (c.grace - (a.fin - now)) = a.fin + (c.grace - (a.fin - now)) + k := Nat.add_right_comm ..
    simp only [this]
    rfl
  · rfl

theorem later_updateDeadline (q : Queue) (n : NFTId) (o : Option Block) :
    updateDeadline c (Later.queue k q) n (o.map (· + k)) = Except.map (Later.queue k) (updateDeadline c q n o) := by
  cases o with
  | none => rfl
  | some b => exact Later.queue_update ..

theorem later_erase (n : NFTId) (cl : FMap AccountId Balance) :
    ({ Later.world k w with auc := { (Later.world k w).auc with
        claims := cl, auctions := (Later.world k w).auc.auctions.erase n
        deadlines := (Later.world k w).auc.deadlines.remove n } } : World) =
      Later.world k { w with auc := { w.auc with
        claims := cl, auctions := w.auc.auctions.erase n, deadlines := w.auc.deadlines.remove n } } := by
  simp [Later.world, Later.aucSt]

theorem later_call (x : Call) : call c (Later.world k w) who (Later.aucCall k x) = Except.map (Later.world k) (call c w who x) := by
  have hn : ∀ a : Auction, ((Later.auction k a).start ≤ (Later.world k w).now) = (a.start ≤ w.now) := fun a =>
    propext (Nat.add_le_add_iff_right ..)
  cases x with
  | create n m s e p b =>
    have h1 : ((Later.world k w).now ≤ s + k) = (w.now ≤ s) := propext (Nat.add_le_add_iff_right ..)
    have h2 : (s + k < e + k) = (s < e) := propext (Nat.add_lt_add_iff_right ..)
    have h3 : e + k - (s + k) = e - s := Nat.add_sub_add_right ..
    have h4 : s + k - (Later.world k w).now = s - w.now := Nat.add_sub_add_right ..
    have h5 : Queue.insert c.aucLimit (Later.world k w).auc.deadlines n (e + k) =
      (Queue.insert c.aucLimit w.auc.deadlines n e).map (Later.queue k) := Later.queue_insert ..
    simp only [call, Later.aucCall, create, h1, h2, h3, h4, h5, getOr_map', bind_map', map_bind', map_pure']
    ren [Later.world, Later.aucSt, Later.auction, World.putNft]
  | cancel n =>
    simp only [call, Later.aucCall, cancel, later_get, getOr_map', bind_map', map_bind', map_pure', hn]
    ren [Later.world, Later.aucSt, Later.auction, World.putNft]
  | end_ n =>
    simp only [call, Later.aucCall, end_, later_get, getOr_map', bind_map', map_bind', map_pure', later_payForNftExt]
    ren [Later.world, Later.aucSt, Later.auction, World.putNft, World.putBal, World.ev, Later.ev]
  | addBid n v =>
    have hb : ∀ a : Auction, (Later.auction k a).bids = a.bids := fun _ => rfl
    have hx : ∀ a bids, Auction.mk (Later.auction k a).creator (Later.auction k a).start (Later.auction k a).fin
        (Later.auction k a).startPrice (Later.auction k a).buyIt bids (Later.auction k a).mkt (Later.auction k a).extended =
        Later.auction k { a with bids := bids } := fun _ _ => rfl
    have h1 : (Later.world k w).now = w.now + k := rfl
    have h2 : (Later.world k w).auc.deadlines = Later.queue k w.auc.deadlines := rfl
    simp only [call, Later.aucCall, addBid, later_get, getOr_map', bind_map', map_bind', map_pure', hn, hb, hx]
    simp only [h1, h2, later_extend, later_updateDeadline, bind_map']
    have hs : ∀ a : Auction, (Later.auction k a).startPrice = a.startPrice ∧ (Later.auction k a).creator = a.creator ∧
        (∀ v, beats (Later.auction k a) v = beats a v) := fun _ => ⟨rfl, rfl, fun _ => rfl⟩
    ren [Later.world, Later.aucSt, World.putBal, hs]
  | removeBid n =>
    have h : ∀ a : Auction, (Later.auction k a).fin - (Later.world k w).now = a.fin - w.now := fun _ => Nat.add_sub_add_right ..
    simp only [call, Later.aucCall, removeBidCall, later_get, getOr_map', bind_map', map_bind', map_pure', h]
    ren [Later.world, Later.aucSt, Later.auction, World.putBal]
  | buyItNow n p =>
    simp only [call, Later.aucCall, buyItNow, later_get, getOr_map', bind_map', map_bind', map_pure', hn, later_payForNftExt]
    ren [Later.world, Later.aucSt, Later.auction, World.putNft, World.putBal, World.ev, Later.ev]
  | claim => lat [call, Later.aucCall, claim]

theorem later_settleOne (n : NFTId) :
    settleOne c (Later.world k w) n = (Later.world k (settleOne c w n).1, (settleOne c w n).2) := by
  have hn : (Later.world k w).nfts.get n = w.nfts.get n := rfl
  simp only [settleOne, hn, later_get]
  cases w.auc.auctions.get n with
  | none => rfl
  | some a =>
    cases w.nfts.get n with
    | none => rfl
    | some d =>
      have hb : (Later.auction k a).bids = a.bids := rfl
      simp only [Option.map_some, hb]
      cases a.bids.getLast? with
      | none => simp [Later.world, Later.aucSt, World.putNft, World.ev, Later.ev]
      | some top =>
        simp only [later_payForNft]
        rcases payForNft c w n c.aucPot top.2 d a with ⟨b, _ | _⟩
        · rfl
        · simp [Later.world, Later.aucSt, World.putBal, World.putNft, World.ev, Later.ev]

theorem later_hookLoop (q : Queue) (m : Nat) :
    hookLoop c (Later.world k w) (Later.queue k q) m =
      (Later.world k (hookLoop c w q m).1, Later.queue k (hookLoop c w q m).2) := by
  induction q generalizing w m with
  | nil => rfl
  | cons x t ih =>
    have h : (x.2 + k ≤ (Later.world k w).now) = (x.2 ≤ w.now) := propext (Nat.add_le_add_iff_right ..)
    simp only [Later.queue_cons, hookLoop, later_settleOne, ih, h]
    split
    · split
      · split <;> rfl
      · rfl
    · rfl

theorem later_hook : hook c (Later.world k w) = Later.world k (hook c w) := by
  simp only [hook, show (Later.world k w).auc.deadlines = Later.queue k w.auc.deadlines from rfl, later_hookLoop]
  rfl

end AucM
