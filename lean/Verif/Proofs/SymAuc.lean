import Verif.Proofs.SymNft
/-
Renaming commutes with the calls and the hook of the auction pallet.
-/
open Spec Sym

theorem Sym.require_eq' {p q : Prop} [Decidable p] [Decidable q] (h : p = q) : @require p _ = @require q _ := by
  subst h
  congr!

namespace AucM
variable (ρ : Ren) (c : Cfg) (w : World) (who : AccountId)

@[simp] theorem ren_findBid (l : List (AccountId × Balance)) : findBid (ρ.acc who) (l.map ρ.bid) = findBid who l := by
  induction l with
  | nil => rfl
  | cons x t ih => simp [findBid, Ren.bid, ih]

@[simp] theorem ren_removeBid (l : List (AccountId × Balance)) :
    removeBid (ρ.acc who) (l.map ρ.bid) = (removeBid who l).map ρ.bid := by
  induction l with
  | nil => rfl
  | cons x t ih =>
    simp only [List.map_cons, removeBid, Ren.bid, Ren.acc_eq]
    split
    · rfl
    · simp [ih, Ren.bid]

theorem ren_insertBid (l : List (AccountId × Balance)) (v : Balance) :
    insertBid (ρ.cfg c) (l.map ρ.bid) (ρ.acc who) v =
      Except.map (fun x => (x.1.map ρ.bid, x.2.map ρ.bid)) (insertBid c l who v) := by
  cases l <;> simp only [insertBid, List.map_nil, List.map_cons, List.length_cons, List.length_nil, List.length_map, Ren.cfg] <;>
    split <;> simp [Ren.bid]

theorem ren_addClaim (m : FMap AccountId Balance) (v : Balance) :
    addClaim (m.mapk ρ.acc ρ.inj id) (ρ.acc who) v = (addClaim m who v).mapk ρ.acc ρ.inj id := by
  simp [addClaim]

@[simp] theorem ren_addClaims (m : FMap AccountId Balance) (l : List (AccountId × Balance)) :
    addClaims (m.mapk ρ.acc ρ.inj id) (l.map ρ.bid) = (addClaims m l).mapk ρ.acc ρ.inj id := by
  induction l generalizing m with
  | nil => rfl
  | cons x t ih =>
    have : addClaims (m.mapk ρ.acc ρ.inj id) ((x :: t).map ρ.bid) =
      addClaims (addClaim (m.mapk ρ.acc ρ.inj id) (ρ.acc x.1) x.2) (t.map ρ.bid) := rfl
    rw [this, ren_addClaim, ih]
    rfl

@[simp] theorem ren_addClaimOpt (m : FMap AccountId Balance) (o : Option (AccountId × Balance)) :
    addClaimOpt (m.mapk ρ.acc ρ.inj id) (o.map ρ.bid) = (addClaimOpt m o).mapk ρ.acc ρ.inj id := by
  cases o with
  | none => rfl
  | some x => exact ren_addClaim ρ x.1 m x.2

theorem ren_paySeq (b : Bal) (src : AccountId) (l : Live) (t : List (AccountId × Balance)) :
    paySeq (ρ.cfg c) (ρ.bal b) (ρ.acc src) l (t.map ρ.bid) =
      (ρ.bal (paySeq c b src l t).1, (paySeq c b src l t).2) := by
  induction t generalizing b with
  | nil => rfl
  | cons x t ih =>
    simp only [List.map_cons, paySeq, Ren.bid]
    rw [show (ρ.cfg c).ed = c.ed from rfl, Ren.bal_transfer]
    cases b.transfer c.ed src x.1 x.2 l with
    | error e => rfl
    | ok b' => exact ih b'

theorem ren_payForNft (n : NFTId) (src : AccountId) (v : Balance) (d : NFTData) (a : Auction) :
    payForNft (ρ.cfg c) (ρ.world w) n (ρ.acc src) v (ρ.nft d) (ρ.auction a) =
      (ρ.bal (payForNft c w n src v d a).1, (payForNft c w n src v d a).2) := by
  have h1 : (ρ.world w).mkt.mkts.get a.mkt = (w.mkt.mkts.get a.mkt).map ρ.mkt := FMap.mapv_get ..
  have h2 : (ρ.world w).auc.comm.get n = w.auc.comm.get n := rfl
  have h3 : (ρ.auction a).mkt = a.mkt := rfl
  simp only [payForNft, h1, h2, h3]
  cases w.mkt.mkts.get a.mkt with
  | none => rfl
  | some m =>
    simp only [Option.map_some]
    cases w.auc.comm.get n with
    | none => rfl
    | some comm =>
      simp only
      rw [← ren_paySeq]
      congr 1
      simp [Ren.cfg]

theorem ren_payForNftExt (n : NFTId) (src : AccountId) (v : Balance) (d : NFTData) (a : Auction) :
    payForNftExt (ρ.cfg c) (ρ.world w) n (ρ.acc src) v (ρ.nft d) (ρ.auction a) =
      Except.map ρ.bal (payForNftExt c w n src v d a) := by
  simp only [payForNftExt, ren_payForNft]
  rcases payForNft c w n src v d a with ⟨b, _ | _⟩ <;> rfl

theorem ren_beats (a : Auction) (v : Balance) : beats (ρ.auction a) v = beats a v := by
  simp only [beats, Ren.auction, List.getLast?_map]
  cases a.bids.getLast? <;> rfl

theorem ren_extend (a : Auction) (now : Block) :
    extend (ρ.cfg c) (ρ.auction a) now = (ρ.auction (extend c a now).1, (extend c a now).2) := by
  by_cases h : a.fin - now < c.grace <;> simp [extend, Ren.auction, Ren.cfg, h]

theorem ren_updateDeadline (q : Queue) (n : NFTId) (o : Option Block) :
    updateDeadline (ρ.cfg c) q n o = updateDeadline c q n o := by
  cases o <;> rfl

theorem ren_call (x : Call) : call (ρ.cfg c) (ρ.world w) (ρ.acc who) x = Except.map ρ.world (call c w who x) := by
  have hn : ∀ n, (ρ.world w).nfts.get n = (w.nfts.get n).map ρ.nft := fun n => FMap.mapv_get ..
  have ha : ∀ n, (ρ.world w).auc.auctions.get n = (w.auc.auctions.get n).map ρ.auction := fun n => FMap.mapv_get ..
  have hcr : ∀ a, ((ρ.auction a).creator = ρ.acc who) = (a.creator = who) := fun a => propext (ρ.acc_eq ..)
  cases x with
  | create n m s e p b =>
    simp [-bind_pure_comp, call, create, Ren.world, Ren.mktSt, MktM.ren_allowed, World.putNft]
    ren [Ren.mkt, Ren.nft, Ren.cfg, Ren.aucSt, Ren.auction]
  | cancel n => ren [call, cancel, Ren.world, Ren.aucSt, Ren.auction, World.putNft, Ren.nft]
  | end_ n =>
    have hp : (ρ.cfg c).aucPot = ρ.acc c.aucPot := rfl
    simp [-bind_pure_comp, call, end_, hn, ha, hp]
    have hb : ∀ a, (ρ.auction a).bids.getLast? = (a.bids.getLast?).map ρ.bid := fun a => List.getLast?_map ..
    simp [-bind_pure_comp, hb, Ren.bid, ren_payForNftExt]
    ren [Ren.world, Ren.aucSt, Ren.auction, Ren.nft, World.putBal, World.putNft, World.ev, Ren.ev, ← List.map_dropLast]
  | addBid n v =>
    have hx : ∀ a bids, Auction.mk (ρ.auction a).creator (ρ.auction a).start (ρ.auction a).fin (ρ.auction a).startPrice
        (ρ.auction a).buyIt (bids.map ρ.bid) (ρ.auction a).mkt (ρ.auction a).extended = ρ.auction { a with bids := bids } :=
      fun _ _ => rfl
    have hb : ∀ a, (ρ.auction a).bids = a.bids.map ρ.bid := fun _ => rfl
    have hw : (ρ.world w).bal = ρ.bal w.bal := rfl
    have hp : (ρ.cfg c).aucPot = ρ.acc c.aucPot := rfl
    simp [-bind_pure_comp, call, addBid, ha, ren_beats, hb, hw, hp, hcr, Ren.bal_transfer, ren_insertBid, ren_extend, hx,
      ren_updateDeadline]
    ren [Ren.world, Ren.aucSt, World.putBal, Ren.cfg]
  | removeBid n =>
    ren [call, removeBidCall, Ren.world, Ren.aucSt, Ren.auction, World.putBal, Ren.cfg, Ren.bal_transfer]
  | buyItNow n p =>
    have hb : ∀ a, (ρ.auction a).bids.getLast? = (a.bids.getLast?).map ρ.bid := fun a => List.getLast?_map ..
    have hq : ∀ (a : Auction) (p : Balance),
        (∀ h, h ∈ (ρ.auction a).bids.getLast? → h.2 < p) = (∀ h, h ∈ a.bids.getLast? → h.2 < p) := by
      intro a p
      rw [hb]
      cases a.bids.getLast? <;> simp [Ren.bid]
    simp [-bind_pure_comp, call, buyItNow, hn, ha, hcr, ren_payForNftExt]
    ren [Ren.world, Ren.aucSt, Ren.auction, Ren.nft, World.putBal, World.putNft, World.ev, Ren.ev]
    exact require_eq' (hq _ _)
  | claim => ren [call, claim, Ren.world, Ren.aucSt, World.putBal, Ren.cfg, Ren.bal_transfer]

theorem ren_settleOne (n : NFTId) :
    settleOne (ρ.cfg c) (ρ.world w) n = (ρ.world (settleOne c w n).1, (settleOne c w n).2) := by
  have hn : (ρ.world w).nfts.get n = (w.nfts.get n).map ρ.nft := FMap.mapv_get ..
  have ha : (ρ.world w).auc.auctions.get n = (w.auc.auctions.get n).map ρ.auction := FMap.mapv_get ..
  have hp : (ρ.cfg c).aucPot = ρ.acc c.aucPot := rfl
  simp only [settleOne, hn, ha, hp]
  cases w.auc.auctions.get n with
  | none => rfl
  | some a =>
    cases w.nfts.get n with
    | none => rfl
    | some d =>
      have hb : (ρ.auction a).bids.getLast? = (a.bids.getLast?).map ρ.bid := List.getLast?_map ..
      simp only [Option.map_some, hb]
      cases a.bids.getLast? with
      | none => simp [Ren.world, Ren.aucSt, Ren.nft, World.putNft, World.ev, Ren.ev]
      | some top =>
        simp only [Option.map_some, ren_payForNft, Ren.bid]
        rcases payForNft c w n c.aucPot top.2 d a with ⟨b, _ | _⟩
        · rfl
        · simp [Ren.world, Ren.aucSt, Ren.auction, Ren.nft, World.putBal, World.putNft, World.ev, Ren.ev, ← List.map_dropLast]

theorem ren_hookLoop (q : Queue) (k : Nat) :
    hookLoop (ρ.cfg c) (ρ.world w) q k = (ρ.world (hookLoop c w q k).1, (hookLoop c w q k).2) := by
  induction q generalizing w k with
  | nil => rfl
  | cons x t ih =>
    simp only [hookLoop, ren_settleOne, ih]
    rw [show (ρ.world w).now = w.now from rfl, show (ρ.cfg c).aucActions = c.aucActions from rfl]
    split
    · split
      · split <;> rfl
      · rfl
    · rfl

theorem ren_hook : hook (ρ.cfg c) (ρ.world w) = ρ.world (hook c w) := by
  simp only [hook, show (ρ.world w).auc.deadlines = w.auc.deadlines from rfl, ren_hookLoop]
  rfl

end AucM
