import Verif.Proofs.Renum
/-
Renumbering commutes with the calls and the hook of the auction pallet.
-/
open Spec Sym

namespace AucM
variable (ρ : Num) (c : Cfg) (w : World) (who : AccountId)

theorem num_insertBid (l : List (AccountId × Balance)) (v : Balance) :
    insertBid (ρ.cfg c) l who v = insertBid c l who v := by
  cases l <;> rfl

theorem num_paySeq (b : Bal) (src : AccountId) (l : Live) (t : List (AccountId × Balance)) :
    paySeq (ρ.cfg c) b src l t = paySeq c b src l t := by
  induction t generalizing b with
  | nil => rfl
  | cons x t ih =>
    simp only [paySeq]
    rw [show (ρ.cfg c).ed = c.ed from rfl]
    cases b.transfer c.ed src x.1 x.2 l with
    | error e => rfl
    | ok b' => exact ih b'

theorem num_payForNft (n : NFTId) (src : AccountId) (v : Balance) (d : NFTData) (a : Auction) :
    payForNft (ρ.cfg c) (ρ.world w) (ρ.n n) src v (ρ.nft d) (ρ.auction a) = payForNft c w n src v d a := by
  have h1 : (ρ.world w).mkt.mkts.get (ρ.m a.mkt) = (w.mkt.mkts.get a.mkt).map ρ.mkt := FMap.mapk_get ρ.m ρ.mInj ..
  have h2 : (ρ.world w).auc.comm.get (ρ.n n) = (w.auc.comm.get n).map id := FMap.mapk_get ρ.n ρ.nInj ..
  have h3 : (ρ.auction a).mkt = ρ.m a.mkt := rfl
  simp only [payForNft, h1, h2, h3]
  cases w.mkt.mkts.get a.mkt with
  | none => rfl
  | some m =>
    simp only [Option.map_some]
    cases w.auc.comm.get n with
    | none => rfl
    | some comm => simp only [Option.map_some, id, num_paySeq]; rfl

theorem num_payForNftExt (n : NFTId) (src : AccountId) (v : Balance) (d : NFTData) (a : Auction) :
    payForNftExt (ρ.cfg c) (ρ.world w) (ρ.n n) src v (ρ.nft d) (ρ.auction a) = payForNftExt c w n src v d a := by
  simp only [payForNftExt, num_payForNft]

theorem num_beats (a : Auction) (v : Balance) : beats (ρ.auction a) v = beats a v := rfl

theorem num_extend (a : Auction) (now : Block) :
    extend (ρ.cfg c) (ρ.auction a) now = (ρ.auction (extend c a now).1, (extend c a now).2) := by
  by_cases h : a.fin - now < c.grace <;> simp [extend, Num.auction, Num.cfg, h]

theorem num_updateDeadline (q : Queue) (n : NFTId) (o : Option Block) :
    updateDeadline (ρ.cfg c) (ρ.queue q) (ρ.n n) o = Except.map ρ.queue (updateDeadline c q n o) := by
  cases o with
  | none => rfl
  | some b => exact ρ.queue_update ..

theorem num_call (x : Call) : call (ρ.cfg c) (ρ.world w) who (ρ.aucCall x) = Except.map ρ.world (call c w who x) := by
  have hn : ∀ n, (ρ.world w).nfts.get (ρ.n n) = (w.nfts.get n).map ρ.nft := fun n => FMap.mapk_get ρ.n ρ.nInj ..
  have ha : ∀ n, (ρ.world w).auc.auctions.get (ρ.n n) = (w.auc.auctions.get n).map ρ.auction := fun n => FMap.mapk_get ρ.n ρ.nInj ..
  cases x with
  | create n m s e p b =>
    have h' : ∀ d, (ρ.nft d).coll = d.coll.map ρ.k := fun _ => rfl
    simp [-bind_pure_comp, call, Num.aucCall, create, Num.world, Num.mktSt, h', MktM.num_allowed, World.putNft]
    num [Num.mkt, Num.aucSt, Num.auction]
  | cancel n => num [call, Num.aucCall, cancel, Num.aucSt, Num.auction]
  | end_ n =>
    have hp : (ρ.cfg c).aucPot = c.aucPot := rfl
    simp [-bind_pure_comp, call, Num.aucCall, end_, hn, ha, hp, num_payForNftExt]
    num [Num.aucSt, Num.auction, World.ev, Num.ev]
  | addBid n v =>
    have hx : ∀ a bids, Auction.mk a.creator (ρ.auction a).start (ρ.auction a).fin (ρ.auction a).startPrice
        (ρ.auction a).buyIt bids (ρ.auction a).mkt (ρ.auction a).extended = ρ.auction { a with bids := bids } :=
      fun _ _ => rfl
    have hb : ∀ a, (ρ.auction a).bids = a.bids := fun _ => rfl
    have hcr : ∀ a, (ρ.auction a).creator = a.creator := fun _ => rfl
    have hw : (ρ.world w).bal = w.bal := rfl
    have hq : (ρ.world w).auc.deadlines = ρ.queue w.auc.deadlines := rfl
    have hp : (ρ.cfg c).aucPot = c.aucPot := rfl
    simp [-bind_pure_comp, call, Num.aucCall, addBid, ha, num_beats, hb, hcr, hw, hp, hq, num_insertBid, num_extend, hx,
      num_updateDeadline]
    num [Num.aucSt]
  | removeBid n => num [call, Num.aucCall, removeBidCall, Num.aucSt, Num.auction]
  | buyItNow n p =>
    simp [-bind_pure_comp, call, Num.aucCall, buyItNow, hn, ha, num_payForNftExt]
    num [Num.aucSt, Num.auction, World.ev, Num.ev]
  | claim => num [call, Num.aucCall, claim, Num.aucSt]

theorem num_settleOne (n : NFTId) :
    settleOne (ρ.cfg c) (ρ.world w) (ρ.n n) = (ρ.world (settleOne c w n).1, (settleOne c w n).2) := by
  have hn : (ρ.world w).nfts.get (ρ.n n) = (w.nfts.get n).map ρ.nft := FMap.mapk_get ρ.n ρ.nInj ..
  have ha : (ρ.world w).auc.auctions.get (ρ.n n) = (w.auc.auctions.get n).map ρ.auction := FMap.mapk_get ρ.n ρ.nInj ..
  have hp : (ρ.cfg c).aucPot = c.aucPot := rfl
  simp only [settleOne, hn, ha, hp]
  cases w.auc.auctions.get n with
  | none => rfl
  | some a =>
    cases w.nfts.get n with
    | none => rfl
    | some d =>
      have hb : (ρ.auction a).bids.getLast? = a.bids.getLast? := rfl
      simp only [Option.map_some, hb]
      cases a.bids.getLast? with
      | none => simp [Num.world, Num.aucSt, Num.nft, World.putNft, World.ev, Num.ev]
      | some top =>
        simp only [num_payForNft]
        rcases payForNft c w n c.aucPot top.2 d a with ⟨b, _ | _⟩
        · rfl
        · simp [Num.world, Num.aucSt, Num.auction, Num.nft, World.putBal, World.putNft, World.ev, Num.ev]

theorem num_hookLoop (q : Queue) (k : Nat) :
    hookLoop (ρ.cfg c) (ρ.world w) (ρ.queue q) k = (ρ.world (hookLoop c w q k).1, ρ.queue (hookLoop c w q k).2) := by
  induction q generalizing w k with
  | nil => rfl
  | cons x t ih =>
    have ih' := fun w k => ih w k
    simp only [Num.queue] at ih'
    simp only [Num.queue, List.map_cons, hookLoop, num_settleOne, ih']
    rw [show (ρ.world w).now = w.now from rfl, show (ρ.cfg c).aucActions = c.aucActions from rfl]
    split
    · split
      · split <;> rfl
      · rfl
    · rfl

theorem num_hook : hook (ρ.cfg c) (ρ.world w) = ρ.world (hook c w) := by
  simp only [hook, show (ρ.world w).auc.deadlines = ρ.queue w.auc.deadlines from rfl, num_hookLoop]
  rfl

end AucM
