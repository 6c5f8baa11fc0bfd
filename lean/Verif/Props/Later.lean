import Verif.Proofs.LaterStep
import Verif.Props.Demo
/-
C113: no block number is special.
-/
open Spec

variable {c : Cfg} {w : World}

/-- C113: move a state `k` blocks into the future, with every start, end, deadline and expiry it holds, and any call with the
block numbers among its arguments.  The call then does the same, `k` blocks later, and fails with the same error if it fails. -/
theorem C113_calls (k : Block) (c : Cfg) (x : Call) (o : Origin) (w : World) :
    dispatch c (Later.call k x) o (Later.world k w) = (dispatch c x o w).map (Later.world k) :=
  _root_.Later.dispatch k c w x o

/-- … and so do block hooks, fees, payouts and whole histories. -/
theorem C113_histories (k : Block) (c : Cfg) (w : World) (l : List Op) :
    run c (Later.world k w) (l.map (Later.op k)) = Later.world k (run c w l) :=
  _root_.Later.run k c w l

/-- … so that a reachable state moved in time is reachable. -/
theorem C113_reachable (k : Block) (hr : Reach c w) : Reach c (Later.world k w) :=
  _root_.Later.reach k hr

/-- A chain launched at a later block: nothing but the block number differs at the start, and nothing but block numbers ever
after. -/
theorem C113_launch (k : Block) (hg : Genesis c w) (l : List Op) :
    run c { w with now := w.now + k } (l.map (Later.op k)) = Later.world k (run c w l) := by
  have h : Later.world k w = { w with now := w.now + k } := by
    obtain ⟨_, _, _, _, ⟨a1, a2, a3, a4⟩, ⟨r1, r2, r3, r4, r5⟩, ⟨t1, t2, t3⟩,
      ⟨e1, e2, e3, e4, e5, e6, e7, e8, e9, e10, e11, e12, e13⟩, ⟨k1, k2⟩, _, g3⟩ := hg
    obtain ⟨now, active, bal, nfts, nft, mkt, ⟨⟩, ⟨⟩, ⟨⟩, ⟨⟩, ⟨⟩, rew, evs⟩ := w
    simp only at a1 a2 r1 r2 r3 r4 t1 t3 e10 k2 g3
    subst a1 a2 r1 r2 r3 r4 t1 t3 e10 k2 g3
    rfl
  rw [← C113_histories, h]

/-- … in particular everybody has the same tokens, locks, NFTs and claims. -/
theorem C113_assets (k : Block) (hg : Genesis c w) (l : List Op) :
    (run c { w with now := w.now + k } (l.map (Later.op k))).bal = (run c w l).bal ∧
      (run c { w with now := w.now + k } (l.map (Later.op k))).nfts = (run c w l).nfts ∧
      (run c { w with now := w.now + k } (l.map (Later.op k))).auc.claims = (run c w l).auc.claims := by
  rw [C113_launch k hg]
  exact ⟨rfl, rfl, rfl⟩

/-- An auction is created, bid on and won at its end; the winner then schedules a transmission, which takes place. -/
abbrev Demo.laterRun : List Op :=
  [Demo.mint1, Demo.by_ 1 (.mkt (.create .pub)), Demo.by_ 1 (.auc (.create 0 0 1 13 100 none)), .tick,
   Demo.by_ 2 (.auc (.addBid 0 200))] ++ Demo.ticks 20 ++ [.hookAuc, Demo.by_ 2 (.tr (.set 0 3 (.atBlock 40) .none))] ++
   Demo.ticks 20 ++ [.hookTr]

set_option maxRecDepth 100000 in
example :
    let w := Demo.at_ Demo.laterRun
    let w' := run Demo.cfg { Demo.w0 with now := Demo.w0.now + 1000 } (Demo.laterRun.map (Later.op 1000))
    (w.nfts.get 0).map (·.owner) = some 3 ∧ (w'.nfts.get 0).map (·.owner) = some 3 ∧ w.now = 41 ∧ w'.now = 1041 ∧
      (Later.op 1000 (Demo.by_ 1 (.auc (.create 0 0 1 13 100 none))) = Demo.by_ 1 (.auc (.create 0 0 1001 1013 100 none))) := by
  refine ⟨?_, ?_, ?_, ?_, rfl⟩
  all_goals decide +kernel

/-- Too early a bid is refused with the same error at block 0 and at block 1000, and the reachable states meant are these. -/
example :
    let w := Demo.at_ (Demo.laterRun.take 3)
    Reach Demo.cfg (Later.world 1000 w) ∧
      dispatch Demo.cfg (.auc (.addBid 0 200)) (.signed 2) w = .error (.e "AuctionNotStarted") ∧
      dispatch Demo.cfg (.auc (.addBid 0 200)) (.signed 2) (Later.world 1000 w) = .error (.e "AuctionNotStarted") ∧
      (Later.world 1000 w).auc.deadlines = [(0, 1013)] := by
  have h : dispatch Demo.cfg (.auc (.addBid 0 200)) (.signed 2) (Demo.at_ (Demo.laterRun.take 3)) = .error (.e "AuctionNotStarted") := rfl
  refine ⟨C113_reachable 1000 (Demo.reach _ (by decide)), h, ?_, by decide⟩
  have := C113_calls 1000 Demo.cfg (.auc (.addBid 0 200)) (.signed 2) (Demo.at_ (Demo.laterRun.take 3))
  rw [h] at this
  exact this
