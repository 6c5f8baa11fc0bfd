import Verif.Proofs.Bidder
import Verif.Props.Observer
/-
Whoever bids in auctions gets NFTs or their tokens back.
-/
open Spec

variable {c : Cfg} {w : World}

/-! ## C106 -/

/-- C106: over any history, what an account has in bids and refunds at first plus what it hands over for bids is what it has
in them at last plus what it gets back plus what it wins NFTs for. -/
theorem C106 (hc : c.Ok) (hr : Reach c w) (l : List Op) (hl : ∀ o ∈ l, o.Ok c) (y : AccountId) :
    let s := fun f => total c f (truth w) (history c w l)
    stakeOf w y + s (handsOver y) = stakeOf (run c w l) y + s (getsBack y) + s (spends y) := by
  show Tallied c y w (run c w l) (history c w l)
  induction l generalizing w with
  | nil => simp [history, run, Tallied, total]
  | cons o t ih =>
    have ho := hl o (by simp)
    exact (step_tallied hc hr o ho y).append (by rw [books_map]; exact step_seen hc hr o ho)
      (ih (hr.step o ho) fun x hx => hl x (by simp [hx]))

-- account 4 is outbid
example := C106 Demo.cfg_ok (Demo.reach [] (by decide)) (auctioned ++ blocks 10) (by decide) 4

/-- C106: an account that starts and ends without bids and refunds has got back or won NFTs for all it handed over. -/
theorem C106_all (hc : c.Ok) (hr : Reach c w) (l : List Op) (hl : ∀ o ∈ l, o.Ok c) (y : AccountId) (h0 : stakeOf w y = 0)
    (h1 : stakeOf (run c w l) y = 0) :
    let s := fun f => total c f (truth w) (history c w l)
    s (handsOver y) = s (getsBack y) + s (spends y) := by
  have := C106 hc hr l hl y
  simp only [h0, h1] at this ⊢
  omega

-- account 4 is outbid and claims the refund
example := C106_all Demo.cfg_ok (Demo.reach [] (by decide)) (auctioned ++ blocks 10 ++ [Demo.by_ 4 (.auc .claim)])
  (by decide) 4 (by decide) (by decide)

/-- C106: the account that an event names as winner owns the NFT after the operation that emits it. -/
theorem C106_nft (hc : c.Ok) (hr : Reach c w) (o : Op) {n : NFTId} {y : AccountId} {v : Balance} {z}
    (h : .auctionCompleted n (some y) (some v) z ∈ emit c w o) : ∃ d, (step c w o).nfts.get n = some d ∧ d.owner = y :=
  step_winner hc hr o h

set_option maxRecDepth 100000 in
/-- account 4 bids, is outbid and claims the refund; account 2 raises a bid and wins -/
example :
    let l := auctioned ++ blocks 10 ++ [Demo.by_ 4 (.auc .claim)]
    let s := fun f => total Demo.cfg f (truth Demo.w0) (history Demo.cfg Demo.w0 l)
    Reach Demo.cfg Demo.w0 ∧ (∀ o ∈ l, o.Ok Demo.cfg) ∧ stakeOf Demo.w0 2 = 0 ∧ stakeOf (Demo.at_ l) 2 = 0 ∧
    s (handsOver 2) = 400 ∧ s (getsBack 2) = 0 ∧ s (spends 2) = 400 ∧
    stakeOf (Demo.at_ l) 4 = 0 ∧ s (handsOver 4) = 300 ∧ s (getsBack 4) = 300 ∧ s (spends 4) = 0 ∧
    ((Demo.at_ l).nfts.get 0).map (·.owner) = some 2 :=
  ⟨Demo.reach [] (by decide), by decide, by decide, by decide, by decide, by decide, by decide, by decide, by decide,
    by decide, by decide, by decide⟩

set_option maxRecDepth 100000 in
example : Reach Demo.cfg (Demo.at_ (auctioned ++ blocks 9 ++ [.tick])) ∧
    emit Demo.cfg (Demo.at_ (auctioned ++ blocks 9 ++ [.tick])) .hookAuc =
      [.auctionCompleted 0 (some 2) (some 400) (some (40, 36, 324))] :=
  ⟨Demo.reach _ (by decide), rfl⟩
