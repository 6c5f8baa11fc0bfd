import Verif.Props.Prolong
/-
C148: when an auction can end, compared with the end that was announced.
-/
open Spec

variable {c : Cfg} {w w' : World}

namespace Announced

/-- what holds of an auction that has not been extended, and what it has become -/
structure Inv (c : Cfg) (x : Auction) (w' : World) (x' : Auction) : Prop where
  fin : x.fin ≤ x'.fin
  ext : x'.extended = true → x.fin < w'.now + c.grace
  creator : x'.creator = x.creator
  start : x'.start = x.start
  buy : x'.buyIt = x.buyIt

theorem inv (hc : c.Ok) (hr : Reach c w) {n : NFTId} {x x' : Auction} (h0 : x.extended = false) (h : Lasts c n w x w' x') :
    Inv c x w' x' := by
  induction h with
  | here h => exact ⟨Nat.le_refl _, fun e => by rw [h0] at e; simp at e, rfl, rfl, rfl⟩
  | @next w1 y y2 o hl ho h2 ih =>
    have hr1 := hl.reach hr
    have hy := hl.get
    obtain ⟨d, hd, _⟩ := C24_nft hc hr1 hy
    have ht := step_auc_turn hc hr1 o ho hy hd
    have hn : w1.now ≤ (step c w1 o).now := step_now_le w1 o
    have i1 := ih.fin
    generalize step c w1 o = w2 at ht h2 hn ⊢
    cases ht with
    | stay h1 => rw [h1] at h2; simp at h2; subst h2; exact ⟨i1, fun e => by have := ih.ext e; omega, ih.creator, ih.start, ih.buy⟩
    | withdraw h1 h3 h4 =>
      rw [h4] at h2; simp at h2; subst h2
      exact ⟨i1, fun e => by have := ih.ext e; omega, ih.creator, ih.start, ih.buy⟩
    | @bid a v _ h1 h3 h4 h5 h6 =>
      rw [h6] at h2; simp at h2; subst h2
      refine ⟨?_, fun e => ?_, ih.creator, ih.start, ih.buy⟩
      · simp only; split <;> omega
      · simp only [Bool.or_eq_true, decide_eq_true_eq] at e
        rcases e with e | e
        · have := ih.ext e; omega
        · omega
    | cancel h1 h3 => rw [h3] at h2; simp at h2
    | end_ h1 h4 h3 => rw [h3] at h2; simp at h2
    | buy h1 h4 h3 h5 h6 => rw [h6] at h2; simp at h2
    | won h1 h4 h3 h5 => rw [h5] at h2; simp at h2
    | noBid h1 h4 h3 h5 => rw [h5] at h2; simp at h2

theorem now {n : NFTId} {x x' : Auction} (h : Lasts c n w x w' x') : w.now ≤ w'.now := by
  induction h with
  | here => exact Nat.le_refl _
  | @next w1 _ _ o _ _ _ ih => exact Nat.le_trans ih (step_now_le w1 o)

end Announced

/-- **C148**: what holds of it: a running auction `x` is over before its announced end only if it is bought for the price announced
for that, or if its creator ends it less than a grace period before that end.  Missing: that the creator cannot do so. -/
theorem C148_partial (hc : c.Ok) (hr : Reach c w) {n : NFTId} {x x' : Auction} (h0 : x.extended = false) (hs : x.start ≤ w.now)
    (h : Lasts c n w x w' x') (o : Op) (ho : o.Ok c) (hend : (step c w' o).auc.auctions.get n = none) :
    x.fin ≤ w'.now ∨ (∃ a p, o = .call (.signed a) (.auc (.buyItNow n p)) ∧ x.buyIt = some p) ∨
      (o = .call (.signed x.creator) (.auc (.end_ n)) ∧ x.fin < w'.now + c.grace) := by
  have i := Announced.inv hc hr h0 h
  have hr' := h.reach hr
  have hy := h.get
  obtain ⟨d, hd, _⟩ := C24_nft hc hr' hy
  have ht := step_auc_turn hc hr' o ho hy hd
  have hnow := Announced.now h
  have i1 := i.fin
  generalize step c w' o = w2 at ht hend
  cases ht with
  | stay h1 => rw [h1] at hend; simp at hend
  | withdraw h1 h3 h4 => rw [h4] at hend; simp at hend
  | bid h1 h3 h4 h5 h6 => rw [h6] at hend; simp at hend
  | cancel h1 h3 => have := i.start; omega
  | end_ h1 h4 h3 => exact Or.inr (Or.inr ⟨by rw [i.creator], i.ext h1⟩)
  | buy h1 h4 h3 h5 h6 => exact Or.inr (Or.inl ⟨_, _, rfl, by rw [← i.buy]; exact h1⟩)
  | won h1 => exact Or.inl (by omega)
  | noBid h1 => exact Or.inl (by omega)

/-- three blocks before the announced end somebody bids, and the creator ends the auction at once -/
abbrev cutShort : List Op := auctioned ++ Demo.ticks 7 ++ [Demo.by_ 5 (.auc (.addBid 0 401))]

/-- C148 fails: the auction announced to end at block 10 is over at block 7, and the last bidder has the NFT. -/
theorem C148_fails : Reach Demo.cfg (Demo.at_ cutShort) ∧
    ((Demo.at_ auctioned).auc.auctions.get 0).map (fun x => (x.fin, x.extended)) = some (10, false) ∧
    (Demo.at_ cutShort).now = 7 ∧
    (Demo.at_ (cutShort ++ [Demo.by_ 1 (.auc (.end_ 0))])).auc.auctions.get 0 = none ∧
    ((Demo.at_ (cutShort ++ [Demo.by_ 1 (.auc (.end_ 0))])).nfts.get 0).map (·.owner) = some 5 :=
  ⟨Demo.reach _ (by decide), by decide +kernel, by decide +kernel, by decide +kernel, by decide +kernel⟩

-- as `C148_partial` says, this is less than a grace period before the end
example := C148_partial Demo.cfg_ok (Demo.reach (auctioned ++ Demo.ticks 7) (by decide)) (n := 0)
  (x := ⟨1, 0, 10, 100, some 5000, [(4, 300), (2, 400)], 0, false⟩) rfl (by decide)
  (w' := Demo.at_ cutShort) (x' := ⟨1, 0, 12, 100, some 5000, [(2, 400), (5, 401)], 0, true⟩)
  (.next (Demo.by_ 5 (.auc (.addBid 0 401))) (.here rfl) (by decide) rfl) (Demo.by_ 1 (.auc (.end_ 0))) (by decide) rfl
