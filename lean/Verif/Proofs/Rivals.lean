import Verif.Props.Trade
import Verif.Props.RivalsSpec
/-
One bid in a running auction.
-/
variable {c : Cfg} {w w' : World} {a : AccountId}

/-- the state of an auction as far as later bids depend on it -/
structure AucM.Outbid (c : Cfg) (w w' : World) (n : NFTId) (x x' : Auction) (a : AccountId) (v : Balance) : Prop where
  get : w'.auc.auctions.get n = some x'
  last : x'.bids.getLast? = some (a, v)
  mem : ∀ y ∈ x'.bids, y ∈ x.bids ∨ y = (a, v)
  beats : AucM.beats x v = true
  creator : x'.creator = x.creator
  start : x'.start = x.start
  price : x'.startPrice = x.startPrice
  fin : x'.fin = if x.fin - w.now < c.grace then x.fin + (c.grace - (x.fin - w.now)) else x.fin
  now : w'.now = w.now
  free : ∀ y, y ≠ a → y ≠ c.aucPot → w'.bal.freeOf y = w.bal.freeOf y
  locks : w'.bal.tee = w.bal.tee ∧ w'.bal.other = w.bal.other

theorem AucM.addBid_outbid {n v} {x : Auction} (hx : w.auc.auctions.get n = some x) (ha : a ≠ c.aucPot)
    (h : addBid c w a n v = .ok w') : ∃ x', Outbid c w w' n x x' a v := by
  unfold addBid at h
  inv_ok at h
  obtain ⟨x0, b, ⟨d, l⟩, h⟩ := h
  simp only [Exec.bind_ok, Exec.pure_ok] at h
  obtain ⟨_, hx0, _, _, _, hb, ht, hi, hq, rfl⟩ := h
  obtain rfl : x0 = x := Option.some.inj (hx0.symm.trans hx)
  have hk := fun y => Bal.transfer_keep ht y ha
  have hl := Bal.transfer_locks ht
  refine ⟨_, FMap.get_insert_self _ _ _, ?_, ?_, hb, ?_, ?_, ?_, ?_, rfl, ?_, hl.1, hl.2.1⟩
  · rw [extend_bids]
    obtain ⟨t, _, rfl⟩ := insertBid_rest hi
    simp
  · intro y hy
    rw [extend_bids] at hy
    obtain ⟨t, ht, rfl⟩ := insertBid_rest hi
    rcases List.mem_append.1 hy with hy | hy
    · exact .inl (removeBid_sublist.subset (ht.subset hy))
    · exact .inr (by simpa using hy)
  · rw [extend_eq]; split <;> rfl
  · rw [extend_eq]; split <;> rfl
  · rw [extend_eq]; split <;> rfl
  · rw [extend_eq]; dsimp only; split <;> rfl
  · intro y h1 h2
    show b.freeOf y = _
    rw [hk y, if_neg h2, if_neg h1]

theorem step_bid {n v} {x : Auction} (hx : w.auc.auctions.get n = some x) (ha : a ≠ c.aucPot) :
    step c w (.call (.signed a) (.auc (.addBid n v))) = w ∨
      ∃ x', AucM.Outbid c w (step c w (.call (.signed a) (.auc (.addBid n v)))) n x x' a v := by
  have e : step c w (.call (.signed a) (.auc (.addBid n v))) = orSame w (AucM.addBid c w a n v) := rfl
  rw [e]
  rcases h : AucM.addBid c w a n v with _ | w'
  · exact .inl rfl
  · exact .inr (AucM.addBid_outbid hx ha h)

variable {n : NFTId} {x : Auction} {v : Balance}

/-- Until the highest bid arrives: the auction goes on, with bids below it, and the bidder to come is as able to pay. -/
theorem Rivals.before (hc : c.Ok) (l : List (AccountId × Balance)) (hr : Reach c w) (hx : w.auc.auctions.get n = some x)
    (hs : x.start ≤ w.now) (hl : ∀ y ∈ l, ¬ c.pot y.1 ∧ y.1 ≠ a ∧ y.2 < v) (ha : ¬ c.pot a) (hb : ∀ y ∈ x.bids, y.2 < v)
    (hold : (∀ y ∈ x.bids, y.1 ≠ a) ∨ Spec.Covered c 0 w) (hpay : Spec.CanPay c w a v) :
    ∃ x', Reach c (run c w (Spec.bidding n l)) ∧ (run c w (Spec.bidding n l)).auc.auctions.get n = some x' ∧
      x'.creator = x.creator ∧ x'.start ≤ (run c w (Spec.bidding n l)).now ∧ x'.startPrice = x.startPrice ∧
      (∀ y ∈ x'.bids, y.2 < v) ∧ ((∀ y ∈ x'.bids, y.1 ≠ a) ∨ Spec.Covered c 0 (run c w (Spec.bidding n l))) ∧
      Spec.CanPay c (run c w (Spec.bidding n l)) a v ∧ (run c w (Spec.bidding n l)).now = w.now ∧
      (w.now ≤ x.fin → x'.fin = x.fin ∨ x'.fin = max x.fin (w.now + c.grace)) := by
  induction l generalizing w x with
  | nil => exact ⟨x, hr, hx, rfl, hs, rfl, hb, hold, hpay, rfl, fun _ => .inl rfl⟩
  | cons y l ih =>
    obtain ⟨h1, h2, h3⟩ := hl y List.mem_cons_self
    have hl' := fun z hz => hl z (List.mem_cons_of_mem _ hz)
    have hap : y.1 ≠ c.aucPot := fun e => h1 (e ▸ Cfg.pot_auc)
    have hap' : a ≠ c.aucPot := fun e => ha (e ▸ Cfg.pot_auc)
    have hr' := hr.step (.call (.signed y.1) (.auc (.addBid n y.2))) h1
    show ∃ x', Reach c (run c (step c w (.call (.signed y.1) (.auc (.addBid n y.2)))) (Spec.bidding n l)) ∧ _
    have hcov := fun h => C20_calls hc hr h (.call (.signed y.1) (.auc (.addBid n y.2))) h1 (by simp)
    rcases step_bid (c := c) (v := y.2) hx hap with e | ⟨x1, e⟩
    · have := ih hr hx hs hl' hb hold hpay
      rw [← e] at this
      simpa [Spec.bidding, run, e] using this
    · have hfin : w.now ≤ x.fin → x1.fin = x.fin ∨ x1.fin = max x.fin (w.now + c.grace) := by
        intro hw; rw [e.fin]; split <;> omega
      obtain ⟨x', g⟩ := ih hr' e.get (by rw [e.start, e.now]; exact hs) hl'
        (fun z hz => by rcases e.mem z hz with h | rfl; exacts [hb z h, h3])
        (hold.imp (fun h z hz => by rcases e.mem z hz with h' | rfl; exacts [h z h', h2]) hcov)
        (by
          unfold Spec.CanPay Spec.locked at hpay ⊢
          rw [e.free a h2.symm hap', e.locks.1, e.locks.2]; exact hpay)
      refine ⟨x', g.1, g.2.1, by rw [g.2.2.1, e.creator], g.2.2.2.1, by rw [g.2.2.2.2.1, e.price], g.2.2.2.2.2.1,
        g.2.2.2.2.2.2.1, g.2.2.2.2.2.2.2.1, by rw [← e.now]; exact g.2.2.2.2.2.2.2.2.1, fun hw => ?_⟩
      have h4 := hfin hw
      have h5 := g.2.2.2.2.2.2.2.2.2 (by rw [e.now]; omega)
      rw [e.now] at h5
      omega

/-- After it: no bid that is not higher changes anything. -/
theorem Rivals.after (l : List (AccountId × Balance)) (hx : w.auc.auctions.get n = some x) (hb : x.bids.getLast? = some (a, v))
    (hl : ∀ y ∈ l, ¬ c.pot y.1 ∧ y.2 ≤ v) : run c w (Spec.bidding n l) = w := by
  induction l with
  | nil => rfl
  | cons y l ih =>
    obtain ⟨h1, h2⟩ := hl y List.mem_cons_self
    have hap : y.1 ≠ c.aucPot := fun e => h1 (e ▸ Cfg.pot_auc)
    have e : step c w (.call (.signed y.1) (.auc (.addBid n y.2))) = w := by
      rcases step_bid (c := c) (v := y.2) hx hap with e | ⟨x1, e⟩
      · exact e
      · have := e.beats
        rw [AucM.beats, hb] at this
        simp at this; omega
    show run c (step c w (.call (.signed y.1) (.auc (.addBid n y.2)))) (Spec.bidding n l) = w
    rw [e]
    exact ih fun z hz => hl z (List.mem_cons_of_mem _ hz)
