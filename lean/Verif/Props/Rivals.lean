import Verif.Proofs.Rivals
/-
C132: the order in which bids arrive does not decide who wins.
-/
variable {c : Cfg} {w : World} {n : NFTId} {x : Auction} {a : AccountId} {v : Balance}

/-- C132: accounts bid for an NFT in any order.  The highest bid, or the first of the highest, leads the auction afterwards,
whoever else bids what, provided its bidder can pay it; and if the auction was not overdue, it has been extended as by a single
bid. -/
theorem C132 (hc : c.Ok) (hr : Reach c w) {l r : List (AccountId × Balance)} (hx : w.auc.auctions.get n = some x)
    (hs : x.start ≤ w.now) (hl : ∀ y ∈ l, ¬ c.pot y.1 ∧ y.1 ≠ a ∧ y.2 < v) (hr' : ∀ y ∈ r, ¬ c.pot y.1 ∧ y.2 ≤ v)
    (ha : ¬ c.pot a) (hac : a ≠ x.creator) (hv : c.ed < v ∧ x.startPrice < v) (hb : ∀ y ∈ x.bids, y.2 < v)
    (hold : (∀ y ∈ x.bids, y.1 ≠ a) ∨ Spec.Covered c 0 w) (hpay : Spec.CanPay c w a v) :
    ∃ x', (run c w (Spec.bidding n (l ++ (a, v) :: r))).auc.auctions.get n = some x' ∧ x'.bids.getLast? = some (a, v) ∧
      (w.now ≤ x.fin → x'.fin = max x.fin (w.now + c.grace)) := by
  obtain ⟨x1, g1, g2, g3, g4, g5, g6, g7, g8, g9, g10⟩ := Rivals.before hc l hr hx hs hl ha hb hold hpay
  have e : Spec.bidding n (l ++ (a, v) :: r) =
      Spec.bidding n l ++ .call (.signed a) (.auc (.addBid n v)) :: Spec.bidding n r := by simp [Spec.bidding]
  rw [e, run_append]
  generalize run c w (Spec.bidding n l) = w1 at *
  have hap : a ≠ c.aucPot := fun e => ha (e ▸ Cfg.pot_auc)
  obtain ⟨w2, x2, h1, -, h2, h3⟩ := C70_bid_partial hc g1 g2 (by rw [g3]; exact hac) g4 (by rw [g5]; exact hv) g6
    (g7.imp_left fun h => by
      rw [Spec.standing, List.find?_eq_none.2 (fun y hy => by simpa using h y hy)]; rfl)
    (by unfold Spec.CanPay at g8 ⊢; omega)
  have hstep : step c w1 (.call (.signed a) (.auc (.addBid n v))) = w2 := by simp only [step, h1, orSame]
  obtain ⟨x3, h4⟩ := AucM.addBid_outbid g2 hap h1
  obtain rfl : x3 = x2 := Option.some.inj (h4.get.symm.trans h2)
  refine ⟨x3, ?_, h3, fun hw => ?_⟩
  · show (run c (step c w1 _) _).auc.auctions.get n = _
    rw [hstep, Rivals.after r h2 h3 hr']
    exact h2
  · have := g10 hw
    rw [h4.fin, g9]
    split <;> omega

/-- C132: of two orders of the same bids, with one highest among them, both have the same outcome: the same leader with the same
bid, and the same end. -/
theorem C132_orders (hc : c.Ok) (hr : Reach c w) {l l' : List (AccountId × Balance)} (hp : l.Perm l')
    (hx : w.auc.auctions.get n = some x) (hs : x.start ≤ w.now) (hw : w.now ≤ x.fin) (ht : (a, v) ∈ l)
    (hl : ∀ y ∈ l, ¬ c.pot y.1 ∧ (y ≠ (a, v) → y.1 ≠ a ∧ y.2 < v)) (hac : a ≠ x.creator) (hv : c.ed < v ∧ x.startPrice < v)
    (hb : ∀ y ∈ x.bids, y.2 < v) (hold : (∀ y ∈ x.bids, y.1 ≠ a) ∨ Spec.Covered c 0 w) (hpay : Spec.CanPay c w a v) :
    ∃ x1 x2, (run c w (Spec.bidding n l)).auc.auctions.get n = some x1 ∧
      (run c w (Spec.bidding n l')).auc.auctions.get n = some x2 ∧ x1.bids.getLast? = some (a, v) ∧
      x2.bids.getLast? = some (a, v) ∧ x1.fin = x2.fin := by
  have key : ∀ l : List (AccountId × Balance), (a, v) ∈ l → (∀ y ∈ l, ¬ c.pot y.1 ∧ (y ≠ (a, v) → y.1 ≠ a ∧ y.2 < v)) →
      ∃ x', (run c w (Spec.bidding n l)).auc.auctions.get n = some x' ∧ x'.bids.getLast? = some (a, v) ∧
        (w.now ≤ x.fin → x'.fin = max x.fin (w.now + c.grace)) := by
    intro l ht hl
    obtain ⟨p, q, rfl, hp⟩ := List.eq_append_cons_of_mem ht
    refine C132 hc hr hx hs (fun y hy => ?_) (fun y hy => ?_) (hl (a, v) ht).1 hac hv hb hold hpay
    · have := hl y (by simp [hy])
      exact ⟨this.1, this.2 fun e => hp (e ▸ hy)⟩
    · have := hl y (by simp [hy])
      by_cases e : y = (a, v)
      · exact ⟨this.1, by rw [e]; exact Nat.le_refl v⟩
      · exact ⟨this.1, by have := (this.2 e).2; omega⟩
  obtain ⟨x1, h1, h2, h3⟩ := key l ht hl
  obtain ⟨x2, h4, h5, h6⟩ := key l' (hp.mem_iff.1 ht) fun y hy => hl y (hp.mem_iff.2 hy)
  exact ⟨x1, x2, h1, h4, h2, h5, by rw [h3 hw, h6 hw]⟩

/-- C132: nobody gains or loses by the order: what an account has, what it has bid and what it can claim back add up to the same
after any bids. -/
theorem C132_wealth (hc : c.Ok) (hr : Reach c w) (n : NFTId) (l : List (AccountId × Balance)) (hl : ∀ y ∈ l, ¬ c.pot y.1)
    (y : AccountId) (hy : ¬ c.pot y) :
    (run c w (Spec.bidding n l)).bal.freeOf y + Spec.stakeOf (run c w (Spec.bidding n l)) y = w.bal.freeOf y + Spec.stakeOf w y := by
  induction l generalizing w with
  | nil => rfl
  | cons z l ih =>
    have h1 := hl z List.mem_cons_self
    have hap : z.1 ≠ c.aucPot := fun e => h1 (e ▸ Cfg.pot_auc)
    have hyp : y ≠ c.aucPot := fun e => hy (e ▸ Cfg.pot_auc)
    let o : Op := .call (.signed z.1) (.auc (.addBid n z.2))
    have ho : o.Ok c := h1
    show (run c (step c w o) (Spec.bidding n l)).bal.freeOf y + Spec.stakeOf (run c (step c w o) (Spec.bidding n l)) y = _
    rw [ih (hr.step o ho) fun z hz => hl z (List.mem_cons_of_mem _ hz)]
    rcases h : dispatch c (.auc (.addBid n z.2)) (.signed z.1) w with _ | w'
    · rw [show step c w o = w by simp only [step, o, h, orSame]]
    · rw [show step c w o = w' by simp only [step, o, h, orSame]]
      have hact := auc_act h
      have hst := hact.stake (P := fun u => decide (u = y)) (hr.inv hc).good
      rw [Spec.stakeOf_eq, Spec.stakeOf_eq]
      generalize AucM.stake (fun u => decide (u = y)) w'.auc = S at *
      cases hact with
      | @addBid _ _ x b dr l q hx h1 h2 h3 h4 h5 h6 h7 =>
        obtain ⟨x', e1, e3⟩ := hst
        rw [hx] at e1; simp at e1; subst e1
        have hk := Bal.transfer_keep h5 y hap
        rw [if_neg hyp] at hk
        have hok := (hr.auc hc).ok n x hx
        have hm := AucM.beats_max h4 hok.ladder fun y hy => (hok.bid y hy).2.1
        have hle : (AucM.findBid z.1 x.bids).getD 0 ≤ z.2 := by
          cases hf : AucM.findBid z.1 x.bids with
          | none => simp
          | some u => have := hm.2 _ (AucM.findBid_mem hf); simp; omega
        show b.freeOf y + S = _
        by_cases e : z.1 = y
        · subst e
          have hb := Bal.transfer_le h5 hap
          rw [if_pos rfl] at hk
          simp only [AucM.wt1, decide_true, if_true] at e3
          omega
        · rw [if_neg (Ne.symm e)] at hk
          simp [AucM.wt1, e] at e3
          omega

/-- Three accounts bid for the NFT of account 1, where 4 stands at 300 and 2 at 400: whatever the order, 5 leads with 900. -/
abbrev Demo.rivals : List (AccountId × Balance) := [(3, 500), (5, 900), (2, 700)]

example :
    let w := Demo.at_ auctioned
    ∃ x, w.auc.auctions.get 0 = some x ∧ x.start ≤ w.now ∧ w.now ≤ x.fin ∧ 5 ≠ x.creator ∧ x.startPrice < 900 ∧
      (∀ y ∈ x.bids, y.2 < 900) ∧ (∀ y ∈ x.bids, y.1 ≠ 5) ∧ Spec.CanPay Demo.cfg w 5 900 ∧ Demo.cfg.ed < 900 ∧
      (∀ y ∈ Demo.rivals, ¬ Demo.cfg.pot y.1 ∧ (y ≠ (5, 900) → y.1 ≠ 5 ∧ y.2 < 900)) := by
  refine ⟨_, rfl, ?_⟩
  unfold Spec.CanPay
  decide +kernel

/-- … but who stands below the leader depends on the order: 700 is refused after 900. -/
example :
    ((run Demo.cfg (Demo.at_ auctioned) (Spec.bidding 0 Demo.rivals)).auc.auctions.get 0).map (·.bids.getLast?) =
        some (some (5, 900)) ∧
      ((run Demo.cfg (Demo.at_ auctioned) (Spec.bidding 0 Demo.rivals.reverse)).auc.auctions.get 0).map (·.bids.getLast?) =
        some (some (5, 900)) ∧
      ((run Demo.cfg (Demo.at_ auctioned) (Spec.bidding 0 Demo.rivals)).auc.auctions.get 0).map (·.bids) ≠
        ((run Demo.cfg (Demo.at_ auctioned) (Spec.bidding 0 Demo.rivals.reverse)).auc.auctions.get 0).map (·.bids) := by
  decide +kernel

/-- account 4 keeps its 300, as a bid or to claim back -/
example : Spec.stakeOf (Demo.at_ auctioned) 4 = 300 ∧
    Spec.stakeOf (run Demo.cfg (Demo.at_ auctioned) (Spec.bidding 0 Demo.rivals)) 4 = 300 := by
  decide +kernel
