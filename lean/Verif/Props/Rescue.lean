import Verif.Proofs.Rescue
/-
C136: what can be done about an auction whose payout failed.
-/
variable {c : Cfg} {w w' : World} {a : AccountId}
set_option maxRecDepth 10000

/-- somebody gives the pallet's account an existential deposit and outbids everybody; the creator ends the auction -/
def Spec.rescue (c : Cfg) (n : NFTId) (creator a : AccountId) (v : Balance) : List Op :=
  [.call (.signed a) (.bal c.aucPot c.ed .keepAlive), .call (.signed a) (.auc (.addBid n v)),
   .call (.signed creator) (.auc (.end_ n))]

/-- C136: an auction that the hook left unsettled is not lost.  Whoever has no bid in it and can pay an existential deposit and
a bid above all others, with shares the payees can take, gets the NFT by three calls; nobody else's bids and refunds change. -/
theorem C136_rescue (hc : c.Ok) (hr : Reach c w) (hg : 0 < c.grace) {n : NFTId} {x : Auction} {v : Balance}
    (h : w.auc.auctions.get n = some x) (hn : ¬ Spec.Scheduled w n) (ha : a ≠ x.creator) (hp : ¬ c.pot a)
    (hs : Spec.standing x a = 0) (hv : c.ed < v ∧ x.startPrice < v) (hb : ∀ y ∈ x.bids, y.2 < v)
    (hpay : Spec.CanPay c w a (c.ed + v))
    (hget : ∀ d k f m r rest, w.nfts.get n = some d → w.mkt.mkts.get x.mkt = some k → w.auc.comm.get n = some f →
      Spec.Shares v f d m r rest → Spec.Payable c w k d x.creator m r rest) :
    ∃ d, w.nfts.get n = some d ∧ (run c w (Spec.rescue c n x.creator a v)).auc.auctions.get n = none ∧
      (run c w (Spec.rescue c n x.creator a v)).nfts.get n =
        some { d with owner := a, st := { d.st with listed := false } } ∧
      ∀ y, y ≠ a → Spec.stakeOf (run c w (Spec.rescue c n x.creator a v)) y = Spec.stakeOf w y := by
  have hok := (hr.auc hc).ok n x h
  have hids : n ∉ Queue.ids w.auc.deadlines := fun hm => hn (Spec.scheduled_iff.2 hm)
  have hover := hr.overdue hc n x h hids
  have hst := hok.begun (Or.inr (Or.inr hids))
  have hap : a ≠ c.aucPot := fun e => hp (e ▸ Cfg.pot_auc)
  rw [Spec.canPay_iff] at hpay
  -- the gift
  obtain ⟨b1, t1⟩ := Bal.transfer_pays (b := w.bal) (s := a) (d := c.aucPot) (v := c.ed) (ed := c.ed)
    (by omega) (Or.inr (Or.inr (by omega)))
  have e1 : step c w (.call (.signed a) (.bal c.aucPot c.ed .keepAlive)) = w.putBal b1 := by
    show orSame w ((w.bal.transfer c.ed a c.aucPot c.ed .keepAlive).map w.putBal) = _
    rw [t1]; rfl
  have r1 := hr.step (.call (.signed a) (.bal c.aucPot c.ed .keepAlive)) hp
  have k1 := C22 hc hr (.call (.signed a) (.bal c.aucPot c.ed .keepAlive)) hp
  rw [e1] at r1 k1
  have l1 := Bal.transfer_left_pays (u := v) (by omega) t1
  -- the bid
  obtain ⟨w2, x2, d2, m2, g2, top2⟩ := C70_bid_partial (a := a) (v := v) hc r1 (n := n) (x := x) h ha hst hv hb
    (Or.inl hs) (by rw [Spec.canPay_iff, hs]; exact l1)
  have e2 : step c (w.putBal b1) (.call (.signed a) (.auc (.addBid n v))) = w2 := by
    show orSame _ (dispatch c _ _ _) = _
    rw [d2]; rfl
  have r2 := r1.step (.call (.signed a) (.auc (.addBid n v))) hp
  have k2 := C22 hc r1 (.call (.signed a) (.auc (.addBid n v))) hp
  rw [e2] at r2 k2
  have hf : x2.extended = true ∧ x2.creator = x.creator ∧ x2.mkt = x.mkt ∧ w2.nfts = w.nfts ∧ w2.mkt = w.mkt ∧
      w2.auc.comm = w.auc.comm ∧ ∃ b2, w2.bal = b2 ∧ b1.transfer c.ed a c.aucPot v .keepAlive = .ok b2 := by
    cases auc_act d2 with
    | @addBid _ _ y b dr l q hy h1 h2 h3 h4 h5 h6 h7 =>
      obtain rfl : y = x := Option.some.inj (hy.symm.trans h)
      simp only [FMap.get_insert_self, Option.some.injEq] at g2
      subst g2
      rw [← Spec.standing_eq, hs] at h5
      refine ⟨AucM.extend_extended hg hover, ?_, ?_, rfl, rfl, rfl, b, rfl, h5⟩
      all_goals rw [AucM.extend_eq]; split <;> rfl
  obtain ⟨f1, f2, f3, f4, f5, f6, b2, f7, t2⟩ := hf
  -- what the accounts hold now
  have pot1 : b1.freeOf c.aucPot = w.bal.freeOf c.aucPot + c.ed := by
    rw [Bal.transfer_keep t1 _ hap]; simp
  have pot2 : b2.freeOf c.aucPot = b1.freeOf c.aucPot + v := by
    rw [Bal.transfer_keep t2 _ hap]; simp
  have keep : ∀ y u, Spec.CanGet c w y u → Spec.CanGet c w2 y u := by
    intro y u hu
    have q1 := Bal.transfer_keep t1 y hap
    have q2 := Bal.transfer_keep t2 y hap
    have q3 := Bal.transfer_left_pays (u := 0) (by omega) t2
    have q4 := Bal.transfer_keep t2 a hap
    unfold Spec.CanGet at hu ⊢
    rw [f7]
    by_cases e : y = a
    · subst e; right; omega
    · by_cases e' : y = c.aucPot
      · subst e'; omega
      · simp only [e, e', if_false] at q1 q2
        omega
  -- the end
  obtain ⟨w3, d, d3, hd, hd3⟩ := C70_end_partial hc r2 (n := n) (x := x2) (top := (a, v)) g2 f1 top2
    (by rw [f7, pot2, pot1]; show v + c.ed ≤ _; omega)
    (by
      intro d k f m r rest q1 q2 q3 q4
      rw [f4] at q1; rw [f5, f3] at q2; rw [f6] at q3; rw [f2]
      obtain ⟨p1, p2, p3⟩ := hget d k f m r rest q1 q2 q3 q4
      exact ⟨keep _ _ p1, keep _ _ p2, keep _ _ p3⟩)
  rw [f2] at d3
  have e3 : step c w2 (.call (.signed x.creator) (.auc (.end_ n))) = w3 := by
    show orSame _ (dispatch c _ _ _) = _
    rw [d3]; rfl
  have k3 := C22 hc r2 (.call (.signed x.creator) (.auc (.end_ n))) hok.creator
  rw [e3] at k3
  have er : run c w (Spec.rescue c n x.creator a v) = w3 := by
    simp only [Spec.rescue, run, e1, e2, e3]
  rw [er]
  refine ⟨d, by rw [← f4]; exact hd, ?_, hd3, ?_⟩
  · cases auc_act d3 with
    | end_ => simp
  · intro y hy
    have s1 : Spec.stakeOf (w.putBal b1) y = Spec.stakeOf w y := rfl
    have s2 : Spec.stakeOf w2 y = Spec.stakeOf (w.putBal b1) y := by
      rcases k2 y with k | ⟨m, u, p, k, _⟩ | ⟨m, p, k, _⟩ | ⟨p, k, _⟩ | ⟨m, z, u, d', _, _, k, _⟩ | ⟨k, _⟩
      · exact k
      · simp at k; exact absurd k.1.symm hy
      all_goals simp at k
    rcases k3 y with k | ⟨m, u, p, k, _⟩ | ⟨m, p, k, _⟩ | ⟨p, k, _⟩ | ⟨m, z, u, d', hz, hz2, k, _⟩ | ⟨k, _⟩
    · rw [k, s2, s1]
    · simp at k
    · simp at k
    · simp at k
    · simp at k
      obtain ⟨_, rfl⟩ := k
      rw [g2] at hz; simp at hz; subst hz
      rw [top2] at hz2; simp at hz2
      exact absurd hz2.1.symm hy
    · simp at k

/-- the auction of `doomed` is rescued by a bid of 200 -/
example : ∃ d, (Demo.at_ (doomed ++ blocks 10)).nfts.get 0 = some d ∧
    (run Demo.cfg (Demo.at_ (doomed ++ blocks 10)) (Spec.rescue Demo.cfg 0 1 4 200)).nfts.get 0 =
      some { d with owner := 4, st := { d.st with listed := false } } := by
  obtain ⟨d, h1, _, h2, _⟩ := C136_rescue (c := Demo.cfg) (w := Demo.at_ (doomed ++ blocks 10)) (a := 4) (n := 0) (v := 200)
    (x := ⟨1, 0, 10, 95, none, [(2, 100)], 0, false⟩) Demo.cfg_ok (Demo.reach _ (by decide)) (by decide) rfl
    (by rw [Spec.scheduled_iff]; decide) (by decide) (by decide) rfl (by decide) (by decide)
    (by unfold Spec.CanPay; decide)
    (fun _ _ _ _ _ _ hd hk _ _ => auctioned_payable rfl rfl (by decide) (by decide) hd hk)
  exact ⟨d, h1, h2⟩

/-- The grace period matters: without one, an auction whose payout failed and which has no direct price is never concluded,
whatever anybody does; its NFT stays locked. -/
theorem C136_stuck (hc : c.Ok) (hr : Reach c w) (hg : c.grace = 0) {n : NFTId} {x : Auction}
    (h : w.auc.auctions.get n = some x) (hn : ¬ Spec.Scheduled w n) (he : x.extended = false) (hb : x.buyIt = none)
    (l : List Op) (hl : ∀ o ∈ l, o.Ok c) :
    ∃ x' d, (run c w l).auc.auctions.get n = some x' ∧ (run c w l).nfts.get n = some d ∧ d.owner = x.creator ∧
      d.st.listed = true := by
  have hids : n ∉ Queue.ids w.auc.deadlines := fun hm => hn (Spec.scheduled_iff.2 hm)
  clear hn
  induction l generalizing w x with
  | nil =>
    obtain ⟨d, hd⟩ := AucM.HasNft.of_good (hr.inv hc).good n x h
    have g := ((hr.inv hc).good n).nft d hd
    exact ⟨x, d, h, hd, (g.creator x h).symm, g.listed.2 (Or.inr (by simp [slice, h]))⟩
  | cons o t ih =>
    obtain ⟨x', h1, h2, h3, h4, h5⟩ := step_stuck hc hr hg h hids he hb o (hl o (by simp))
    rw [← h5]
    exact ih (hr.step o (hl o (by simp))) h1 h3 h4 (fun y hy => hl y (by simp [hy])) h2

/-- the demo chain without a grace period -/
def Demo.strict : Cfg := { Demo.cfg with grace := 0 }

theorem Demo.strict_ok : Demo.strict.Ok := by constructor <;> decide

/-- there the auction of `doomed` gets stuck -/
example : Reach Demo.strict (run Demo.strict Demo.w0 (doomed ++ blocks 10)) ∧ Demo.strict.grace = 0 ∧
    ¬ Spec.Scheduled (run Demo.strict Demo.w0 (doomed ++ blocks 10)) 0 ∧
    ((run Demo.strict Demo.w0 (doomed ++ blocks 10)).auc.auctions.get 0).map (fun x => (x.extended, x.buyIt)) =
      some (false, none) := by
  have hg : Genesis Demo.strict Demo.w0 :=
    ⟨⟨Demo.genesis.bal.1, Demo.genesis.bal.2, Demo.genesis.bal.3, Demo.genesis.bal.4, Demo.genesis.bal.5⟩, rfl, Demo.genesis.nft, Demo.genesis.mkt, Demo.genesis.auc, Demo.genesis.rent, Demo.genesis.tr,
      Demo.genesis.tee, Demo.genesis.br, rfl, rfl⟩
  have hl : ∀ o ∈ doomed ++ blocks 10, o.Ok Demo.strict :=
    fun o ho => (show o.Ok Demo.cfg → o.Ok Demo.strict from by cases o <;> exact id)
      ((by decide : ∀ o ∈ doomed ++ blocks 10, o.Ok Demo.cfg) o ho)
  exact ⟨(Reach.init hg).run _ hl, rfl, by rw [Spec.scheduled_iff]; decide, by decide +kernel⟩
