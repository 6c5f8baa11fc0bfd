import Verif.Props.Make
/-
Properties C69–C70: buying, bidding, and closing an auction.
-/
variable {c : Cfg} {w w' : World} {a : AccountId}
set_option maxRecDepth 10000

/-- payments of the three shares of a sale are possible: nobody is left with less than an existential
deposit -/
structure Spec.Payable (c : Cfg) (w : World) (k : Mkt) (d : NFTData) (seller : AccountId)
    (m r rest : Balance) : Prop where
  market : Spec.CanGet c w k.owner m
  creator : Spec.CanGet c w d.creator r
  seller : Spec.CanGet c w seller rest

/- C69 -/

/-- What holds of C69: whoever can pay the price of a listed NFT can buy it, provided no share is too
small for the account that gets it.  Missing: shares below the existential deposit for accounts that do
not exist. -/
theorem C69_partial (hc : c.Ok) (hr : Reach c w) {n : NFTId} {s : Sale} (h : w.mkt.sales.get n = some s)
    (ha : a ≠ s.seller) (hpay : Spec.CanPay c w a s.price)
    (hg : ∀ d k m r rest, w.nfts.get n = some d → w.mkt.mkts.get s.mkt = some k →
      Spec.Shares s.price s.commission d m r rest → Spec.Payable c w k d s.seller m r rest) :
    ∃ w' d, dispatch c (.mkt (.buy n s.price)) (.signed a) w = .ok w' ∧ w.nfts.get n = some d ∧
      w'.nfts.get n = some { d with owner := a, st := { d.st with listed := false } } := by
  obtain ⟨hcm, hk⟩ := C15_commission hr h
  obtain ⟨k, hk⟩ := Option.ne_none_iff_exists'.1 hk
  obtain ⟨d, hd⟩ := ((hr.inv hc).good n).some_of (fun e => by
      have := congrArg Slice.sale e; simp [slice, Slice.blank, h] at this)
  have hle := d.royalty.mul_le (s.price - Spec.commission s.price s.commission)
  obtain ⟨g1, g2, g3⟩ := hg d k _ _ (s.price - Spec.commission s.price s.commission -
    d.royalty.mul (s.price - Spec.commission s.price s.commission)) hd hk ⟨rfl, rfl, by omega⟩
  rw [Spec.canPay_iff] at hpay
  have hpos : s.price ≤ w.bal.freeOf a := by omega
  obtain ⟨b1, b2, b3, t1, t2, t3⟩ := Bal.three_pays (b := w.bal) (s := a) (ed := c.ed) (by omega)
    (g1.imp_right Or.inr) (g2.imp_right Or.inr) (g3.imp_right Or.inr)
  rw [Spec.commission_eq] at t1 t2 t3 hcm hle
  obtain ⟨w', h'⟩ : ∃ w', dispatch c (.mkt (.buy n s.price)) (.signed a) w = .ok w' := by
    split_ok [MktM.call, MktM.buy]
    exact ⟨_, d, hd, s, h, k, hk, ha.symm, rfl, hpos, b1, t1, hcm, b2, t2, hle, b3, t3, rfl⟩
  obtain ⟨d', _, _, _, _, _, hd', _, _, _, _, _, _, _, _, _, _, h2, h3⟩ := C15 h'
  obtain rfl : d' = d := Option.some.inj (hd'.symm.trans hd)
  exact ⟨w', d', h', hd', h2⟩

example : ∃ w', dispatch Demo.cfg (.mkt (.buy 0 1000)) (.signed 2) (Demo.at_ listed) = .ok w' := by
  obtain ⟨w', d, h, _⟩ := C69_partial (n := 0) (s := ⟨1, 0, 1000, some (.percentage ⟨100000, by omega⟩)⟩)
    (a := 2) Demo.cfg_ok (Demo.reach listed (by decide)) rfl (by decide) (by unfold Spec.CanPay; decide) (by
      rintro d k m r rest h1 h2 -
      have e1 : (Demo.at_ listed).nfts.get 0 = some { fresh with st := { fresh.st with listed := true } } := rfl
      rw [e1] at h1; simp only [Option.some.injEq] at h1; subst h1
      have e2 : ((Demo.at_ listed).mkt.mkts.get 0).map (·.owner) = some 3 := rfl
      rw [h2] at e2; simp only [Option.map_some, Option.some.injEq] at e2
      refine ⟨Or.inr ?_, Or.inr ?_, Or.inr ?_⟩
      · rw [e2]; exact Nat.le_trans (by decide) (Nat.le_add_right _ _)
      · exact Nat.le_trans (by decide) (Nat.le_add_right _ _)
      · exact Nat.le_trans (by decide) (Nat.le_add_right _ _))
  exact ⟨w', h⟩

/-- as `listed`, but the commission is 5 and the marketplace has been given to an account that does not
exist -/
abbrev ghost : List Op :=
  [Demo.mint1, Demo.by_ 3 (.mkt (.create .pub)),
   Demo.by_ 3 (.mkt (.setConfig 0 (.set (.flat 5)) .noop .noop .noop .noop)),
   Demo.by_ 3 (.mkt (.setOwner 0 50)), Demo.by_ 1 (.mkt (.list 0 0 1000))]

/-- The claim of C69 is false of the code: a commission below the existential deposit for an account
that does not exist stops every purchase, however rich the buyer. -/
theorem C69_fails : Reach Demo.cfg (Demo.at_ ghost) ∧
    (Demo.at_ ghost).mkt.sales.get 0 = some ⟨1, 0, 1000, some (.flat 5)⟩ ∧
    Spec.CanPay Demo.cfg (Demo.at_ ghost) 2 1000 ∧
    ∀ w', dispatch Demo.cfg (.mkt (.buy 0 1000)) (.signed 2) (Demo.at_ ghost) ≠ .ok w' := by
  refine ⟨Demo.reach _ (by decide), by decide, by unfold Spec.CanPay; decide, fun w' h => ?_⟩
  have : (dispatch Demo.cfg (.mkt (.buy 0 1000)) (.signed 2) (Demo.at_ ghost)).isOk = false := by decide
  rw [h] at this; simp [Except.isOk, Except.toBool] at this

/- C70 -/

/-- the standing bid of `a` -/
def Spec.standing (x : Auction) (a : AccountId) : Balance :=
  ((x.bids.find? fun y => decide (y.1 = a)).map Prod.snd).getD 0

theorem Spec.standing_eq {x : Auction} : Spec.standing x a = (AucM.findBid a x.bids).getD 0 := by
  unfold Spec.standing
  congr 1
  induction x.bids with
  | nil => rfl
  | cons y t ih =>
    obtain ⟨u, v⟩ := y
    by_cases h : u = a <;> simp [AucM.findBid, h, ih]

/-- A running auction takes every bid above the highest one (or above the start price), from everybody
but its creator who can pay the difference to their standing bid; exactly this difference is moved.  Missing: raising
a bid while the pot does not cover what it owes (`C20_partial`), see `C70_fails_bid`. -/
theorem C70_bid_partial (hc : c.Ok) (hr : Reach c w) {n : NFTId} {x : Auction} {v : Balance}
    (h : w.auc.auctions.get n = some x) (ha : a ≠ x.creator) (hs : x.start ≤ w.now)
    (hv : c.ed < v ∧ x.startPrice < v) (hb : ∀ y ∈ x.bids, y.2 < v)
    (hold : Spec.standing x a = 0 ∨ Spec.Covered c 0 w)
    (hpay : Spec.CanPay c w a (v - Spec.standing x a)) :
    ∃ w' x', dispatch c (.auc (.addBid n v)) (.signed a) w = .ok w' ∧
      Spec.Moved w.bal w'.bal a c.aucPot (v - Spec.standing x a) ∧
      w'.auc.auctions.get n = some x' ∧ x'.bids.getLast? = some (a, v) := by
  have hi := hr.auc hc
  have ho := hi.ok n x h
  rw [Spec.standing_eq] at hold hpay ⊢
  have hbeat : AucM.beats x v = true := by
    unfold AucM.beats
    cases hl : x.bids.getLast? with
    | none => simpa using hv.2
    | some t => simpa using hb t (List.mem_of_getLast? hl)
  obtain ⟨b, hb'⟩ : ∃ b, w.bal.transfer c.ed a c.aucPot (v - (AucM.findBid a x.bids).getD 0) .keepAlive = .ok b := by
    refine Bal.transfer_pays hpay (Or.inr (Or.inr ?_))
    cases hf : AucM.findBid a x.bids with
    | none => simp; omega
    | some u =>
      have hu := (AucM.findBid_iff ho.one).1 hf
      have hlt := hb _ hu
      have h1 : u ≤ (x.bids.map Prod.snd).sum := AucM.mem_le_sum (List.mem_map.2 ⟨(a, u), hu, rfl⟩)
      have h2 := FMap.sumBy_le_of_get (f := fun _ (x : Auction) => (x.bids.map Prod.snd).sum) h
      have h3 := (ho.bid _ hu).2.2.1
      simp only at hlt h2 h3
      rw [hf] at hold
      rcases hold with hold | hold
      · simp at hold; omega
      · unfold Spec.Covered Spec.owed at hold
        simp; omega
  obtain ⟨l, hl⟩ := AucM.insertBid_no_panic (c := c) hc (l := AucM.removeBid a x.bids) (a := a) (v := v)
  obtain ⟨q, hq⟩ : ∃ q, AucM.updateDeadline c w.auc.deadlines n
      (AucM.extend c { x with bids := l.2 } w.now).2 = .ok q := by
    cases (AucM.extend c { x with bids := l.2 } w.now).2 with
    | none => exact ⟨_, rfl⟩
    | some e => exact Queue.update_no_panic hi.len
  obtain ⟨w', h'⟩ : ∃ w', dispatch c (.auc (.addBid n v)) (.signed a) w = .ok w' := by
    split_ok [AucM.call, AucM.addBid]
    exact ⟨_, x, h, ha.symm, hs, hv.1, hbeat, b, hb', l, hl, q, hq, rfl⟩
  obtain ⟨x0, x', hx0, hx', _, _, _, _, hlast, _⟩ := C19_highest hc hr h'
  refine ⟨w', x', h', ?_, hx', hlast⟩
  cases auc_act h' with
  | @addBid _ _ y b2 dr l q hy h1 h2 h3 h4 h5 h6 h7 =>
    obtain rfl : y = x := Option.some.inj (hy.symm.trans h)
    exact .of h5

/-- a raise by account 4, who stands at 300 -/
example : ∃ w', dispatch Demo.cfg (.auc (.addBid 0 700)) (.signed 4) (Demo.at_ auctioned) = .ok w' := by
  have ⟨x, hx⟩ : ∃ x, (Demo.at_ auctioned).auc.auctions.get 0 = some x := ⟨_, rfl⟩
  have e : ((Demo.at_ auctioned).auc.auctions.get 0).map
      (fun x => (x.creator, x.start, x.startPrice, x.bids)) = some (1, 0, 100, [(4, 300), (2, 400)]) := by decide
  rw [hx] at e
  simp only [Option.map_some, Option.some.injEq, Prod.mk.injEq] at e
  obtain ⟨e1, e2, e3, e4⟩ := e
  have e5 : Spec.standing x 4 = 300 := by simp [Spec.standing, e4]
  obtain ⟨w', _, h, _⟩ := C70_bid_partial (c := Demo.cfg) (v := 700) (a := 4) Demo.cfg_ok
    (Demo.reach auctioned (by decide)) hx (by rw [e1]; decide) (by rw [e2]; decide) (by rw [e3]; decide)
    (by rw [e4]; decide) (Or.inr (by unfold Spec.Covered; decide)) (by rw [e5]; unfold Spec.CanPay; decide)
  exact ⟨w', h⟩

/-- What holds of the second part of C70: whoever can pay the buy-it-now price can end a running auction
with it, unless the highest bid has reached it, provided no share is too small for the account that gets
it. -/
theorem C70_buy_partial (hc : c.Ok) (hr : Reach c w) {n : NFTId} {x : Auction} {p : Balance}
    (h : w.auc.auctions.get n = some x) (hp : x.buyIt = some p) (ha : a ≠ x.creator) (hap : a ≠ c.aucPot)
    (hs : x.start ≤ w.now) (hb : ∀ y ∈ x.bids, y.2 < p) (hpay : Spec.CanPay c w a p)
    (hg : ∀ d k f m r rest, w.nfts.get n = some d → w.mkt.mkts.get x.mkt = some k → w.auc.comm.get n = some f →
      Spec.Shares p f d m r rest → Spec.Payable c w k d x.creator m r rest) :
    ∃ w' d, dispatch c (.auc (.buyItNow n p)) (.signed a) w = .ok w' ∧ w.nfts.get n = some d ∧
      w'.nfts.get n = some { d with owner := a, st := { d.st with listed := false } } := by
  have hok := (hr.auc hc).ok n x h
  obtain ⟨d, hd⟩ := AucM.HasNft.of_good (hr.inv hc).good n x h
  obtain ⟨k, hk⟩ := Option.ne_none_iff_exists'.1 hok.mkt
  obtain ⟨f, hf, _⟩ := hok.comm
  have hle : Spec.commission p f ≤ p := by
    rw [Spec.commission_eq]; exact hok.cuts (by have := hok.buy p (by rw [hp]; simp); omega) hf
  have hrl := d.royalty.mul_le (p - Spec.commission p f)
  obtain ⟨g1, g2, g3⟩ := hg d k f _ _ (p - Spec.commission p f - d.royalty.mul (p - Spec.commission p f))
    hd hk hf ⟨rfl, rfl, by omega⟩
  rw [Spec.canPay_iff] at hpay
  obtain ⟨b1, b2, b3, t1, t2, t3⟩ := Bal.three_pays (b := w.bal) (s := a) (ed := c.ed) (by omega)
    (g1.imp_right Or.inr) (g2.imp_right Or.inr) (g3.imp_right Or.inr)
  rw [Spec.commission_eq] at t1 t2 t3
  have hpf : AucM.payForNftExt c w n a p d x = .ok b3 := by
    simp [AucM.payForNftExt, AucM.payForNft, hk, hf, AucM.cuts, AucM.paySeq, hap, t1, t2, t3]
  obtain ⟨w', h'⟩ : ∃ w', dispatch c (.auc (.buyItNow n p)) (.signed a) w = .ok w' := by
    split_ok [AucM.call, AucM.buyItNow]
    exact ⟨_, d, hd, x, h, p, hp, rfl, ha.symm, hs, fun y hy => hb y (List.mem_of_getLast? hy), b3, hpf, rfl⟩
  obtain ⟨d', _, hd', _, _, _, _, h2⟩ := C21_buy hc hr h'
  obtain rfl : d' = d := Option.some.inj (hd'.symm.trans hd)
  exact ⟨w', d', h', hd', h2⟩

/-- the hypothesis on the shares, on the concrete chains: all three parties exist -/
theorem auctioned_payable {l : List Op} (h1 : ((Demo.at_ l).mkt.mkts.get 0).map (·.owner) = some 3)
    (h2 : ((Demo.at_ l).nfts.get 0).map (·.creator) = some 1) (h3 : 10 ≤ (Demo.at_ l).bal.freeOf 3)
    (h4 : 10 ≤ (Demo.at_ l).bal.freeOf 1) {d : NFTData} {k : Mkt} {m r rest : Balance}
    (hd : (Demo.at_ l).nfts.get 0 = some d) (hk : (Demo.at_ l).mkt.mkts.get 0 = some k) :
    Spec.Payable Demo.cfg (Demo.at_ l) k d 1 m r rest := by
  rw [hk] at h1; rw [hd] at h2
  simp only [Option.map_some, Option.some.injEq] at h1 h2
  refine ⟨Or.inr ?_, Or.inr ?_, Or.inr ?_⟩
  · rw [h1]; exact Nat.le_trans h3 (Nat.le_add_right _ _)
  · rw [h2]; exact Nat.le_trans h4 (Nat.le_add_right _ _)
  · exact Nat.le_trans h4 (Nat.le_add_right _ _)

example : ∃ w', dispatch Demo.cfg (.auc (.buyItNow 0 5000)) (.signed 4) (Demo.at_ auctioned) = .ok w' := by
  obtain ⟨w', _, h, _⟩ := C70_buy_partial (c := Demo.cfg) (n := 0) (p := 5000) (a := 4)
    (x := ⟨1, 0, 10, 100, some 5000, [(4, 300), (2, 400)], 0, false⟩) Demo.cfg_ok
    (Demo.reach auctioned (by decide)) rfl rfl (by decide) (by decide) (by decide) (by decide)
    (by unfold Spec.CanPay; decide)
    (fun _ _ _ _ _ _ hd hk _ _ => auctioned_payable rfl rfl (by decide) (by decide) hd hk)
  exact ⟨w', h⟩

/-- What holds of the third part of C70: the creator of an extended auction with a bid can end it at once,
provided the pot has the highest bid and an existential deposit (by `C20_partial` this is so if any other
bid or refund stands), and no share is too small for the account that gets it. -/
theorem C70_end_partial (hc : c.Ok) (hr : Reach c w) {n : NFTId} {x : Auction} {top : AccountId × Balance}
    (h : w.auc.auctions.get n = some x) (he : x.extended = true) (ht : x.bids.getLast? = some top)
    (hs : top.2 + c.ed ≤ w.bal.freeOf c.aucPot)
    (hg : ∀ d k f m r rest, w.nfts.get n = some d → w.mkt.mkts.get x.mkt = some k → w.auc.comm.get n = some f →
      Spec.Shares top.2 f d m r rest → Spec.Payable c w k d x.creator m r rest) :
    ∃ w' d, dispatch c (.auc (.end_ n)) (.signed x.creator) w = .ok w' ∧ w.nfts.get n = some d ∧
      w'.nfts.get n = some { d with owner := top.1, st := { d.st with listed := false } } := by
  have hok := (hr.auc hc).ok n x h
  obtain ⟨d, hd⟩ := AucM.HasNft.of_good (hr.inv hc).good n x h
  obtain ⟨k, hk⟩ := Option.ne_none_iff_exists'.1 hok.mkt
  obtain ⟨f, hf, _⟩ := hok.comm
  have hb := hok.bid top (List.mem_of_getLast? ht)
  have hle : Spec.commission top.2 f ≤ top.2 := by
    rw [Spec.commission_eq]; exact hok.cuts (by omega) hf
  have hrl := d.royalty.mul_le (top.2 - Spec.commission top.2 f)
  obtain ⟨g1, g2, g3⟩ := hg d k f _ _
    (top.2 - Spec.commission top.2 f - d.royalty.mul (top.2 - Spec.commission top.2 f))
    hd hk hf ⟨rfl, rfl, by omega⟩
  obtain ⟨b1, b2, b3, t1, t2, t3⟩ := Bal.three_pot (b := w.bal) (s := c.aucPot) (ed := c.ed)
    (hr.micro.balInv.pots _ Cfg.pot_auc) (by omega)
    (g1.imp_right Or.inr) (g2.imp_right Or.inr) (g3.imp_right Or.inr)
  rw [Spec.commission_eq] at t1 t2 t3
  have hpf : AucM.payForNftExt c w n c.aucPot top.2 d x = .ok b3 := by
    simp [AucM.payForNftExt, AucM.payForNft, hk, hf, AucM.cuts, AucM.paySeq, t1, t2, t3]
  obtain ⟨w', h'⟩ : ∃ w', dispatch c (.auc (.end_ n)) (.signed x.creator) w = .ok w' := by
    split_ok [AucM.call, AucM.end_]
    exact ⟨_, d, hd, x, h, rfl, he, top, ht, b3, hpf, rfl⟩
  obtain ⟨d', x', top', hd', hx', ht', _, _, h2⟩ := C21_end hc hr h'
  obtain rfl : d' = d := Option.some.inj (hd'.symm.trans hd)
  obtain rfl : x' = x := Option.some.inj (hx'.symm.trans h)
  obtain rfl : top' = top := Option.some.inj (ht'.symm.trans ht)
  exact ⟨w', d', h', hd', h2⟩

/-- the auction of `auctioned` at block 8, extended by a bid of account 5 -/
abbrev extended : List Op := auctioned ++ blocks 8 ++ [Demo.by_ 5 (.auc (.addBid 0 500))]

example : ∃ w', dispatch Demo.cfg (.auc (.end_ 0)) (.signed 1) (Demo.at_ extended) = .ok w' := by
  obtain ⟨w', _, h, _⟩ := C70_end_partial (c := Demo.cfg) (n := 0) (top := (5, 500))
    (x := ⟨1, 0, 13, 100, some 5000, [(2, 400), (5, 500)], 0, true⟩) Demo.cfg_ok
    (Demo.reach extended (by decide)) rfl rfl rfl (by decide)
    (fun _ _ _ _ _ _ hd hk _ _ => auctioned_payable rfl rfl (by decide) (by decide) hd hk)
  exact ⟨w', h⟩

/-- as `doomed`, with the only bid shortly before the end -/
abbrev doomedLate : List Op := doomed.take 4 ++ blocks 8 ++ [Demo.by_ 2 (.auc (.addBid 0 100))]

/-- C70 fails for raising a bid: the payout of the auction has aborted and emptied the pot (`C20_fails`), so a raise
by less than the existential deposit is refused. -/
theorem C70_fails_bid : Reach Demo.cfg (Demo.at_ (doomed ++ blocks 12)) ∧
    ((Demo.at_ (doomed ++ blocks 12)).auc.auctions.get 0).map (fun x => (x.creator, x.start, x.bids)) =
      some (1, 0, [(2, 100)]) ∧
    Spec.CanPay Demo.cfg (Demo.at_ (doomed ++ blocks 12)) 2 5 ∧
    ∀ w', dispatch Demo.cfg (.auc (.addBid 0 105)) (.signed 2) (Demo.at_ (doomed ++ blocks 12)) ≠ .ok w' := by
  refine ⟨Demo.reach _ (by decide), by decide, by unfold Spec.CanPay; decide, fun w' h => ?_⟩
  have : (dispatch Demo.cfg (.auc (.addBid 0 105)) (.signed 2) (Demo.at_ (doomed ++ blocks 12))).isOk = false := by
    decide
  rw [h] at this; simp [Except.isOk, Except.toBool] at this

/-- The claim of C70 is false of the code: although the pot covers all it owes and all parties exist, the
creator cannot end the auction, because paying the commission leaves less than the existential deposit in
the pot, which is then lost. -/
theorem C70_fails : Reach Demo.cfg (Demo.at_ doomedLate) ∧
    (Demo.at_ doomedLate).auc.auctions.get 0 = some ⟨1, 0, 13, 95, none, [(2, 100)], 0, true⟩ ∧
    Spec.Covered Demo.cfg 0 (Demo.at_ doomedLate) ∧
    ∀ w', dispatch Demo.cfg (.auc (.end_ 0)) (.signed 1) (Demo.at_ doomedLate) ≠ .ok w' := by
  refine ⟨Demo.reach _ (by decide), by decide, by unfold Spec.Covered; decide, fun w' h => ?_⟩
  have : (dispatch Demo.cfg (.auc (.end_ 0)) (.signed 1) (Demo.at_ doomedLate)).isOk = false := by decide
  rw [h] at this; simp [Except.isOk, Except.toBool] at this
