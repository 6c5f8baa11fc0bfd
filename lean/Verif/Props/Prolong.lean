import Verif.Props.ProlongSpec
import Verif.Props.Trade
import Verif.Props.Exit
import Verif.Props.Config
/-
C147: what it costs to prolong an auction.
-/
open Spec

variable {c : Cfg} {w w' : World}

theorem Spec.Lasts.reach {n : NFTId} {x x' : Auction} (hr : Reach c w) (h : Lasts c n w x w' x') : Reach c w' := by
  induction h with
  | here => exact hr
  | next o _ ho _ ih => exact ih.step o ho

theorem Spec.Lasts.get {n : NFTId} {x x' : Auction} (h : Lasts c n w x w' x') : w'.auc.auctions.get n = some x' := by
  cases h with
  | here h => exact h
  | next _ _ _ h => exact h

theorem Spec.Lasts.call {n : NFTId} {x x1 x2 : Auction} {w1 w2 : World} {a : AccountId} {y : Call} (h : Lasts c n w x w1 x1)
    (ha : ¬ c.pot a) (hd : dispatch c y (.signed a) w1 = .ok w2) (hx : w2.auc.auctions.get n = some x2) :
    Lasts c n w x w2 x2 := by
  have hs : step c w1 (.call (.signed a) y) = w2 := by simp [step, hd, orSame]
  rw [← hs] at hx ⊢
  exact .next _ h ha hx

theorem Spec.price_ge (hc : c.Ok) (hr : Reach c w) {n : NFTId} {x : Auction} (h : w.auc.auctions.get n = some x) :
    x.startPrice ≤ price x := by
  unfold price
  cases hl : x.bids.getLast? with
  | none => simp
  | some t => exact Nat.le_of_lt ((C19 hc hr h).2.2.2 t (List.mem_of_getLast? hl)).2.1

theorem Spec.price_beats {x : Auction} {v : Balance} (h : AucM.beats x v = true) : price x < v := by
  unfold price AucM.beats at *
  cases hl : x.bids.getLast? with
  | none => simpa [hl] using h
  | some t => simpa [hl] using h

/-- an extended auction ends within the grace period from now -/
theorem extended_near (hc : c.Ok) (hr : Reach c w) {n : NFTId} {x : Auction} (h : w.auc.auctions.get n = some x)
    (he : x.extended = true) : x.fin ≤ w.now + c.grace := by
  induction hr generalizing x with
  | init hg => rw [hg.auc.1] at h; simp [FMap.get_empty] at h
  | @step w o hr ho ih =>
    have hn : w.now ≤ (step c w o).now := step_now_le w o
    cases h0 : w.auc.auctions.get n with
    | none =>
      obtain ⟨_, _, _, _, _, _, _, _, _, h1, _⟩ := C18_auction hc hr o ho h0 h
      rw [h1] at he; simp at he
    | some y =>
      obtain ⟨d, hd, _⟩ := C24_nft hc hr h0
      have ht := step_auc_turn hc hr o ho h0 hd
      have ih := fun e => ih h0 (x := y) e
      generalize step c w o = w' at ht h hn
      cases ht with
      | stay h1 => rw [h1] at h; simp at h; subst h; have := ih he; omega
      | withdraw h1 h2 h3 => rw [h3] at h; simp at h; subst h; have := ih he; simp only; omega
      | bid h1 h2 h3 h4 h5 =>
        rw [h5] at h; simp at h; subst h
        simp only at he ⊢
        split
        · omega
        · have := ih (by simpa [*] using he); omega
      | cancel h1 h2 => rw [h2] at h; simp at h
      | end_ h1 h2 h3 => rw [h3] at h; simp at h
      | buy h1 h2 h3 h4 h5 => rw [h5] at h; simp at h
      | won h1 h2 h3 h4 => rw [h4] at h; simp at h
      | noBid h1 h2 h3 h4 => rw [h4] at h; simp at h

namespace Prolong

/-- what holds of an auction `x` and what it has become -/
structure Inv (c : Cfg) (x x' : Auction) : Prop where
  start : x'.startPrice = x.startPrice
  before : x'.extended = false → x.extended = false ∧ x'.fin = x.fin
  cost : x'.fin ≤ x.fin + c.grace * (price x' - x.startPrice)
  low : x.extended = true → price x ≤ price x'
  high : x.extended = true → x'.fin ≤ x.fin + c.grace * (price x' - price x)

theorem grow {g a b k p q : Nat} (h : a ≤ b + g * (p - k)) (hk : k ≤ p) (hp : p < q) : a + g ≤ b + g * (q - k) := by
  have : g * (p - k) + g ≤ g * (q - k) := by
    rw [← Nat.mul_succ]; exact Nat.mul_le_mul_left _ (by omega)
  omega

theorem inv (hc : c.Ok) (hr : Reach c w) (hg : c.grace ≤ c.ending) {n : NFTId} {x x' : Auction} (h : Lasts c n w x w' x') :
    Inv c x x' := by
  induction h with
  | here h => exact ⟨rfl, fun e => ⟨e, rfl⟩, by omega, fun _ => Nat.le_refl _, fun _ => by omega⟩
  | @next w1 y y2 o hl ho h2 ih =>
    have hr1 := hl.reach hr
    have hy := hl.get
    obtain ⟨d, hd, _⟩ := C24_nft hc hr1 hy
    have ht := step_auc_turn hc hr1 o ho hy hd
    have hp := price_ge hc hr1 hy
    have hn := extended_near hc hr1 hy
    generalize step c w1 o = w2 at ht h2
    cases ht with
    | stay h1 => rw [h1] at h2; simp at h2; subst h2; exact ih
    | withdraw h1 h3 h4 =>
      rw [h4] at h2; simp at h2; subst h2
      cases he : y.extended with
      | true => have := hn he; omega
      | false =>
        obtain ⟨e1, e2⟩ := ih.before he
        exact ⟨ih.start, fun _ => ⟨e1, e2⟩, by simp only [e2]; omega, fun e => by rw [e1] at e; simp at e,
          fun e => by rw [e1] at e; simp at e⟩
    | @bid a v _ h1 h3 h4 h5 h6 =>
      rw [h6] at h2; simp at h2; subst h2
      have hv := price_beats h5
      rw [ih.start] at hp
      have key : ∀ (b : List (AccountId × Balance)) (f e : _), price { y with bids := b ++ [(a, v)], fin := f, extended := e } = v := by
        intros; simp [price]
      refine ⟨ih.start, ?_, ?_, fun e => ?_, fun e => ?_⟩
      · intro e
        simp only [Bool.or_eq_false_iff, decide_eq_false_iff_not] at e
        simp only [e.2, if_false]
        exact ih.before e.1
      · rw [key]
        have := grow ih.cost hp hv
        simp only
        split <;> omega
      · rw [key]; have := ih.low e; omega
      · rw [key]
        have := grow (ih.high e) (ih.low e) hv
        simp only
        split <;> omega
    | cancel h1 h3 => rw [h3] at h2; simp at h2
    | end_ h1 h4 h3 => rw [h3] at h2; simp at h2
    | buy h1 h4 h3 h5 h6 => rw [h6] at h2; simp at h2
    | won h1 h4 h3 h5 => rw [h5] at h2; simp at h2
    | noBid h1 h4 h3 h5 => rw [h5] at h2; simp at h2

end Prolong

/-- **C147**, first part: if bids cannot be withdrawn in the grace period, then every grace period by which the end is put off
costs at least one unit of a bid above the start price. -/
theorem C147_start_partial (hc : c.Ok) (hr : Reach c w) (hg : c.grace ≤ c.ending) {n : NFTId} {x x' : Auction}
    (h : Lasts c n w x w' x') : x'.fin ≤ x.fin + c.grace * (price x' - x.startPrice) :=
  (Prolong.inv hc hr hg h).cost

/-- **C147**, second part: an auction that has been extended never gets cheaper, and every further grace period costs at least
one unit more than the highest bid so far. -/
theorem C147_extended_partial (hc : c.Ok) (hr : Reach c w) (hg : c.grace ≤ c.ending) {n : NFTId} {x x' : Auction}
    (he : x.extended = true) (h : Lasts c n w x w' x') :
    price x ≤ price x' ∧ x'.fin ≤ x.fin + c.grace * (price x' - price x) :=
  ⟨(Prolong.inv hc hr hg h).low he, (Prolong.inv hc hr hg h).high he⟩

/-- here bids cannot be withdrawn in the last five blocks -/
abbrev calm : Cfg := { Demo.cfg with ending := 5 }

theorem calm_ok : calm.Ok := by constructor <;> decide

theorem calm_reach : Reach calm (run calm Demo.w0 (auctioned ++ Demo.ticks 8)) := Demo.reach_of calm rfl _ (by decide)

-- a bid of 401 two blocks before the end puts it off from 10 to 13, and one of 402 at block 10 to 15
theorem calm_lasts : Lasts calm 0 (run calm Demo.w0 (auctioned ++ Demo.ticks 8))
    ⟨1, 0, 10, 100, some 5000, [(4, 300), (2, 400)], 0, false⟩
    (run calm Demo.w0 (auctioned ++ Demo.ticks 8 ++ [Demo.by_ 4 (.auc (.addBid 0 401)), .tick, .tick, Demo.by_ 2 (.auc (.addBid 0 402))]))
    ⟨1, 0, 15, 100, some 5000, [(4, 401), (2, 402)], 0, true⟩ :=
  .next (Demo.by_ 2 (.auc (.addBid 0 402))) (.next .tick (.next .tick (.next (Demo.by_ 4 (.auc (.addBid 0 401))) (.here rfl) (by decide)
    (x2 := ⟨1, 0, 13, 100, some 5000, [(2, 400), (4, 401)], 0, true⟩) rfl) trivial rfl) trivial rfl) (by decide) rfl

example : 15 ≤ 10 + 5 * (402 - 100) := C147_start_partial calm_ok calm_reach (by decide) calm_lasts

theorem calm_later : Lasts calm 0 (run calm Demo.w0 (auctioned ++ Demo.ticks 8 ++ [Demo.by_ 4 (.auc (.addBid 0 401))]))
    ⟨1, 0, 13, 100, some 5000, [(2, 400), (4, 401)], 0, true⟩
    (run calm Demo.w0 (auctioned ++ Demo.ticks 8 ++ [Demo.by_ 4 (.auc (.addBid 0 401)), .tick, .tick, Demo.by_ 2 (.auc (.addBid 0 402))]))
    ⟨1, 0, 15, 100, some 5000, [(4, 401), (2, 402)], 0, true⟩ :=
  .next (Demo.by_ 2 (.auc (.addBid 0 402))) (.next .tick (.next .tick (.here rfl) trivial rfl) trivial rfl) (by decide) rfl

-- a grace period for one unit more
example : 401 ≤ 402 ∧ 15 ≤ 13 + 5 * (402 - 401) :=
  C147_extended_partial calm_ok (Demo.reach_of calm rfl _ (by decide)) (by decide) rfl calm_later

namespace Prolong

/-- what the bidder who puts the end off finds again and again -/
structure Turnstile (c : Cfg) (n : NFTId) (a : AccountId) (v : Balance) (w : World) (x : Auction) (w' : World) (x' : Auction) :
    Prop where
  lasts : Lasts c n w x w' x'
  none : x'.bids = []
  other : a ≠ x'.creator
  begun : x'.start ≤ w'.now
  open_ : w'.now < x'.fin
  start : x'.startPrice < v
  cover : Covered c 0 w'
  can : CanPay c w' a v
  same : w'.bal.freeOf a = w.bal.freeOf a

/-- waiting until a block before the end -/
theorem wait {n : NFTId} {a : AccountId} {v : Balance} {x x' : Auction} (h : Turnstile c n a v w x w' x') (j : Nat)
    (hj : w'.now + j < x'.fin) : Turnstile c n a v w x { w' with now := w'.now + j } x' := by
  induction j with
  | zero => exact h
  | succ j ih =>
    have g := ih (by omega)
    refine ⟨.next .tick g.lasts trivial g.lasts.get, g.none, g.other, ?_, hj, g.start, g.cover, g.can, g.same⟩
    have := g.begun
    simp only at this ⊢
    omega

/-- bid and withdraw -/
theorem round (hc : c.Ok) (hr : Reach c w) (hg : c.ending < c.grace) (h1 : 1 < c.grace) {n : NFTId} {a : AccountId}
    (ha : ¬ c.pot a) {v : Balance} (hv : c.ed < v) {x x' : Auction} (h : Turnstile c n a v w x w' x') :
    ∃ w2 x2, Turnstile c n a v w x w2 x2 ∧ x'.fin < x2.fin := by
  have hopen := h.open_
  have g := wait h (x'.fin - 1 - w'.now) (by omega)
  have hnow : w'.now + (x'.fin - 1 - w'.now) = x'.fin - 1 := by omega
  rw [hnow] at g
  generalize hw1 : ({ w' with now := x'.fin - 1 } : World) = w1 at g
  have hn1 : w1.now = x'.fin - 1 := by rw [← hw1]
  have hr1 := g.lasts.reach hr
  have hx1 := g.lasts.get
  have hst : standing x' a = 0 := by simp [standing, g.none]
  obtain ⟨w2, x2, hd2, hm, hx2, hl2⟩ := C70_bid_partial hc hr1 hx1 g.other g.begun ⟨hv, g.start⟩
    (by rw [g.none]; simp) (Or.inl hst) (by rw [hst]; exact g.can)
  rw [hst] at hm
  have hs2 : step c w1 (.call (.signed a) (.auc (.addBid n v))) = w2 := by simp [step, hd2, orSame]
  have hcov2 : Covered c 0 w2 := hs2 ▸ C20_calls hc hr1 g.cover (.call (.signed a) (.auc (.addBid n v))) ha (by simp)
  -- the bid
  have hbid : w2.now = w1.now ∧ x2 = { x' with bids := [(a, v)], fin := x'.fin - 1 + c.grace, extended := true } := by
    cases auc_act hd2 with
    | @addBid _ _ y b dr l q hy k1 k2 k3 k4 k5 k6 k7 =>
      rw [hx1] at hy; simp only [Option.some.injEq] at hy; subst hy
      have hl := AucM.insertBid_tail k6
      simp only [g.none, AucM.removeBid] at hl
      simp only [FMap.get_insert, if_true, Option.some.injEq] at hx2
      rw [AucM.extend_eq] at hx2
      subst hx2
      refine ⟨rfl, ?_⟩
      have e1 : x'.fin - w1.now < c.grace := by omega
      have e2 : x'.fin + (c.grace - (x'.fin - w1.now)) = x'.fin - 1 + c.grace := by omega
      simp [e1, e2, hl]
  obtain ⟨hn2, rfl⟩ := hbid
  have hl2' := g.lasts.call ha hd2 hx2
  have hr2 := hl2'.reach hr
  -- the withdrawal
  obtain ⟨w3, hd3, hf3, _⟩ := C65_bid_partial hc hr2 hcov2 (a := a) (v := v) hx2 (by simp) (by simp only; omega)
  have hs3 : step c w2 (.call (.signed a) (.auc (.removeBid n))) = w3 := by simp [step, hd3, orSame]
  have hcov3 : Covered c 0 w3 := hs3 ▸ C20_calls hc hr2 hcov2 (.call (.signed a) (.auc (.removeBid n))) ha (by simp)
  have hrem : w3.now = w2.now ∧ w3.bal.tee = w2.bal.tee ∧ w3.bal.other = w2.bal.other ∧
      w3.auc.auctions.get n = some { x' with bids := [], fin := x'.fin - 1 + c.grace, extended := true } := by
    cases auc_act hd3 with
    | @removeBid _ y v' b' hy _ hf' ht' =>
      rw [hx2] at hy; simp only [Option.some.injEq] at hy; subst hy
      have hk := Bal.transfer_locks ht'
      refine ⟨rfl, hk.1, hk.2.1, ?_⟩
      simp [AucM.removeBid]
  obtain ⟨hn3, ht3, ho3, hx3⟩ := hrem
  have hfree : w3.bal.freeOf a = w1.bal.freeOf a := by
    have := hm.1 a
    have hap : a ≠ c.aucPot := fun e => ha (e ▸ Cfg.pot_auc)
    simp only [Spec.gets, hap, if_true, if_false] at this
    omega
  refine ⟨w3, _, ⟨hl2'.call ha hd3 hx3, rfl, g.other, ?_, ?_, g.start,
    hcov3, ?_, ?_⟩, ?_⟩
  · have := g.begun; simp only; omega
  · simp only; omega
  · have := g.can
    simp only [CanPay, locked, hfree, ht3, ho3, hm.2.2.2.1, hm.2.2.2.2] at this ⊢
    exact this
  · rw [hfree]; exact g.same
  · simp only; omega

end Prolong

/-- Without this condition C147 fails: if the ending period is shorter than the grace period, whoever can pay one bid puts
off the end of an auction without bids beyond every block, by bidding just before the end and withdrawing the bid at once.  In the
end they have all their tokens back, and there is still no bid. -/
theorem C147_fails (hc : c.Ok) (hr : Reach c w) (hg : c.ending < c.grace) (h1 : 1 < c.grace) {n : NFTId} {x : Auction}
    {a : AccountId} {v : Balance} (hx : w.auc.auctions.get n = some x) (hb : x.bids = []) (ha : a ≠ x.creator) (hp : ¬ c.pot a)
    (hs : x.start ≤ w.now) (hf : w.now < x.fin) (hv : c.ed < v ∧ x.startPrice < v) (hcov : Covered c 0 w) (hcan : CanPay c w a v)
    (k : Block) : ∃ w' x', Lasts c n w x w' x' ∧ k ≤ x'.fin ∧ x'.bids = [] ∧ w'.bal.freeOf a = w.bal.freeOf a := by
  have key : ∃ w' x', Prolong.Turnstile c n a v w x w' x' ∧ k ≤ x'.fin := by
    induction k with
    | zero => exact ⟨w, x, ⟨.here hx, hb, ha, hs, hf, hv.2, hcov, hcan, rfl⟩, by omega⟩
    | succ k ih =>
      obtain ⟨w', x', h, hk⟩ := ih
      obtain ⟨w2, x2, h2, hlt⟩ := Prolong.round hc hr hg h1 hp hv.1 h
      exact ⟨w2, x2, h2, by omega⟩
  obtain ⟨w', x', h, hk⟩ := key
  exact ⟨w', x', h.lasts, hk, h.none, h.same⟩

-- in the demo configuration the ending period is 3 and the grace period 5: account 2 puts off the end for ever
example := C147_fails Demo.cfg_ok (Demo.reach (auctioned.take 4) (by decide)) (by decide) (by decide) (n := 0) (a := 2) (v := 200)
  (x := ⟨1, 0, 10, 100, some 5000, [], 0, false⟩) rfl rfl (by decide) (by decide) (by decide) (by decide) (by decide)
  (by unfold Spec.Covered; decide) (by unfold Spec.CanPay; decide)

-- and so also when the work at the start of every block is done: after 40 blocks the auction that was to end at 10 still runs
set_option maxRecDepth 20000 in
example : ((Demo.at_ (auctioned.take 4 ++ blocks 9 ++ ((List.replicate 8 ([Demo.by_ 2 (.auc (.addBid 0 200)), Demo.by_ 2 (.auc (.removeBid 0))]
    ++ blocks 4)).flatten))).auc.auctions.get 0).map (fun x => (x.fin, x.bids)) = some (42, []) := by
  decide +kernel
