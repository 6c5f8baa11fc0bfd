import Verif.Props.ShieldSpec
import Verif.Props.Announced
/-
C150: a bid that is left standing bounds the price from below, unless many others withdraw theirs.
-/
open Spec

variable {c : Cfg} {w w' : World}

namespace Shield

abbrev Bids := List (AccountId × Balance)

/-- how many bids are at least `v` -/
def high (v : Balance) (l : Bids) : Nat := l.countP fun y => decide (v ≤ y.2)

/-- account `a` still bids at least `v`, or it took enough bids above `v` to displace it -/
def Kept (L : Nat) (a : AccountId) (v : Balance) (l : Bids) (k : Nat) : Prop :=
  (∃ u, v ≤ u ∧ (a, u) ∈ l) ∨ L ≤ high v l + k

theorem high_filter (v : Balance) (b : AccountId) : ∀ {l : Bids}, (l.map Prod.fst).Nodup →
    high v l ≤ high v (l.filter fun y => decide (y.1 ≠ b)) + 1
  | [], _ => by simp [high]
  | y :: t, h => by
    simp only [List.map_cons, List.nodup_cons] at h
    have ih := high_filter v b h.2
    by_cases e : y.1 = b
    · have : t.filter (fun y => decide (y.1 ≠ b)) = t := by
        rw [List.filter_eq_self]
        intro z hz
        have : z.1 ≠ b := fun e2 => h.1 (List.mem_map.2 ⟨z, hz, by rw [e2, e]⟩)
        simpa using this
      simp only [high, List.filter_cons, e, ne_eq, not_true, decide_false, Bool.false_eq_true, if_false, List.countP_cons] at *
      rw [this]
      split <;> omega
    · simp only [high, List.filter_cons, e, ne_eq, not_false_iff, decide_true, if_true, List.countP_cons] at *
      omega

theorem high_pos {v : Balance} {l : Bids} (h : 0 < high v l) : ∃ y ∈ l, v ≤ y.2 := by
  obtain ⟨y, hy, h⟩ := List.countP_pos_iff.1 h
  exact ⟨y, hy, by simpa using h⟩

theorem high_all {v : Balance} {l : Bids} (h : ∀ y ∈ l, v ≤ y.2) : high v l = l.length := by
  unfold high
  rw [List.countP_eq_length]
  intro y hy
  simpa using h y hy

theorem bid {L : Nat} {a b : AccountId} {v u : Balance} {l : Bids} {k : Nat} (hL : 0 < L) (hp : l.Pairwise (fun y z => y.2 < z.2))
    (hn : (l.map Prod.fst).Nodup) (hl : l.length ≤ L) (hu : ∀ y ∈ l, y.2 < u) (h : Kept L a v l k) :
    Kept L a v ((if (l.filter fun y => decide (y.1 ≠ b)).length < L then l.filter fun y => decide (y.1 ≠ b)
      else (l.filter fun y => decide (y.1 ≠ b)).tail) ++ [(b, u)]) k := by
  by_cases hf : (l.filter fun y => decide (y.1 ≠ b)).length < L
  · rw [if_pos hf]
    rcases h with ⟨z, hz, hm⟩ | h
    · have := hu _ hm
      by_cases e : a = b
      · exact Or.inl ⟨u, by simp only at this; omega, by simp [e]⟩
      · exact Or.inl ⟨z, hz, by simp [hm, e]⟩
    · by_cases h0 : 0 < high v l
      · obtain ⟨y, hy, hv⟩ := high_pos h0
        have hyu := hu y hy
        have hvu : v ≤ u := by omega
        have := high_filter v b hn
        right
        simp only [high, List.countP_append, List.countP_cons, List.countP_nil, hvu, decide_true, if_true] at *
        omega
      · exact Or.inr (by omega)
  · rw [if_neg hf]
    have hs : l.filter (fun y => decide (y.1 ≠ b)) = l :=
      List.filter_sublist.eq_of_length (by have := List.length_filter_le (fun y => decide (y.1 ≠ b)) l; omega)
    rw [hs] at hf ⊢
    cases l with
    | nil => simp at hf; omega
    | cons y t =>
      simp only [List.tail_cons]
      simp only [List.pairwise_cons] at hp
      simp only [List.length_cons] at hf hl
      have full : v ≤ y.2 → L ≤ high v (t ++ [(b, u)]) := fun hv => by
        rw [high_all (fun z hz => ?_)]
        · simp; omega
        · rcases List.mem_append.1 hz with hz | hz
          · have := hp.1 z hz; omega
          · simp at hz; subst hz; have := hu y (by simp); simp only; omega
      rcases h with ⟨z, hz, hm⟩ | h
      · rcases List.mem_cons.1 hm with rfl | hm
        · exact Or.inr (by have := full hz; omega)
        · exact Or.inl ⟨z, hz, by simp [hm]⟩
      · by_cases hv : v ≤ y.2
        · exact Or.inr (by have := full hv; omega)
        · right
          simp only [high, List.countP_append, List.countP_cons, hv, decide_false, Bool.false_eq_true, if_false] at *
          omega

theorem withdrawal {L : Nat} {a b : AccountId} {v : Balance} {l : Bids} {k : Nat} (hn : (l.map Prod.fst).Nodup) (hb : b ≠ a)
    (h : Kept L a v l k) : Kept L a v (l.filter fun y => decide (y.1 ≠ b)) (k + 1) := by
  rcases h with ⟨z, hz, hm⟩ | h
  · exact Or.inl ⟨z, hz, by simp [hm, Ne.symm hb]⟩
  · have := high_filter v b hn
    exact Or.inr (by omega)

theorem more {L : Nat} {a : AccountId} {v : Balance} {l : Bids} {k : Nat} (h : Kept L a v l k) : Kept L a v l (k + 1) :=
  h.imp_right fun h => by omega

theorem price {L : Nat} {a : AccountId} {v : Balance} {x : Auction} {k : Nat} (hp : x.bids.Pairwise (fun y z => y.2 < z.2))
    (hk : k < L) (h : Kept L a v x.bids k) : ∃ t, x.bids.getLast? = some t ∧ v ≤ t.2 := by
  have : ∃ y ∈ x.bids, v ≤ y.2 := by
    rcases h with ⟨z, hz, hm⟩ | h
    · exact ⟨_, hm, hz⟩
    · exact high_pos (by omega)
  obtain ⟨y, hy, hv⟩ := this
  obtain ⟨l, t, hl⟩ : ∃ l t, x.bids = l ++ [t] :=
    ⟨_, _, (List.dropLast_append_getLast (List.ne_nil_of_mem hy)).symm⟩
  refine ⟨t, by simp [hl], ?_⟩
  rw [hl] at hy hp
  rcases List.mem_append.1 hy with hy | hy
  · have := (List.pairwise_append.1 hp).2.2 y hy t (by simp)
    omega
  · simp at hy; subst hy; exact hv

theorem lasts {n : NFTId} {a : AccountId} {x x' : Auction} {k : Nat} (h : Stands c n a w x k w' x') : Lasts c n w x w' x' := by
  induction h with
  | here h => exact .here h
  | next o _ ho h _ ih => exact .next o ih ho h
  | withdrawn b _ hb _ h ih => exact .next _ ih hb h

theorem first {n : NFTId} {x x' : Auction} (h : Lasts c n w x w' x') : w.auc.auctions.get n = some x := by
  induction h with
  | here h => exact h
  | next _ _ _ _ ih => exact ih

/-- what the history keeps -/
theorem kept (hc : c.Ok) (hr : Reach c w) {n : NFTId} {a : AccountId} {v : Balance} {x x' : Auction} {k : Nat} (hv : (a, v) ∈ x.bids)
    (h : Stands c n a w x k w' x') : Kept c.bidLimit a v x'.bids k ∧ x'.start = x.start := by
  induction h with
  | here => exact ⟨Or.inl ⟨v, Nat.le_refl _, hv⟩, rfl⟩
  | @next k w1 y y2 o hl ho h2 hno ih =>
    have hr1 := (lasts hl).reach hr
    have hy := (lasts hl).get
    obtain ⟨d, hd, _⟩ := C24_nft hc hr1 hy
    have ht := step_auc_turn hc hr1 o ho hy hd
    have h19 := (hr1.auc hc).ok n y hy
    generalize step c w1 o = w2 at ht h2 ⊢
    cases ht with
    | stay h1 => rw [h1] at h2; simp at h2; subst h2; exact ih
    | withdraw h1 h3 h4 => rw [hno _ rfl]; exact ih
    | @bid b u _ h1 h3 h4 h5 h6 =>
      have h2 := Option.some.inj (h6.symm.trans h2); subst h2
      obtain ⟨_, g2⟩ := AucM.beats_max h5 h19.ladder fun y hy => (h19.bid y hy).2.1
      exact ⟨bid hc.bid h19.ladder h19.one h19.len g2 ih.1, ih.2⟩
    | cancel h1 h3 => rw [h3] at h2; simp at h2
    | end_ h1 h4 h3 => rw [h3] at h2; simp at h2
    | buy h1 h4 h3 h5 h6 => rw [h6] at h2; simp at h2
    | won h1 h4 h3 h5 => rw [h5] at h2; simp at h2
    | noBid h1 h4 h3 h5 => rw [h5] at h2; simp at h2
  | @withdrawn k w1 y y2 b hl hb hne h2 ih =>
    have hr1 := (lasts hl).reach hr
    have hy := (lasts hl).get
    obtain ⟨d, hd, _⟩ := C24_nft hc hr1 hy
    have ht := step_auc_turn hc hr1 (.call (.signed b) (.auc (.removeBid n))) hb hy hd
    have h19 := (hr1.auc hc).ok n y hy
    generalize step c w1 _ = w2 at ht h2 ⊢
    cases ht with
    | stay h1 => rw [h1] at h2; simp at h2; subst h2; exact ⟨more ih.1, ih.2⟩
    | withdraw h1 h3 h4 =>
      have h2 := Option.some.inj (h4.symm.trans h2); subst h2
      exact ⟨withdrawal h19.one hne ih.1, ih.2⟩

end Shield

/-- **C150**, what holds of it: account `a` has bid `v` and leaves the bid standing.  While fewer bids are withdrawn by others than an
auction has room for, the highest bid is at least `v`, even if the bid of `a` itself has been displaced. -/
theorem C150_price_partial (hc : c.Ok) (hr : Reach c w) {n : NFTId} {a : AccountId} {v : Balance} {x x' : Auction} {k : Nat}
    (hv : (a, v) ∈ x.bids) (h : Stands c n a w x k w' x') (hk : k < c.bidLimit) :
    ∃ t, x'.bids.getLast? = some t ∧ v ≤ t.2 := by
  have hr1 := (Shield.lasts h).reach hr
  exact Shield.price ((C19 hc hr1 (Shield.lasts h).get).1) hk (Shield.kept hc hr hv h).1

/-- C150: then the auction, when it is over, has sold the NFT, for at least `v`: to the highest bidder, or to somebody who pays the
announced price.  Missing: the same whatever others withdraw. -/
theorem C150_sold_partial (hc : c.Ok) (hr : Reach c w) {n : NFTId} {a : AccountId} {v : Balance} {x x' : Auction} {k : Nat}
    (hv : (a, v) ∈ x.bids) (h : Stands c n a w x k w' x') (hk : k < c.bidLimit) (o : Op) (ho : o.Ok c)
    (hend : (step c w' o).auc.auctions.get n = none) :
    ∃ b p d, v ≤ p ∧ (step c w' o).nfts.get n = some d ∧ d.owner = b ∧
      (x'.bids.getLast? = some (b, p) ∨ x'.buyIt = some p ∧ o = .call (.signed b) (.auc (.buyItNow n p))) := by
  have hl := Shield.lasts h
  have hr1 := hl.reach hr
  obtain ⟨t, ht1, ht2⟩ := C150_price_partial hc hr hv h hk
  obtain ⟨d, hd, _⟩ := C24_nft hc hr1 hl.get
  have ht := step_auc_turn hc hr1 o ho hl.get hd
  have hs : x'.start ≤ w'.now := by
    rw [(Shield.kept hc hr hv h).2]
    have hx : w.auc.auctions.get n = some x := Shield.first hl
    exact Nat.le_trans (((hr.auc hc).ok n x hx).begun (Or.inl (List.ne_nil_of_mem hv))) (Announced.now hl)
  generalize step c w' o = w2 at ht hend ⊢
  cases ht with
  | stay h1 => rw [h1] at hend; simp at hend
  | withdraw h1 h3 h4 => rw [h4] at hend; simp at hend
  | bid h1 h3 h4 h5 h6 => rw [h6] at hend; simp at hend
  | cancel h1 h3 => omega
  | @end_ top _ h1 h4 h3 h5 =>
    rw [ht1] at h4; simp at h4; subst h4
    exact ⟨_, t.2, _, ht2, h5, rfl, Or.inl ht1⟩
  | @buy b p _ h1 h4 h3 h5 h6 h7 =>
    have := h5 t ht1
    exact ⟨b, p, _, by omega, h7, rfl, Or.inr ⟨h1, rfl⟩⟩
  | @won top _ h1 h4 h3 h5 h6 =>
    rw [ht1] at h4; simp at h4; subst h4
    exact ⟨_, t.2, _, ht2, h6, rfl, Or.inl ht1⟩
  | noBid h1 h4 h3 h5 => rw [h4] at ht1; simp at ht1

theorem Spec.Stands.at_next {n : NFTId} {a : AccountId} {l0 l : List Op} {x x' x2 : Auction} {k : Nat} (o : Op)
    (h : Stands Demo.cfg n a (Demo.at_ l0) x k (Demo.at_ l) x') (ho : o.Ok Demo.cfg)
    (hx : (Demo.at_ (l ++ [o])).auc.auctions.get n = some x2) (hno : ∀ b, o = .call (.signed b) (.auc (.removeBid n)) → x2 = x') :
    Stands Demo.cfg n a (Demo.at_ l0) x k (Demo.at_ (l ++ [o])) x2 := by
  have e : Demo.at_ (l ++ [o]) = step Demo.cfg (Demo.at_ l) o := by simp [Demo.at_, run_append, run]
  rw [e] at hx ⊢
  exact .next o h ho hx hno

theorem Spec.Stands.at_withdrawn {n : NFTId} {a : AccountId} {l0 l : List Op} {x x' x2 : Auction} {k : Nat} (b : AccountId)
    (h : Stands Demo.cfg n a (Demo.at_ l0) x k (Demo.at_ l) x') (hb : ¬ Demo.cfg.pot b) (hne : b ≠ a)
    (hx : (Demo.at_ (l ++ [Demo.by_ b (.auc (.removeBid n))])).auc.auctions.get n = some x2) :
    Stands Demo.cfg n a (Demo.at_ l0) x (k + 1) (Demo.at_ (l ++ [Demo.by_ b (.auc (.removeBid n))])) x2 := by
  have e : Demo.at_ (l ++ [Demo.by_ b (.auc (.removeBid n))]) =
      step Demo.cfg (Demo.at_ l) (.call (.signed b) (.auc (.removeBid n))) := by simp [Demo.at_, run_append, run, Demo.by_]
  rw [e] at hx ⊢
  exact .withdrawn b h hb hne hx

/-- an auction has room for two bids; after bids of 300 and 400 by accounts 4 and 2, accounts 5 and 6 bid more, withdraw both bids, and
account 7 bids 101 -/
abbrev shielded : List Op := auctioned ++ [Demo.by_ 5 (.auc (.addBid 0 500))] ++ [Demo.by_ 6 (.auc (.addBid 0 600))] ++
  [Demo.by_ 5 (.auc (.removeBid 0))] ++ [Demo.by_ 6 (.auc (.removeBid 0))] ++ [Demo.by_ 7 (.auc (.addBid 0 101))]

theorem shielded_one : Stands Demo.cfg 0 2 (Demo.at_ auctioned) ⟨1, 0, 10, 100, some 5000, [(4, 300), (2, 400)], 0, false⟩ 1
    (Demo.at_ (auctioned ++ [Demo.by_ 5 (.auc (.addBid 0 500))] ++ [Demo.by_ 6 (.auc (.addBid 0 600))] ++
      [Demo.by_ 5 (.auc (.removeBid 0))])) ⟨1, 0, 10, 100, some 5000, [(6, 600)], 0, false⟩ := by
  refine .at_withdrawn 5 (x' := ⟨1, 0, 10, 100, some 5000, [(5, 500), (6, 600)], 0, false⟩) ?_ (by decide) (by decide)
    (by decide +kernel)
  refine .at_next _ (x' := ⟨1, 0, 10, 100, some 5000, [(2, 400), (5, 500)], 0, false⟩) ?_ (by decide) (by decide +kernel) (by simp)
  exact .at_next _ (.here (by decide +kernel)) (by decide) (by decide +kernel) (by simp)

theorem shielded_two : Stands Demo.cfg 0 2 (Demo.at_ auctioned) ⟨1, 0, 10, 100, some 5000, [(4, 300), (2, 400)], 0, false⟩ 2
    (Demo.at_ shielded) ⟨1, 0, 10, 100, some 5000, [(7, 101)], 0, false⟩ := by
  refine .at_next _ (x' := ⟨1, 0, 10, 100, some 5000, [], 0, false⟩) ?_ (by decide) (by decide +kernel) (by simp)
  exact .at_withdrawn 6 shielded_one (by decide) (by decide) (by decide +kernel)

/-- C150 fails: accounts 2 and 4 bid 400 and 300 and withdraw nothing; the NFT is sold to account 7 for 101.  As many withdrawals as an
auction has room for bids, two here, are enough. -/
theorem C150_fails : Reach Demo.cfg (Demo.at_ shielded) ∧ Demo.cfg.bidLimit = 2 ∧
    Stands Demo.cfg 0 2 (Demo.at_ auctioned) ⟨1, 0, 10, 100, some 5000, [(4, 300), (2, 400)], 0, false⟩ 2 (Demo.at_ shielded)
      ⟨1, 0, 10, 100, some 5000, [(7, 101)], 0, false⟩ ∧
    ((Demo.at_ (shielded ++ blocks 10)).nfts.get 0).map (·.owner) = some 7 ∧
    (Demo.at_ (shielded ++ blocks 10)).bal.freeOf 7 = (Demo.at_ auctioned).bal.freeOf 7 - 101 ∧
    (Demo.at_ (shielded ++ blocks 10)).auc.claims.get 2 = some 400 ∧
    (Demo.at_ (shielded ++ blocks 10)).auc.claims.get 4 = some 300 :=
  ⟨Demo.reach _ (by decide), rfl, shielded_two, by decide +kernel, by decide +kernel, by decide +kernel, by decide +kernel⟩

-- with one withdrawal the price stays above the bid of account 2, although that bid is displaced
example : ∃ t, (Auction.bids ⟨1, 0, 10, 100, some 5000, [(6, 600)], 0, false⟩).getLast? = some t ∧ 400 ≤ t.2 :=
  C150_price_partial Demo.cfg_ok (Demo.reach auctioned (by decide)) (by simp) shielded_one (by decide)

-- and the auction with the bids of accounts 4 and 2 ends with a sale for at least 300
example := C150_sold_partial (a := 4) (v := 300) (w := Demo.at_ (auctioned ++ Demo.ticks 10)) (n := 0)
  (x := ⟨1, 0, 10, 100, some 5000, [(4, 300), (2, 400)], 0, false⟩) Demo.cfg_ok (Demo.reach (auctioned ++ Demo.ticks 10) (by decide))
  (by simp) (.here (by decide +kernel)) (by decide) .hookAuc (by decide) (by decide +kernel)
