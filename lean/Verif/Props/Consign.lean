import Verif.Props.Cold
import Verif.Props.Content
import Verif.Props.Auction
import Verif.Proofs.Kept
/-
Property C163: whoever has put an NFT up for auction and goes away finds the auction, the NFT or the money.
-/
variable {c : Cfg} {w w' : World} {y : AccountId} {n : NFTId}
set_option maxRecDepth 10000

/- Specification -/
namespace Spec

/-- what remains of a price `v` after the commission and the creator's royalty on the rest -/
def remains (v : Balance) (f : Option CompoundFee) (r : Permill) : Balance :=
  (v - commission v f) - r.mul (v - commission v f)

/-- `y` has NFT `n` up for auction: the auction is still on `x`'s terms, with commission `f`, and the NFT is still the account's
own, with royalty `r` -/
structure Offered (w : World) (y : AccountId) (n : NFTId) (x : Auction) (f : Option CompoundFee) (r : Permill) : Prop where
  auction : ∃ x', w.auc.auctions.get n = some x' ∧ x'.creator = y ∧ x'.mkt = x.mkt ∧ x'.start = x.start ∧
    x'.startPrice = x.startPrice ∧ x'.buyIt = x.buyIt
  comm : w.auc.comm.get n = some f
  nft : ∃ d, w.nfts.get n = some d ∧ d.owner = y ∧ d.royalty = r

end Spec

namespace Consign
open AucM

theorem pop_kept (h : Pop c w w') (hy : y ≠ c.aucPot) : w.bal.freeOf y ≤ w'.bal.freeOf y := by
  have key : ∀ {n v d x b e}, payForNft c w n c.aucPot v d x = (b, e) → w.bal.freeOf y ≤ b.freeOf y := by
    intro n v d x b e hp
    have := (payForNft_pays (c := c) (n := n) (src := c.aucPot) (v := v) (d := d) (x := x) w).kept
    rw [hp] at this
    dsimp only at this
    by_contra hn
    exact hy (this y (by omega)).1
  cases h with
  | won _ _ _ _ _ hp => exact key hp
  | noBid => exact Nat.le_refl _
  | missed _ _ _ _ _ hp => exact key hp
  | stray => exact Nat.le_refl _

/-- what the seller gets in a settlement -/
theorem paid {x : Auction} {d : NFTData} {v : Balance} {src : AccountId} {b : Bal} {f : Option CompoundFee}
    (hp : payForNft c w n src v d x = (b, .ok ())) (hf : w.auc.comm.get n = some f) (hy : x.creator = y) (hs : y ≠ src) :
    w.bal.freeOf y + Spec.remains v f d.royalty ≤ b.freeOf y := by
  obtain ⟨k, f', m, r, rest, δ, hk, hf', rfl, rfl, rfl, p1, _⟩ := payForNft_paid hp
  rw [hf] at hf'; cases hf'
  have := p1 y hs
  rw [this]
  unfold Spec.remains
  rw [Spec.commission_eq]
  have h2 : gets y x.creator (v - MktM.feeOnOpt v f - d.royalty.mul (v - MktM.feeOnOpt v f)) =
      v - MktM.feeOnOpt v f - d.royalty.mul (v - MktM.feeOnOpt v f) := by
    simp [gets, hy]
  omega

/-- the auction through a run of the hook -/
theorem pops {x : Auction} {d : NFTData} {f : Option CompoundFee} (h : Relation.ReflTransGen (Pop c) w w')
    (hx : w.auc.auctions.get n = some x) (hd : w.nfts.get n = some d) (hf : w.auc.comm.get n = some f) (hy : x.creator = y)
    (hp : y ≠ c.aucPot) :
    w.bal.freeOf y ≤ w'.bal.freeOf y ∧
    ((w'.auc.auctions.get n = some x ∧ w'.nfts.get n = some d ∧ w'.auc.comm.get n = some f) ∨
     w'.auc.auctions.get n = none ∧ ∀ top, x.bids.getLast? = some top →
       w.bal.freeOf y + Spec.remains top.2 f d.royalty ≤ w'.bal.freeOf y) := by
  induction h with
  | refl => exact ⟨Nat.le_refl _, Or.inl ⟨hx, hd, hf⟩⟩
  | @tail w1 w2 h1 h2 ih =>
    obtain ⟨k1, ih⟩ := ih
    have k2 := pop_kept h2 hp
    refine ⟨Nat.le_trans k1 k2, ?_⟩
    rcases ih with ⟨e1, e2, e3⟩ | ⟨e1, e2⟩
    · have e3' : w2.auc.comm.get n = some f := by rw [h2.comm]; exact e3
      cases h2 with
      | @won m e t x1 d1 top b hq he hx1 hd1 ht hpay =>
        by_cases hm : n = m
        · subst hm
          rw [e1] at hx1; cases hx1
          rw [e2] at hd1; cases hd1
          refine Or.inr ⟨by simp, fun top' ht' => ?_⟩
          rw [ht] at ht'; cases ht'
          have := paid hpay e3 hy hp
          show _ ≤ b.freeOf y
          omega
        · exact Or.inl ⟨by simp [FMap.get_erase, hm, e1], by simp [FMap.get_insert, hm, e2], e3'⟩
      | @noBid m e t x1 d1 hq he hx1 hd1 ht =>
        by_cases hm : n = m
        · subst hm
          rw [e1] at hx1; cases hx1
          refine Or.inr ⟨by simp, fun top' ht' => ?_⟩
          rw [ht] at ht'; cases ht'
        · exact Or.inl ⟨by simp [FMap.get_erase, hm, e1], by simp [FMap.get_insert, hm, e2], e3'⟩
      | missed => exact Or.inl ⟨e1, e2, e3⟩
      | stray => exact Or.inl ⟨e1, e2, e3⟩
    · refine Or.inr ⟨?_, fun top ht => Nat.le_trans (e2 top ht) k2⟩
      cases h2 with
      | won => simp only [FMap.get_erase]; split <;> simp [e1]
      | noBid => simp only [FMap.get_erase]; split <;> simp [e1]
      | missed => exact e1
      | stray => exact e1

/-- the commission of a running auction stays -/
theorem comm (hc : c.Ok) (hr : Reach c w) (o : Op) (ho : o.Ok c) {x : Auction} (hx : w.auc.auctions.get n = some x) :
    (step c w o).auc.comm.get n = w.auc.comm.get n := by
  rcases step_auc_case w o ho with ⟨a, z, _, _, h1⟩ | ⟨_, h1⟩ | h1
  · generalize step c w o = w' at h1
    cases h1 with
    | @create m k s e p bi d km q g1 g2 g3 g4 g5 g6 hd hown hl =>
      have hne : n ≠ m := by
        rintro rfl
        have := (((hr.inv hc).good n).nft d hd).listed.not.1 (by simp [hl])
        simp only [not_or, not_not] at this
        have h2 : w.auc.auctions.get n = none := this.2
        rw [hx] at h2; cases h2
      simp [FMap.get_insert, hne]
    | _ => rfl
  · generalize step c w o = w' at h1
    induction h1 with
    | refl => rfl
    | tail _ h2 ih => rw [h2.comm]; exact ih
  · rw [h1]

theorem royalty (hc : c.Ok) (hr : Reach c w) (o : Op) (ho : o.Ok c) {d : NFTData} (hd : w.nfts.get n = some d)
    (ha : Spec.Absent d.owner o) : ((step c w o).nfts.get n).map NFTData.royalty = some d.royalty := by
  have key : Spec.content (step c w o) n = Spec.content w n := by
    rcases C78 hc hr ho hd with h | ⟨h, _⟩ | ⟨x, x', _, _, h⟩
    · exact h
    · exact absurd h (ha.1 _)
    · cases h <;> exact absurd rfl (ha.1 _)
  have := congrArg (Option.map Spec.Content.royalty) key
  simp only [Spec.content, Option.map_map, Function.comp_def, hd, Option.map_some] at this
  exact this

/-- an auctioned NFT whose auction is over without sale is in no use -/
theorem back (hc : c.Ok) (hr : Reach c w) {d : NFTData} (hd : w.nfts.get n = some d) (hl : d.st.listed = false)
    (h1 : d.st.rented = false) (h2 : d.st.transmission = false) (h3 : d.st.delegated = false) : Spec.Keeps w d.owner n := by
  have g := ((hr.inv hc).good n).nft d hd
  have k1 := g.listed.not.1 (by simp [hl])
  have k2 := g.rented.not.1 (by simp [h1])
  have k3 := g.trans.not.1 (by simp [h2])
  have k4 := g.deleg.not.1 (by simp [h3])
  simp only [not_or, not_not] at k1 k2 k3 k4
  exact ⟨⟨d, hd, rfl⟩, k1.1, k1.2, k2, k3, k4⟩

/-- one step -/
theorem step_offered (hc : c.Ok) (hr : Reach c w) (hp : ¬ c.pot y) (h : Spec.NoTenant w y) (o : Op) (ho : o.Ok c)
    (ha : Spec.Absent y o) {x : Auction} {f : Option CompoundFee} {r : Permill} (hs : Spec.Offered w y n x f r) :
    Spec.Offered (step c w o) y n x f r ∨ Spec.Keeps (step c w o) y n ∨
    ∃ v, x.startPrice < v ∧ w.bal.freeOf y + Spec.remains v f r ≤ (step c w o).bal.freeOf y := by
  obtain ⟨⟨x0, hx, hy, e1, e2, e3, e4⟩, hf, d, hd, rfl, rfl⟩ := hs
  have hpot : d.owner ≠ c.aucPot := fun e => hp (by rw [e]; simp [Cfg.pot])
  have hcm := comm hc hr o ho hx
  have hro := royalty hc hr o ho hd ha
  have hr1 := hr.step o ho
  have hok := (hr.auc hc).ok n x0 hx
  have g := ((hr.inv hc).good n).nft d hd
  have hlst : d.st.listed = true := g.listed.2 (Or.inr (by
    show w.auc.auctions.get n ≠ none; rw [hx]; simp))
  obtain ⟨f1, f2, f3, _⟩ := g.exL hlst
  -- the auction goes on
  have go : ∀ {x1 : Auction}, (step c w o).auc.auctions.get n = some x1 → x1.creator = d.owner → x1.mkt = x.mkt →
      x1.start = x.start → x1.startPrice = x.startPrice → x1.buyIt = x.buyIt →
      Spec.Offered (step c w o) d.owner n x f d.royalty := by
    intro x1 hx1 g1 g2 g3 g4 g5
    obtain ⟨d1, hd1⟩ := AucM.HasNft.of_good (hr1.inv hc).good n x1 hx1
    have g6 := (((hr1.inv hc).good n).nft d1 hd1).creator x1 hx1
    rw [hd1] at hro
    exact ⟨⟨x1, hx1, g1, g2, g3, g4, g5⟩, hcm.trans hf, d1, hd1, by rw [← g6, g1], by simpa using hro⟩
  have hb := Cold.tokens hc hr hp o ha h
  have ht := step_auc_turn hc hr o ho hx hd
  have hcase := step_auc_case w o ho
  generalize hw : step c w o = w1 at ht
  cases ht with
  | stay h1 => rw [← hw] at h1 ⊢; exact Or.inl (go h1 hy e1 e2 e3 e4)
  | cancel => exact absurd (by rw [hy]) (ha.1 _)
  | bid _ _ _ _ h1 => rw [← hw] at h1 ⊢; exact Or.inl (go h1 hy e1 e2 e3 e4)
  | withdraw _ _ h1 => rw [← hw] at h1 ⊢; exact Or.inl (go h1 hy e1 e2 e3 e4)
  | end_ => exact absurd (by rw [hy]) (ha.1 _)
  | @buy a p _ g1 g2 g3 g4 g5 g6 =>
    right; right
    rw [hw] at hcase
    rcases hcase with ⟨a', z, e, _, h1⟩ | ⟨e, _⟩ | e
    · cases e
      cases h1 with
      | buyItNow hd' hx' k1 k2 k3 k4 k5 =>
        rw [hd] at hd'; cases hd'
        rw [hx] at hx'; cases hx'
        refine ⟨p, by rw [← e3]; exact hok.buy p (by rw [g1]; simp), ?_⟩
        exact paid k5 hf hy (by rw [← hy]; exact fun e => g2 e.symm)
    · cases e
    · rw [e, hx] at g5; cases g5
  | @won top _ g1 g2 g3 g4 g5 =>
    right; right
    rw [hw] at hcase
    rcases hcase with ⟨a', z, e, _, h1⟩ | ⟨_, h1⟩ | e
    · cases e
    · obtain ⟨_, ⟨k1, _⟩ | ⟨_, k1⟩⟩ := pops h1 hx hd hf hy hpot
      · rw [g4] at k1; cases k1
      · have := (hok.bid top (List.mem_of_getLast? g2)).2.1
        exact ⟨top.2, by rw [← e3]; exact this, k1 top g2⟩
    · rw [e, hx] at g4; cases g4
  | noBid _ _ _ g4 g5 =>
    right; left
    rw [← hw] at g5 ⊢
    exact back (d := { d with st := { d.st with listed := false } }) hc hr1 g5 rfl f1 f2 f3

end Consign

/-- An account that signs nothing, pays no transaction fee and rents nothing and has an NFT up for auction: whatever all others do,
the auction is still there on the same terms and the NFT its own, or the NFT is back and in no use, or the account has got a price
above the start price, less the commission agreed and the royalty on the rest. -/
theorem C163 (hc : c.Ok) (hr : Reach c w) (hp : ¬ c.pot y) (h : Spec.NoTenant w y) (l : List Op) (hl : ∀ o ∈ l, o.Ok c)
    (ha : ∀ o ∈ l, Spec.Absent y o) {x : Auction} {f : Option CompoundFee} {r : Permill} (hs : Spec.Offered w y n x f r) :
    Spec.Offered (run c w l) y n x f r ∨ Spec.Keeps (run c w l) y n ∨
    ∃ v, x.startPrice < v ∧ w.bal.freeOf y + Spec.remains v f r ≤ (run c w l).bal.freeOf y := by
  induction l generalizing w with
  | nil => exact Or.inl hs
  | cons o l ih =>
    have ho := hl o (List.mem_cons_self ..)
    have ho' := ha o (List.mem_cons_self ..)
    have hr1 := hr.step o ho
    have ht := Cold.tenant hc hr o ho ho' h
    have hl1 := fun o h => hl o (List.mem_cons_of_mem _ h)
    have ha1 := fun o h => ha o (List.mem_cons_of_mem _ h)
    have k := C160 hc hr1 hp ht l hl1 ha1
    rcases Consign.step_offered hc hr hp h o ho ho' hs with h1 | h1 | ⟨v, h1, h2⟩
    · rcases ih hr1 ht hl1 ha1 h1 with h2 | h2 | ⟨v, h2, h3⟩
      · exact Or.inl h2
      · exact Or.inr (Or.inl h2)
      · exact Or.inr (Or.inr ⟨v, h2, Nat.le_trans (Nat.add_le_add_right (Cold.tokens hc hr hp o ho' h) _) h3⟩)
    · exact Or.inr (Or.inl (k.2 n h1))
    · exact Or.inr (Or.inr ⟨v, h1, Nat.le_trans h2 k.1⟩)

/-- account 1 is away while others bid, time goes by and the auction is settled for 400 -/
example : ∃ x, Spec.Offered (Demo.at_ auctioned) 1 0 x (some (.percentage ⟨100000, by omega⟩)) ⟨100000, by omega⟩ ∧ x.startPrice = 100 ∧
    (∀ o ∈ Demo.ticks 10 ++ [.hookAuc], o.Ok Demo.cfg ∧ Spec.Absent 1 o) ∧ Spec.NoTenant (Demo.at_ auctioned) 1 ∧
    (run Demo.cfg (Demo.at_ auctioned) (Demo.ticks 10 ++ [.hookAuc])).auc.auctions.get 0 = none ∧
    Spec.remains 400 (some (.percentage ⟨100000, by omega⟩)) ⟨100000, by omega⟩ = 324 ∧
    (Demo.at_ auctioned).bal.freeOf 1 + 324 ≤ (run Demo.cfg (Demo.at_ auctioned) (Demo.ticks 10 ++ [.hookAuc])).bal.freeOf 1 :=
  ⟨_, ⟨⟨_, rfl, rfl, rfl, rfl, rfl, rfl⟩, by decide, ⟨_, rfl, by decide, by decide⟩⟩, by decide,
    fun o ho => ⟨by revert o; decide, by
      revert o
      simp [Demo.ticks, Spec.Absent]⟩,
    ⟨fun n ⟨l, h, _⟩ => by rw [show (Demo.at_ auctioned).rent.offers = .empty from rfl] at h; simp at h,
     fun n k h => by rw [show (Demo.at_ auctioned).rent.contracts = .empty from rfl] at h; simp at h⟩,
    by decide, by decide, by decide⟩

/-- without bids the NFT comes back -/
example : Spec.Keeps (run Demo.cfg (Demo.at_ (auctioned.take 4)) (Demo.ticks 10 ++ [.hookAuc])) 1 0 :=
  ⟨⟨_, rfl, rfl⟩, rfl, rfl, rfl, rfl, rfl⟩
