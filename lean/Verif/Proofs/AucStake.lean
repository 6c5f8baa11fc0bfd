import Verif.Proofs.AucInv
/-
Stakes in auctions: standing bids plus claims of a group of accounts.
-/
variable {c : Cfg} {w w' : World} {a : AccountId}

namespace AucM

/-- what an entry of an account in the group weighs -/
def wt1 (P : AccountId → Bool) (y : AccountId) (v : Balance) : Balance := if P y then v else 0

/-- bids of a group in one list -/
def wt (P : AccountId → Bool) (l : List (AccountId × Balance)) : Balance :=
  (l.map fun y => wt1 P y.1 y.2).sum

/-- bids and claims of a group -/
def stake (P : AccountId → Bool) (s : AucSt) : Balance :=
  s.claims.sumBy (wt1 P) + s.auctions.sumBy fun _ x => wt P x.bids

variable {P : AccountId → Bool}

@[simp] theorem wt_nil : wt P [] = 0 := rfl
@[simp] theorem wt_cons (x) (l) : wt P (x :: l) = wt1 P x.1 x.2 + wt P l := by simp [wt]
@[simp] theorem wt_append (l l') : wt P (l ++ l') = wt P l + wt P l' := by simp [wt]

theorem wt_removeBid (l : List (AccountId × Balance)) :
    wt P (removeBid a l) + wt1 P a ((findBid a l).getD 0) = wt P l := by
  induction l with
  | nil => simp [removeBid, findBid, wt1]
  | cons y t ih =>
    obtain ⟨m, z⟩ := y
    simp only [removeBid, findBid]
    split
    · subst_vars; simp; omega
    · simp; omega

theorem wt_last {l : List (AccountId × Balance)} {top} (h : l.getLast? = some top) :
    wt P l = wt P l.dropLast + wt1 P top.1 top.2 := by
  obtain ⟨i, rfl⟩ := List.getLast?_eq_some_iff.1 h
  simp

theorem claim_add (m : FMap AccountId Balance) (y v) :
    (addClaim m y v).sumBy (wt1 P) = m.sumBy (wt1 P) + wt1 P y v := by
  unfold addClaim
  rw [FMap.sumBy_insert, FMap.sumBy_split _ m y]
  cases h : m.get y <;> simp [wt1] <;> split <;> omega

theorem claims_add (m : FMap AccountId Balance) (l) :
    (addClaims m l).sumBy (wt1 P) = m.sumBy (wt1 P) + wt P l := by
  unfold addClaims
  induction l generalizing m with
  | nil => simp
  | cons x t ih => simp only [List.foldl_cons]; rw [ih, claim_add]; simp; omega

theorem insertBid_wt {l l' a v dr} (h : insertBid c l a v = .ok (dr, l'))
    (m : FMap AccountId Balance) :
    (addClaimOpt m dr).sumBy (wt1 P) + wt P l' = m.sumBy (wt1 P) + wt P l + wt1 P a v := by
  rcases insertBid_ok h with ⟨rfl, rfl, _⟩ | ⟨x, t, rfl, rfl, rfl, _⟩
  · simp [addClaimOpt]; omega
  · simp [addClaimOpt, claim_add]; omega

theorem auctions_erase {m : FMap NFTId Auction} {n x} (h : m.get n = some x) :
    (m.erase n).sumBy (fun _ x => wt P x.bids) + wt P x.bids = m.sumBy fun _ x => wt P x.bids := by
  rw [FMap.sumBy_split _ m n, h]; simp; omega

theorem auctions_insert {m : FMap NFTId Auction} {n x y} (h : m.get n = some x) :
    (m.insert n y).sumBy (fun _ x => wt P x.bids) + wt P x.bids =
      (m.sumBy fun _ x => wt P x.bids) + wt P y.bids := by
  rw [FMap.sumBy_insert, ← auctions_erase h]; omega

theorem extend_bids (x : Auction) (now : Block) : (extend c x now).1.bids = x.bids := by
  rw [extend_eq]; split <;> rfl

/-- what a call adds to and takes from the stakes of a group -/
theorem Act.stake {x : Call} (h : Act c w a x w') (hg : ∀ n, Good c (slice w n)) :
    match x with
    | .end_ n => ∃ y top, w.auc.auctions.get n = some y ∧ y.bids.getLast? = some top ∧
        AucM.stake P w'.auc + wt1 P top.1 top.2 = AucM.stake P w.auc
    | .addBid n v => ∃ y, w.auc.auctions.get n = some y ∧
        AucM.stake P w'.auc + wt1 P a ((findBid a y.bids).getD 0) = AucM.stake P w.auc + wt1 P a v
    | .removeBid n => ∃ y v, w.auc.auctions.get n = some y ∧ findBid a y.bids = some v ∧
        AucM.stake P w'.auc + wt1 P a v = AucM.stake P w.auc
    | .claim => ∃ v, w.auc.claims.get a = some v ∧
        AucM.stake P w'.auc + wt1 P a v = AucM.stake P w.auc
    | _ => AucM.stake P w'.auc = AucM.stake P w.auc := by
  cases h with
  | @create n m s e p bi d k q h1 h2 h3 h4 h5 h6 hd hown hl hk hal hcov hq =>
    have hnone : w.auc.auctions.get n = none := by
      have := ((hg n).nft d hd).listed.not.1 (by simp [hl])
      simp only [not_or, not_not] at this
      exact this.2
    simp only [AucM.stake]
    rw [FMap.sumBy_insert, FMap.sumBy_split _ w.auc.auctions n, hnone]
    simp
  | @cancel n d x hd hx h1 h2 =>
    have := auctions_erase (P := P) hx
    simp only [AucM.stake, claims_add]; omega
  | @end_ n d x top b hd hx h1 h2 h3 h4 =>
    refine ⟨x, top, hx, h3, ?_⟩
    have := auctions_erase (P := P) hx
    have := wt_last (P := P) h3
    simp only [AucM.stake, claims_add]; omega
  | @buyItNow n p d x b hd hx h1 h2 h3 h4 h5 =>
    have := auctions_erase (P := P) hx
    simp only [AucM.stake, claims_add]; omega
  | @claim v b h1 h2 =>
    refine ⟨v, h1, ?_⟩
    have := FMap.sumBy_split (wt1 P) w.auc.claims a
    rw [h1] at this
    simp only [AucM.stake]; simp only at this; omega
  | @removeBid n x v b hx h1 h2 h3 =>
    refine ⟨x, v, hx, h2, ?_⟩
    have e := auctions_insert (P := P) (y := { x with bids := AucM.removeBid a x.bids }) hx
    have := wt_removeBid (P := P) (a := a) x.bids
    rw [h2] at this
    simp only [AucM.stake]; simp only [Option.getD_some] at this; simp only at e; omega
  | @addBid n v x b dr l q hx h1 h2 h3 h4 h5 h6 h7 =>
    refine ⟨x, hx, ?_⟩
    have e := auctions_insert (P := P) (y := (extend c { x with bids := l } w.now).1) hx
    rw [extend_bids] at e
    have := wt_removeBid (P := P) (a := a) x.bids
    have := insertBid_wt (P := P) h6 w.auc.claims
    simp only [AucM.stake]; simp only at e; omega

/-- the winning bid taken by one settlement -/
theorem Pop.stake (h : Pop c w w') :
    AucM.stake P w'.auc = AucM.stake P w.auc ∧
      (∀ n, w'.auc.auctions.get n = w.auc.auctions.get n ∨
        w'.auc.auctions.get n = none ∧ ∃ x, w.auc.auctions.get n = some x ∧ x.bids = []) ∨
    ∃ n x top, w.auc.auctions.get n = some x ∧ x.bids.getLast? = some top ∧
      w'.auc.auctions = w.auc.auctions.erase n ∧
      AucM.stake P w'.auc + wt1 P top.1 top.2 = AucM.stake P w.auc := by
  cases h with
  | @won n e t x d top b hq he hx hd htop hp =>
    refine Or.inr ⟨n, x, top, hx, htop, rfl, ?_⟩
    have := auctions_erase (P := P) hx
    have := wt_last (P := P) htop
    simp only [AucM.stake, claims_add]; omega
  | @noBid n e t x d hq he hx hd hn =>
    refine Or.inl ⟨?_, fun m => ?_⟩
    · have := auctions_erase (P := P) hx
      rw [hn] at this
      simp only [AucM.stake]; simp at this; omega
    · simp only [FMap.get_erase]
      split
      · subst_vars; exact Or.inr ⟨rfl, x, hx, hn⟩
      · exact Or.inl rfl
  | missed => exact Or.inl ⟨rfl, fun _ => Or.inl rfl⟩
  | stray => exact Or.inl ⟨rfl, fun _ => Or.inl rfl⟩

/-- the winning bids of auctions of `w` that are gone in `w'` -/
def won (P : AccountId → Bool) (w w' : World) : Balance :=
  w.auc.auctions.sumBy fun n x =>
    if w'.auc.auctions.get n = none then
      match x.bids.getLast? with
      | some top => wt1 P top.1 top.2
      | none => 0
    else 0

/-- auctions only disappear in the hook -/
theorem Pop.sub (h : Pop c w w') {n x} (hx : w'.auc.auctions.get n = some x) :
    w.auc.auctions.get n = some x := by
  cases h with
  | won => simp only [FMap.get_erase] at hx; split at hx; simp at hx; exact hx
  | noBid => simp only [FMap.get_erase] at hx; split at hx; simp at hx; exact hx
  | missed => exact hx
  | stray => exact hx

theorem pops_sub (h : Relation.ReflTransGen (Pop c) w w') {n x}
    (hx : w'.auc.auctions.get n = some x) : w.auc.auctions.get n = some x := by
  induction h with
  | refl => exact hx
  | tail _ h1 ih => exact ih (h1.sub hx)

theorem sumBy_at {m : FMap NFTId Auction} {f g : NFTId → Auction → Balance} {n x} (hx : m.get n = some x)
    (h : ∀ k v, k ≠ n → f k v = g k v) {δ : Balance} (hn : f n x = g n x + δ) :
    m.sumBy f = m.sumBy g + δ := by
  rw [FMap.sumBy_split f m n, FMap.sumBy_split g m n, hx]
  have : (m.erase n).sumBy f = (m.erase n).sumBy g := FMap.sumBy_congr fun k v hk => by
    simp only [FMap.get_erase] at hk
    split at hk
    · simp at hk
    · exact h k v (by assumption)
  simp only; omega

/-- The hook takes exactly the winning bids of the auctions it settles. -/
theorem pops_stake (h : Relation.ReflTransGen (Pop c) w w') :
    AucM.stake P w'.auc + won P w w' = AucM.stake P w.auc := by
  induction h with
  | refl =>
    have : won P w w = 0 := FMap.sumBy_zero fun k v hk => by simp [hk]
    omega
  | @tail w1 w2 h h1 ih =>
    rcases h1.stake (P := P) with ⟨e, hs⟩ | ⟨n, x, top, hx, ht, he, e⟩
    · have : won P w w2 = won P w w1 := FMap.sumBy_congr fun k v hk => by
        rcases hs k with h' | ⟨h', x, h1, h2⟩
        · rw [h']
        · have := pops_sub h h1
          rw [hk] at this; simp at this; subst this
          simp [h', h1, h2]
      omega
    · have hx0 := pops_sub h hx
      have : won P w w2 = won P w w1 + wt1 P top.1 top.2 := by
        unfold won
        refine sumBy_at hx0 (fun k v hk => ?_) ?_
        · rw [he, FMap.get_erase, if_neg hk]
        · rw [he, hx]; simp [ht]
      omega

end AucM
