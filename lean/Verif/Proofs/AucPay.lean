import Verif.Proofs.AucStake
import Verif.Proofs.StepBal
/-
Payments of the auction pallet, and when its account covers what it owes.
-/
variable {c : Cfg} {w w' : World} {a : AccountId}

/-- what `x` receives if `v` is paid to `y` -/
def gets (x y : AccountId) (v : Balance) : Balance := if x = y then v else 0

/-- A transfer moves `v`; a payer left below the existential deposit loses the rest. -/
theorem Bal.transfer_moves {ed : Balance} {b b' : Bal} {s d : AccountId} {v : Balance} {l : Live}
    (h : b.transfer ed s d v l = .ok b') :
    ∃ δ, (∀ x, x ≠ s → b'.freeOf x = b.freeOf x + gets x d v) ∧
      b'.freeOf s + v + δ = b.freeOf s + gets s d v ∧
      (δ = 0 ∨ b'.freeOf s = 0 ∧ δ < ed ∧ l = .allowDeath) ∧
      (b.freeOf s = 0 → δ = 0 ∧ b'.freeOf s = 0) := by
  by_cases hsd : s = d
  · subst hsd
    rw [Bal.transfer_self h]
    refine ⟨0, fun x hx => ?_, ?_, Or.inl rfl, fun h => ⟨rfl, h⟩⟩
    · simp [gets, hx]
    · simp [gets]
  · by_cases hv : v = 0
    · subst hv
      have : b' = b := by
        rcases Bal.transfer_ok h with ⟨_, h⟩ | ⟨h, _⟩
        · exact h
        · exact absurd rfl h
      subst this
      refine ⟨0, fun x hx => ?_, ?_, Or.inl rfl, fun h => ⟨rfl, h⟩⟩ <;> simp [gets]
    · have hle := Bal.transfer_le h hsd
      have hf := Bal.transfer_free h hsd
      have hs := hf s
      simp only [hsd, if_false, if_true, hv] at hs
      have hx : ∀ x, x ≠ s → b'.freeOf x = b.freeOf x + gets x d v := by
        intro x hx
        rw [hf x]
        unfold gets
        split
        · subst_vars; rfl
        · simp
      have hg : gets s d v = 0 := by simp [gets, hsd]
      rw [hg]
      by_cases hlt : b.freeOf s - v < ed
      · rw [if_pos hlt] at hs
        refine ⟨b.freeOf s - v, hx, by omega, ?_, fun h => ?_⟩
        · by_cases e : b.freeOf s - v = 0
          · exact Or.inl e
          · refine Or.inr ⟨hs, hlt, ?_⟩
            cases l with
            | allowDeath => rfl
            | keepAlive =>
              have := Bal.transfer_keep h s hsd
              simp only [hsd, if_false, if_true] at this
              omega
        · exact ⟨by omega, hs⟩
      · rw [if_neg hlt] at hs
        exact ⟨0, hx, by omega, Or.inl rfl, fun h => ⟨rfl, by omega⟩⟩

namespace AucM

/-- the three payments of a settlement -/
structure Paid (c : Cfg) (w : World) (n : NFTId) (src : AccountId) (v : Balance) (d : NFTData)
    (x : Auction) (b : Bal) : Prop where
  split : ∃ k f m r rest δ, w.mkt.mkts.get x.mkt = some k ∧ w.auc.comm.get n = some f ∧
    m = MktM.feeOnOpt v f ∧ r = d.royalty.mul (v - m) ∧ rest = v - m - r ∧
    (∀ y, y ≠ src → b.freeOf y = w.bal.freeOf y +
      (gets y k.owner m + gets y d.creator r + gets y x.creator rest)) ∧
    b.freeOf src + (m + r + rest) + δ = w.bal.freeOf src +
      (gets src k.owner m + gets src d.creator r + gets src x.creator rest) ∧
    (δ = 0 ∨ b.freeOf src = 0 ∧ δ < c.ed ∧ src = c.aucPot) ∧
    (w.bal.freeOf src = 0 → δ = 0 ∧ b.freeOf src = 0)

theorem paySeq_three {b b' : Bal} {src l d1 v1 d2 v2 d3 v3}
    (h : paySeq c b src l [(d1, v1), (d2, v2), (d3, v3)] = (b', .ok ())) :
    ∃ b1 b2, b.transfer c.ed src d1 v1 l = .ok b1 ∧ b1.transfer c.ed src d2 v2 l = .ok b2 ∧
      b2.transfer c.ed src d3 v3 l = .ok b' := by
  simp only [paySeq] at h
  split at h
  · simp at h
  · rename_i b1 h1
    split at h
    · simp at h
    · rename_i b2 h2
      split at h
      · simp at h
      · rename_i b3 h3
        simp at h; subst h
        exact ⟨b1, b2, h1, h2, h3⟩

theorem payForNft_three {n src v d x b} (h : payForNft c w n src v d x = (b, .ok ())) :
    ∃ k f m r rest l b1 b2, w.mkt.mkts.get x.mkt = some k ∧ w.auc.comm.get n = some f ∧
      m = MktM.feeOnOpt v f ∧ r = d.royalty.mul (v - m) ∧ rest = v - m - r ∧
      l = (if src = c.aucPot then Live.allowDeath else .keepAlive) ∧
      w.bal.transfer c.ed src k.owner m l = .ok b1 ∧ b1.transfer c.ed src d.creator r l = .ok b2 ∧
      b2.transfer c.ed src x.creator rest l = .ok b := by
  unfold payForNft at h
  split at h
  · simp at h
  · rename_i k hk
    split at h
    · simp at h
    · rename_i f hf
      obtain ⟨b1, b2, h1, h2, h3⟩ := paySeq_three h
      exact ⟨k, f, _, _, _, _, b1, b2, hk, hf, rfl, rfl, rfl, rfl, h1, h2, h3⟩

theorem payForNft_paid {n src v d x b} (h : payForNft c w n src v d x = (b, .ok ())) :
    Paid c w n src v d x b := by
  obtain ⟨k, f, m, r, rest, l, b1, b2, hk, hf, hm, hr, hrest, hl, t1, t2, t3⟩ := payForNft_three h
  obtain ⟨δ1, p1, p2, p3, p4⟩ := Bal.transfer_moves t1
  obtain ⟨δ2, q1, q2, q3, q4⟩ := Bal.transfer_moves t2
  obtain ⟨δ3, r1, r2, r3, r4⟩ := Bal.transfer_moves t3
  have hs : l = .allowDeath → src = c.aucPot := by
    intro h; rw [h] at hl; by_contra hne; rw [if_neg hne] at hl; simp at hl
  refine ⟨k, f, m, r, rest, δ1 + δ2 + δ3, hk, hf, hm, hr, hrest, fun y hy => ?_, by omega, ?_,
    fun h => ?_⟩
  · rw [r1 y hy, q1 y hy, p1 y hy]; omega
  · rcases p3 with p3 | ⟨p3, p5, p6⟩
    · rcases q3 with q3 | ⟨q3, q5, q6⟩
      · rcases r3 with r3 | ⟨r3, r5, r6⟩
        · left; omega
        · right; exact ⟨r3, by omega, hs r6⟩
      · right
        have := r4 q3
        exact ⟨this.2, by omega, hs q6⟩
    · right
      have h1 := q4 p3
      have h2 := r4 h1.2
      exact ⟨h2.2, by omega, hs p6⟩
  · have h1 := p4 h
    have h2 := q4 h1.2
    have h3 := r4 h2.2
    exact ⟨by omega, h3.2⟩

/-- the commission fits into any winning bid and buy-it-now price -/
theorem AucOk.cuts {n x} (h : AucOk c w n x) {v f} (hv : x.startPrice ≤ v)
    (hf : w.auc.comm.get n = some f) : MktM.feeOnOpt v f ≤ v := by
  obtain ⟨f', h1, h2⟩ := h.comm
  rw [hf] at h1; simp at h1; subst h1
  cases f with
  | none => simp [MktM.feeOnOpt]
  | some f =>
    cases f with
    | flat x => simp [MktM.covers] at h2; simp [MktM.feeOnOpt, MktM.feeOn]; omega
    | percentage p => exact p.mul_le _

/-! ## solvency -/

/-- everything owed -/
def owed (w : World) : Balance := stake (fun _ => true) w.auc

theorem owed_eq (w : World) : owed w = (w.auc.claims.sumBy fun _ v => v) +
    w.auc.auctions.sumBy fun _ x => (x.bids.map Prod.snd).sum := by
  simp only [owed, stake, wt, wt1, if_true]
  rfl

theorem sum_zero_or {K V : Type} [DecidableEq K] {f : K → V → Balance} {ed : Balance} (m : FMap K V)
    (h : ∀ k v, m.get k = some v → f k v = 0 ∨ ed ≤ f k v) :
    m.sumBy f = 0 ∨ ed ≤ m.sumBy f := by
  by_cases hz : ∀ k v, m.get k = some v → f k v = 0
  · exact Or.inl (FMap.sumBy_zero hz)
  · simp only [not_forall] at hz
    obtain ⟨k, v, hk, hn⟩ := hz
    have h1 := (h k v hk).resolve_left hn
    exact Or.inr (Nat.le_trans h1 (FMap.sumBy_le_of_get hk))

/-- Nothing is owed, or at least the existential deposit. -/
theorem Inv.owed_or (h : Inv c w) : owed w = 0 ∨ c.ed ≤ owed w := by
  have h1 : w.auc.claims.sumBy (wt1 fun _ => true) = 0 ∨ c.ed ≤ w.auc.claims.sumBy (wt1 fun _ => true) :=
    sum_zero_or _ fun k v hk => by have := (h.claims k v hk).1; simp [wt1]; omega
  have h2 : (w.auc.auctions.sumBy fun _ x => wt (fun _ => true) x.bids) = 0 ∨
      c.ed ≤ w.auc.auctions.sumBy fun _ x => wt (fun _ => true) x.bids := by
    refine sum_zero_or _ fun k x hk => ?_
    cases hb : x.bids with
    | nil => simp
    | cons y t =>
      have := ((h.ok k x hk).bid y (by rw [hb]; simp)).2.2.1
      right; simp [wt1]; omega
  unfold owed stake
  omega

theorem Paid.left {n v d x b} (h : payForNft c w n c.aucPot v d x = (b, .ok ()))
    {o : Balance} (hv : v + o ≤ w.bal.freeOf c.aucPot) (ho : o = 0 ∨ c.ed ≤ o)
    (hm : ∀ f, w.auc.comm.get n = some f → MktM.feeOnOpt v f ≤ v) :
    o ≤ b.freeOf c.aucPot := by
  obtain ⟨k, f, m, r, rest, l, b1, b2, hk, hf, hm', hr, hrest, hl, t1, t2, t3⟩ := payForNft_three h
  have hmv : m ≤ v := by rw [hm']; exact hm f hf
  have hrv : r ≤ v - m := by rw [hr]; exact d.royalty.mul_le _
  rcases ho with rfl | ho
  · exact Nat.zero_le _
  · have h1 := Bal.transfer_left (o := r + rest + o) t1 (by omega) (by omega)
    have h2 := Bal.transfer_left (o := rest + o) t2 (by omega) (by omega)
    exact Bal.transfer_left t3 (by omega) (by omega)

/-- the account covers everything owed, and `s` on top -/
def Solvent (c : Cfg) (s : Balance) (w : World) : Prop := owed w + s ≤ w.bal.freeOf c.aucPot

theorem Solvent.call {s : Balance} (h0 : s = 0 ∨ c.ed ≤ s) (hs : Solvent c s w) (hi : Inv c w) (hg : ∀ n, Good c (slice w n))
    (ha : ¬ c.pot a) {x : Call} (h : Act c w a x w') : Solvent c s w' := by
  have hst := h.stake (P := fun _ => true) hg
  have hor : owed w' + s = 0 ∨ c.ed ≤ owed w' + s := by
    have := (hi.call ha h hg).owed_or; omega
  have hap : c.aucPot ≠ a := not_pot_ne ha Cfg.pot_auc
  unfold Solvent at hs ⊢
  unfold owed at hs hor ⊢
  generalize stake (fun _ => true) w'.auc = S at hst hor ⊢
  cases h with
  | create => simp only at hst; rw [hst]; exact hs
  | cancel => simp only at hst; rw [hst]; exact hs
  | @end_ n d x top b hd hx h1 h2 h3 h4 =>
    obtain ⟨y, t, e1, e2, e3⟩ := hst
    rw [hx] at e1; simp at e1; subst e1
    rw [h3] at e2; simp at e2; subst e2
    simp only [wt1, if_true] at e3
    have hb := (hi.ok n x hx).bid top (List.mem_of_getLast? h3)
    exact Paid.left (o := S + s) h4 (by omega) hor fun f hf => (hi.ok n x hx).cuts (by omega) hf
  | @addBid n v x b dr l q hx h1 h2 h3 h4 h5 h6 h7 =>
    obtain ⟨y, e1, e3⟩ := hst
    rw [hx] at e1; simp at e1; subst e1
    simp only [wt1, if_true] at e3
    have ho := hi.ok n x hx
    have hv : (findBid a x.bids).getD 0 ≤ v := by
      cases hf : findBid a x.bids with
      | none => simp
      | some u =>
        have := (beats_max h4 ho.ladder (fun y hy => (ho.bid y hy).2.1)).2 _ (findBid_mem hf)
        simp; omega
    have := Bal.transfer_keep h5 c.aucPot hap.symm
    rw [if_pos rfl] at this
    show _ ≤ b.freeOf c.aucPot
    omega
  | @removeBid n x v b hx h1 h2 h3 =>
    obtain ⟨y, u, e1, e2, e3⟩ := hst
    rw [hx] at e1; simp at e1; subst e1
    rw [h2] at e2; simp at e2; subst e2
    simp only [wt1, if_true] at e3
    exact Bal.transfer_left (o := S + s) h3 (by omega) hor
  | @buyItNow n p d x b hd hx h1 h2 h3 h4 h5 =>
    simp only at hst; rw [hst]
    have := payForNft_pays (c := c) (n := n) (src := a) (v := p) (d := d) (x := x) w
    rw [h5] at this
    exact Nat.le_trans hs (this.mono.free _ hap)
  | @claim v b h1 h2 =>
    obtain ⟨u, e1, e3⟩ := hst
    rw [h1] at e1; simp at e1; subst e1
    simp only [wt1, if_true] at e3
    exact Bal.transfer_left (o := S + s) h2 (by omega) hor

/-- a settlement that does not fail -/
theorem Solvent.pop {s : Balance} (h0 : s = 0 ∨ c.ed ≤ s) (hs : Solvent c s w) (hi : Inv c w) (h : Pop c w w')
    (hn : ∀ n e t, w.auc.deadlines = (n, e) :: t → w.nfts.get n ≠ none →
      w'.auc.auctions.get n = none) : Solvent c s w' := by
  have hor : owed w' + s = 0 ∨ c.ed ≤ owed w' + s := by
    have := (hi.pop h).owed_or; omega
  have hst := h.stake (P := fun _ => true)
  unfold Solvent at hs ⊢
  unfold owed at hs hor ⊢
  cases h with
  | @won n e t x d top b hq he hx hd htop hp =>
    rcases hst with ⟨e1, e2⟩ | ⟨n', x', top', e1, e2, e3, e4⟩
    · rcases e2 n with h | ⟨h, y, hy, hb⟩
      · simp [hx] at h
      · rw [hx] at hy; simp at hy; subst hy; rw [hb] at htop; simp at htop
    · have := auctions_erase (P := fun _ => true) hx
      have := wt_last (P := fun _ => true) htop
      have hb := (hi.ok n x hx).bid top (List.mem_of_getLast? htop)
      refine Paid.left hp (Nat.le_trans (Nat.le_of_eq ?_) hs) hor fun f hf =>
        (hi.ok n x hx).cuts (by omega) hf
      simp only [stake, claims_add]
      simp only [wt1, if_true] at *
      omega
  | @noBid n e t x d hq he hx hd hb =>
    rcases hst with ⟨e1, e2⟩ | ⟨n', x', top', e1, e2, e3, e4⟩
    · rw [e1]; exact hs
    · refine Nat.le_trans (Nat.add_le_add_right ?_ s) hs; omega
  | @missed n e t x d top b err hq he hx hd htop hp =>
    have := hn n e t hq (by rw [hd]; simp)
    simp [hx] at this
  | stray => exact hs

end AucM
