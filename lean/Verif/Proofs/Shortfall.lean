import Verif.Props.ShortfallSpec
/-
How far the auction pallet's account can fall behind what it owes.
-/
variable {c : Cfg} {w w' : World} {a : AccountId}

namespace AucM

/-- `δ` is what is lost when an account holding `p` is emptied to `q` -/
def Dust (ed p q δ : Balance) : Prop := δ = 0 ∨ q = 0 ∧ δ < ed ∧ p ≠ 0

/-- payments lose no more than they pay, and the dust of the payer -/
theorem paySeq_lost {src : AccountId} {l : Live} {xs : List (AccountId × Balance)} {b b' : Bal} {r : Except Err Unit}
    (h : paySeq c b src l xs = (b', r)) :
    (∃ δ, b.freeOf src ≤ b'.freeOf src + (xs.map Prod.snd).sum + δ ∧ Dust c.ed (b.freeOf src) (b'.freeOf src) δ) ∧
    (b.freeOf src = 0 → b'.freeOf src = 0) := by
  induction xs generalizing b with
  | nil =>
    simp only [paySeq, Prod.mk.injEq] at h
    obtain ⟨rfl, _⟩ := h
    exact ⟨⟨0, by simp, Or.inl rfl⟩, id⟩
  | cons y t ih =>
    obtain ⟨d, v⟩ := y
    simp only [paySeq] at h
    split at h
    · simp only [Prod.mk.injEq] at h
      obtain ⟨rfl, _⟩ := h
      exact ⟨⟨0, by omega, Or.inl rfl⟩, id⟩
    · rename_i b1 h1
      obtain ⟨δ, p1, p2, p3, p4⟩ := Bal.transfer_moves h1
      obtain ⟨⟨δ', q1, q2⟩, q3⟩ := ih h
      simp only [List.map_cons, List.sum_cons]
      refine ⟨⟨δ + δ', by omega, ?_⟩, fun h0 => q3 (p4 h0).2⟩
      unfold Dust at q2 ⊢
      rcases Nat.eq_zero_or_pos (b.freeOf src) with e | e
      · left; have := p4 e; omega
      · rcases p3 with p3 | ⟨p3, p5, _⟩
        · rcases q2 with q2 | q2 <;> omega
        · have := q3 p3
          rcases q2 with q2 | q2 <;> omega

/-- a settlement takes at most the price, and the dust of the payer -/
theorem payForNft_lost {n src v d x b r} (h : payForNft c w n src v d x = (b, r))
    (hm : ∀ f, w.auc.comm.get n = some f → MktM.feeOnOpt v f ≤ v) :
    (∃ δ, w.bal.freeOf src ≤ b.freeOf src + v + δ ∧ Dust c.ed (w.bal.freeOf src) (b.freeOf src) δ) ∧
    (w.bal.freeOf src = 0 → b.freeOf src = 0) := by
  unfold payForNft at h
  split at h
  · simp only [Prod.mk.injEq] at h
    obtain ⟨rfl, _⟩ := h
    exact ⟨⟨0, by omega, Or.inl rfl⟩, id⟩
  · split at h
    · simp only [Prod.mk.injEq] at h
      obtain ⟨rfl, _⟩ := h
      exact ⟨⟨0, by omega, Or.inl rfl⟩, id⟩
    · rename_i f hf
      obtain ⟨⟨δ, p1, p2⟩, p3⟩ := paySeq_lost h
      have h1 := hm f hf
      have h2 := d.royalty.mul_le (v - MktM.feeOnOpt v f)
      simp only [cuts, List.map_cons, List.map_nil, List.sum_cons, List.sum_nil] at p1
      exact ⟨⟨δ, by omega, p2⟩, p3⟩

theorem transfer_lost {ed : Balance} {b b' : Bal} {s d : AccountId} {v : Balance} {l : Live}
    (h : b.transfer ed s d v l = .ok b') :
    ∃ δ, b.freeOf s ≤ b'.freeOf s + v + δ ∧ Dust ed (b.freeOf s) (b'.freeOf s) δ := by
  obtain ⟨δ, p1, p2, p3, p4⟩ := Bal.transfer_moves h
  refine ⟨δ, by omega, ?_⟩
  unfold Dust
  rcases Nat.eq_zero_or_pos (b.freeOf s) with e | e
  · left; exact (p4 e).1
  · rcases p3 with p3 | ⟨p3, p5, _⟩ <;> omega

/-- a call -/
theorem Act.lost (hi : Inv c w) (hg : ∀ n, Good c (slice w n)) (ha : ¬ c.pot a) {x : Call} (h : Act c w a x w') :
    ∃ δ, owed w' + w.bal.freeOf c.aucPot ≤ w'.bal.freeOf c.aucPot + owed w + δ ∧
      Dust c.ed (w.bal.freeOf c.aucPot) (w'.bal.freeOf c.aucPot) δ := by
  have hst := h.stake (P := fun _ => true) hg
  have hap : c.aucPot ≠ a := not_pot_ne ha Cfg.pot_auc
  unfold owed
  generalize AucM.stake (fun _ => true) w'.auc = S at hst ⊢
  cases h with
  | create => simp only at hst; rw [hst]; exact ⟨0, by dsimp only; omega, Or.inl rfl⟩
  | cancel => simp only at hst; rw [hst]; exact ⟨0, by dsimp only; omega, Or.inl rfl⟩
  | @end_ n d x top b hd hx h1 h2 h3 h4 =>
    obtain ⟨y, t, e1, e2, e3⟩ := hst
    rw [hx] at e1; simp at e1; subst e1
    rw [h3] at e2; simp at e2; subst e2
    simp only [wt1, if_true] at e3
    have hb := (hi.ok n x hx).bid top (List.mem_of_getLast? h3)
    obtain ⟨⟨δ, p1, p2⟩, _⟩ := payForNft_lost h4 fun f hf => (hi.ok n x hx).cuts (by omega) hf
    exact ⟨δ, by dsimp only; omega, p2⟩
  | @addBid n v x b dr l q hx h1 h2 h3 h4 h5 h6 h7 =>
    obtain ⟨y, e1, e3⟩ := hst
    rw [hx] at e1; simp at e1; subst e1
    simp only [wt1, if_true] at e3
    have ho := hi.ok n x hx
    have hv : (findBid a x.bids).getD 0 ≤ v := by
      cases hf : findBid a x.bids with
      | none => simp
      | some u =>
        have := (beats_max h4 ho.ladder (fun y hy => (ho.bid y hy).2.1)).2 _ (findBid_mem hf)
        simp; omega
    have := Bal.transfer_keep h5 c.aucPot hap.symm
    rw [if_pos rfl] at this
    exact ⟨0, by show _ ≤ b.freeOf c.aucPot + _ + _; omega, Or.inl rfl⟩
  | @removeBid n x v b hx h1 h2 h3 =>
    obtain ⟨y, u, e1, e2, e3⟩ := hst
    rw [hx] at e1; simp at e1; subst e1
    rw [h2] at e2; simp at e2; subst e2
    simp only [wt1, if_true] at e3
    obtain ⟨δ, p1, p2⟩ := transfer_lost h3
    exact ⟨δ, by dsimp only; omega, p2⟩
  | @buyItNow n p d x b hd hx h1 h2 h3 h4 h5 =>
    simp only at hst; rw [hst]
    have := payForNft_pays (c := c) (n := n) (src := a) (v := p) (d := d) (x := x) w
    rw [h5] at this
    have := this.mono.free _ hap
    exact ⟨0, by dsimp only at this ⊢; omega, Or.inl rfl⟩
  | @claim v b h1 h2 =>
    obtain ⟨u, e1, e3⟩ := hst
    rw [h1] at e1; simp at e1; subst e1
    simp only [wt1, if_true] at e3
    obtain ⟨δ, p1, p2⟩ := transfer_lost h2
    exact ⟨δ, by dsimp only; omega, p2⟩

/-- one settlement of the hook -/
theorem Pop.lost (hi : Inv c w) (h : Pop c w w') {n e t} (hq : w.auc.deadlines = (n, e) :: t) :
    (∃ δ, owed w' + w.bal.freeOf c.aucPot ≤ w'.bal.freeOf c.aucPot + owed w +
        ((w'.auc.auctions.get n).map Spec.topBid).getD 0 + δ ∧
      Dust c.ed (w.bal.freeOf c.aucPot) (w'.bal.freeOf c.aucPot) δ) ∧
    (w.bal.freeOf c.aucPot = 0 → w'.bal.freeOf c.aucPot = 0) := by
  have hst := h.stake (P := fun _ => true)
  unfold owed
  cases h with
  | @won n' e' t' x d top b hq' he hx hd htop hp =>
    rw [hq] at hq'; simp at hq'; obtain ⟨⟨rfl, rfl⟩, rfl⟩ := hq'
    have hb := (hi.ok n x hx).bid top (List.mem_of_getLast? htop)
    obtain ⟨⟨δ, p1, p2⟩, p3⟩ := payForNft_lost hp fun f hf => (hi.ok n x hx).cuts (by omega) hf
    have := auctions_erase (P := fun _ => true) hx
    have := wt_last (P := fun _ => true) htop
    refine ⟨⟨δ, ?_, p2⟩, p3⟩
    simp only [AucM.stake, claims_add]
    simp only [wt1, if_true] at *
    omega
  | @noBid n' e' t' x d hq' he hx hd hb =>
    refine ⟨⟨0, ?_, Or.inl rfl⟩, id⟩
    have : AucM.stake (fun _ => true) { w.auc with auctions := w.auc.auctions.erase n', deadlines := t' } ≤
        AucM.stake (fun _ => true) w.auc := by
      rcases hst with ⟨e1, _⟩ | ⟨_, _, _, _, _, _, e4⟩
      · exact Nat.le_of_eq e1
      · simp only at e4 ⊢; omega
    simp only at this ⊢
    omega
  | @missed n' e' t' x d top b err hq' he hx hd htop hp =>
    rw [hq] at hq'; simp at hq'; obtain ⟨⟨rfl, rfl⟩, rfl⟩ := hq'
    have hb := (hi.ok n x hx).bid top (List.mem_of_getLast? htop)
    obtain ⟨⟨δ, p1, p2⟩, p3⟩ := payForNft_lost hp fun f hf => (hi.ok n x hx).cuts (by omega) hf
    refine ⟨⟨δ, ?_, p2⟩, p3⟩
    simp only [hx, Option.map_some, Option.getD_some, Spec.topBid, htop]
    show AucM.stake _ w.auc + _ ≤ _
    omega
  | stray =>
    refine ⟨⟨0, ?_, Or.inl rfl⟩, id⟩
    show AucM.stake (fun _ => true) w.auc + w.bal.freeOf c.aucPot ≤ w.bal.freeOf c.aucPot + _ + _ + _
    omega

theorem pops_ids (h : Relation.ReflTransGen (Pop c) w w') {n} (hn : n ∈ Queue.ids w'.auc.deadlines) :
    n ∈ Queue.ids w.auc.deadlines := by
  induction h with
  | refl => exact hn
  | tail _ h4 ih => exact ih (h4.ids_sub hn)

/-- the whole hook -/
theorem pops_lost (h : Relation.ReflTransGen (Pop c) w w') (hi : Inv c w) (hn : HasNft w) :
    (∃ δ, owed w' + w.bal.freeOf c.aucPot ≤ w'.bal.freeOf c.aucPot + owed w + Spec.unpaid w w' + δ ∧
      Dust c.ed (w.bal.freeOf c.aucPot) (w'.bal.freeOf c.aucPot) δ) ∧
    (w.bal.freeOf c.aucPot = 0 → w'.bal.freeOf c.aucPot = 0) := by
  induction h using Relation.ReflTransGen.head_induction_on with
  | refl => exact ⟨⟨0, by omega, Or.inl rfl⟩, id⟩
  | @head w0 w1 h1 h2 ih =>
    have hi1 := hi.pop h1
    obtain ⟨m, e, t, hq, he, ht⟩ := h1.head
    have hm : m ∈ Queue.ids w0.auc.deadlines := by rw [hq]; simp [Queue.ids]
    have hm1 : m ∉ Queue.ids w1.auc.deadlines := by
      have := hi.wf; rw [hq] at this; rw [ht]; exact this.head
    have hm2 : m ∉ Queue.ids w'.auc.deadlines := fun h => hm1 (pops_ids h2 h)
    obtain ⟨⟨δ, p1, p2⟩, p3⟩ := h1.lost hi hq
    obtain ⟨⟨δ', q1, q2⟩, q3⟩ := ih hi1 (hn.pop h1)
    -- the auction at the head, and the rest
    have hu : ((w1.auc.auctions.get m).map Spec.topBid).getD 0 + Spec.unpaid w1 w' ≤ Spec.unpaid w0 w' := by
      have h3 : ∀ k, k ∈ Queue.ids w0.auc.deadlines ↔ k = m ∨ k ∈ Queue.ids w1.auc.deadlines := by
        intro k; rw [hq, ht]; simp [Queue.ids]
      unfold Spec.unpaid
      rw [FMap.sumBy_split _ w'.auc.auctions m, FMap.sumBy_split _ w'.auc.auctions m]
      have h4 : (w'.auc.auctions.erase m).sumBy (fun n x =>
          if n ∈ w1.auc.deadlines.map Prod.fst ∧ n ∉ w'.auc.deadlines.map Prod.fst then Spec.topBid x else 0) ≤
          (w'.auc.auctions.erase m).sumBy (fun n x =>
          if n ∈ w0.auc.deadlines.map Prod.fst ∧ n ∉ w'.auc.deadlines.map Prod.fst then Spec.topBid x else 0) := by
        refine FMap.sumBy_le_sumBy fun k v _ => ?_
        by_cases hk : k ∈ w1.auc.deadlines.map Prod.fst
        · have : k ∈ w0.auc.deadlines.map Prod.fst := (h3 k).2 (Or.inr hk)
          simp only [hk, this]; exact Nat.le_refl _
        · simp [hk]
      refine Nat.le_trans ?_ (Nat.add_le_add_left h4 _)
      cases hx : w1.auc.auctions.get m with
      | none =>
        have h5 : w'.auc.auctions.get m = none := by
          cases h6 : w'.auc.auctions.get m with
          | none => rfl
          | some y => have := pops_sub h2 h6; rw [hx] at this; simp at this
        rw [h5]; simp
      | some x =>
        obtain ⟨d, hd⟩ := hn.pop h1 m x hx
        have h5 : w'.auc.auctions.get m = some x := by
          rcases (pops_at h2 hi1 hx hd).1 with ⟨e1, _, _⟩ | ⟨_, _, e3, _⟩ | ⟨_, _, e3, _⟩ | ⟨_, _, e3, _⟩
          · exact e1
          · exact absurd e3 hm1
          · exact absurd e3 hm1
          · exact absurd e3 hm1
        have g1 : m ∉ w1.auc.deadlines.map Prod.fst := hm1
        have g2 : m ∉ w'.auc.deadlines.map Prod.fst := hm2
        have g0 : m ∈ w0.auc.deadlines.map Prod.fst := hm
        rw [h5]
        simp only [g0, g1, g2, not_false_eq_true, and_self, false_and, if_true, if_false, Option.map_some,
          Option.getD_some]
        omega
    refine ⟨⟨δ + δ', by omega, ?_⟩, fun h => q3 (p3 h)⟩
    unfold Dust at p2 q2 ⊢
    rcases p2 with p2 | ⟨p2, p4, p5⟩
    · rcases q2 with q2 | ⟨q2, q4, q5⟩
      · left; omega
      · right
        refine ⟨q2, by omega, fun h => q5 (p3 h)⟩
    · have := q3 p2
      rcases q2 with q2 | q2 <;> omega

end AucM

/-- one step -/
theorem step_lost (hc : c.Ok) (hr : Reach c w) (o : Op) (ho : o.Ok c) :
    ∃ δ, Spec.owed (step c w o) + w.bal.freeOf c.aucPot ≤
        (step c w o).bal.freeOf c.aucPot + Spec.owed w + Spec.unpaid w (step c w o) + δ ∧
      AucM.Dust c.ed (w.bal.freeOf c.aucPot) ((step c w o).bal.freeOf c.aucPot) δ := by
  have hi := hr.auc hc
  have hg := (hr.inv hc).good
  have ow : ∀ w, Spec.owed w = AucM.owed w := fun w => (AucM.owed_eq w).symm
  simp only [ow]
  by_cases ha : ∃ a x, o = .call (.signed a) (.auc x)
  · obtain ⟨a, x, rfl⟩ := ha
    simp only [step]
    cases hd : dispatch c (.auc x) (.signed a) w with
    | error e =>
      refine ⟨0, ?_, Or.inl rfl⟩
      show AucM.owed w + w.bal.freeOf c.aucPot ≤ w.bal.freeOf c.aucPot + AucM.owed w + _ + _
      omega
    | ok w' =>
      obtain ⟨δ, h1, h2⟩ := AucM.Act.lost hi hg ho (auc_act hd)
      refine ⟨δ, ?_, h2⟩
      show AucM.owed w' + w.bal.freeOf c.aucPot ≤ w'.bal.freeOf c.aucPot + AucM.owed w + Spec.unpaid w w' + δ
      omega
  · by_cases hk : o = .hookAuc
    · subst hk
      exact (AucM.pops_lost (AucM.hook_pops w) hi (AucM.HasNft.of_good hg)).1
    · have hauc : (step c w o).auc = w.auc := by
        rcases step_auc_case w o ho with ⟨a, x, rfl, _⟩ | ⟨rfl, _⟩ | e
        · exact absurd ⟨a, x, rfl⟩ ha
        · exact absurd rfl hk
        · exact e
      have hf : w.bal.freeOf c.aucPot ≤ (step c w o).bal.freeOf c.aucPot := by
        rcases step_pot_free hc hr o ho Cfg.pot_auc with h | ⟨_, h | h⟩ | ⟨h, _⟩ | ⟨h, _⟩ | ⟨h, _⟩
        · exact h
        · exact absurd h ha
        · exact absurd h hk
        · exact absurd h hc.ar
        · exact absurd h hc.at_
        · exact absurd h hc.aw
      refine ⟨0, ?_, Or.inl rfl⟩
      unfold AucM.owed
      rw [hauc]; omega
