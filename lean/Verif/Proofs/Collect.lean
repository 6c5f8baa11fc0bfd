import Verif.Props.CollectSpec
/-
Several accounts collect what is due to them.
-/
variable {c : Cfg} {w w' : World} {a : AccountId}

namespace Collect

/-- two worlds differ in what accounts hold, in the refunds to be claimed, and nothing else -/
def SameButRefunds (w w' : World) : Prop :=
  w' = { w with
    bal := { w.bal with free := w'.bal.free, issuance := w'.bal.issuance }
    auc := { w.auc with claims := w'.auc.claims } }

theorem SameButRefunds.trans {w1 w2 w3 : World} (h1 : SameButRefunds w1 w2) (h2 : SameButRefunds w2 w3) :
    SameButRefunds w1 w3 := by
  unfold SameButRefunds at *
  rw [h2, h1]

theorem pot_wf (hr : Reach c w) (p : AccountId) : w.bal.freeOf p = 0 ∨ c.ed ≤ w.bal.freeOf p := by
  unfold Bal.freeOf
  cases h : w.bal.free.get p with
  | none => exact Or.inl rfl
  | some v => exact Or.inr (hr.micro.balInv.wf.ed p v h)

theorem closed_twice {ed P v S : Balance} (hz : S = 0 ∨ ed ≤ S) (hle : S ≤ Spec.unlessClosed ed (P - v)) :
    Spec.unlessClosed ed (Spec.unlessClosed ed (P - v) - S) = Spec.unlessClosed ed (P - (v + S)) := by
  unfold Spec.unlessClosed at *
  split at hle
  · rename_i h; rw [if_pos h]; split <;> split <;> omega
  · rename_i h; rw [if_neg h]; split <;> split <;> omega

/-- one refund -/
theorem refund (hc : c.Ok) (hr : Reach c w) (hs : Spec.Covered c 0 w) {v : Balance} (h : w.auc.claims.get a = some v) :
    ∃ b, step c w (.call (.signed a) (.auc .claim)) = { w with
        bal := b, auc := { w.auc with claims := w.auc.claims.erase a } } ∧
      (∀ y, y ≠ c.aucPot → b.freeOf y = w.bal.freeOf y + if y = a then v else 0) ∧
      b.freeOf c.aucPot = Spec.unlessClosed c.ed (w.bal.freeOf c.aucPot - v) ∧
      b = { w.bal with free := b.free, issuance := b.issuance } ∧ ¬ c.pot a ∧
      v ≤ w.bal.freeOf c.aucPot := by
  have hi := hr.auc hc
  obtain ⟨hv, hp⟩ := hi.claims a v h
  have hap : c.aucPot ≠ a := not_pot_ne hp Cfg.pot_auc
  have hle : v ≤ Spec.owed w := by
    unfold Spec.owed
    exact Nat.le_trans (FMap.sumBy_le_of_get (f := fun _ v => v) h) (Nat.le_add_right _ _)
  unfold Spec.Covered at hs
  obtain ⟨b, hb, _⟩ := Bal.transfer_solvent (o := 0) (ed := c.ed) (b := w.bal) (s := c.aucPot) (d := a)
    (v := v) (hr.micro.balInv.pots _ Cfg.pot_auc) (by omega) (Or.inl rfl) (Or.inr (by omega)) hap
  have hd : dispatch c (.auc .claim) (.signed a) w = .ok { w with
      bal := b
      auc := { w.auc with claims := w.auc.claims.erase a } } := by
    simp [dispatch, signedCall, AucM.call, AucM.claim, h, getOr, hb, World.putBal, bind, Except.bind,
      pure, Except.pure]
  have hf := Bal.transfer_free hb hap
  obtain ⟨l1, l2, l3⟩ := Bal.transfer_locks hb
  refine ⟨b, by simp only [step, hd]; rfl, fun y hy => ?_, ?_, ?_, hp, by omega⟩
  · rw [hf y]
    by_cases e : y = a
    · subst e; simp
    · simp [e, hy]
  · rw [hf]
    simp only [hap, if_false, if_true, Spec.unlessClosed]
    rw [if_neg (by omega)]
  · cases b; simp_all

/-- no refund -/
theorem no_refund (h : w.auc.claims.get a = none) : step c w (.call (.signed a) (.auc .claim)) = w := by
  simp only [step, dispatch, signedCall, AucM.call, AucM.claim, h, getOr]
  rfl

/-- refunds, in any order -/
theorem refunds (hc : c.Ok) (l : List AccountId) {w : World} (hr : Reach c w) (hs : Spec.Covered c 0 w)
    (hl : ∀ a ∈ l, ¬ c.pot a) :
    (∀ y, y ≠ c.aucPot → (run c w (Spec.claimRefunds l)).bal.freeOf y =
      w.bal.freeOf y + if y ∈ l then (w.auc.claims.get y).getD 0 else 0) ∧
    (∀ y, (run c w (Spec.claimRefunds l)).auc.claims.get y = if y ∈ l then none else w.auc.claims.get y) ∧
    (run c w (Spec.claimRefunds l)).bal.freeOf c.aucPot =
      Spec.unlessClosed c.ed (w.bal.freeOf c.aucPot - w.auc.claims.sumBy fun y v => if y ∈ l then v else 0) ∧
    SameButRefunds w (run c w (Spec.claimRefunds l)) ∧ Spec.Covered c 0 (run c w (Spec.claimRefunds l)) := by
  induction l generalizing w with
  | nil =>
    refine ⟨fun y _ => by simp [Spec.claimRefunds, run], fun y => by simp [Spec.claimRefunds, run], ?_, rfl, hs⟩
    have := pot_wf hr c.aucPot
    rw [FMap.sumBy_zero (by simp)]
    simp only [Spec.claimRefunds, List.map_nil, run, Spec.unlessClosed, Nat.sub_zero]
    show w.bal.freeOf c.aucPot = _
    split <;> omega
  | cons a t ih =>
    have ha := hl a (by simp)
    have hstep : run c w (Spec.claimRefunds (a :: t)) =
      run c (step c w (.call (.signed a) (.auc .claim))) (Spec.claimRefunds t) := rfl
    rw [hstep]
    have hr1 : Reach c (step c w (.call (.signed a) (.auc .claim))) := hr.step _ ha
    have hs1 := step_covered hc hr (Or.inl rfl) hs (.call (.signed a) (.auc .claim)) ha (fun h => by simp at h)
    cases hv : w.auc.claims.get a with
    | none =>
      rw [no_refund hv] at *
      obtain ⟨h1, h2, h3, h4, h5⟩ := ih hr1 hs1 fun y hy => hl y (by simp [hy])
      refine ⟨fun y hy => ?_, fun y => ?_, ?_, h4, h5⟩
      · rw [h1 y hy]
        by_cases e : y = a
        · subst e; simp [hv]
        · simp [e]
      · rw [h2 y]
        by_cases e : y = a
        · subst e; simp [hv]
        · simp [e]
      · rw [h3]
        congr 2
        refine FMap.sumBy_congr fun k v hk => ?_
        have : k ≠ a := by rintro rfl; rw [hv] at hk; simp at hk
        simp [this]
    | some v =>
      obtain ⟨b, e1, e2, e3, e4, _, e5⟩ := refund hc hr hs hv
      rw [e1] at hr1 hs1 ⊢
      have hi1 := hr1.auc hc
      obtain ⟨h1, h2, h3, h4, h5⟩ := ih hr1 hs1 fun y hy => hl y (by simp [hy])
      refine ⟨fun y hy => ?_, fun y => ?_, ?_, SameButRefunds.trans (by unfold SameButRefunds; rw [← e4]) h4, h5⟩
      · rw [h1 y hy]
        simp only [e2 y hy, FMap.get_erase]
        by_cases e : y = a
        · subst e; simp [hv]
        · simp [e]
      · rw [h2 y]
        simp only [FMap.get_erase]
        by_cases e : y = a
        · subst e; simp
        · simp [e]
      · rw [h3]
        simp only [e3]
        rw [FMap.sumBy_split (fun y v => if y ∈ a :: t then v else 0) w.auc.claims a, hv]
        have hcong : (w.auc.claims.erase a).sumBy (fun y v => if y ∈ a :: t then v else 0) =
            (w.auc.claims.erase a).sumBy fun y v => if y ∈ t then v else 0 := by
          refine FMap.sumBy_congr fun k u hk => ?_
          have : k ≠ a := by rintro rfl; simp at hk
          simp [this]
        rw [hcong]
        -- nothing, or more than the existential deposit, is still to be paid
        have hz : ((w.auc.claims.erase a).sumBy fun y v => if y ∈ t then v else 0) = 0 ∨
            c.ed ≤ (w.auc.claims.erase a).sumBy fun y v => if y ∈ t then v else 0 := by
          refine AucM.sum_zero_or _ fun k u hk => ?_
          have := (hi1.claims k u hk).1
          split
          · right; omega
          · left; rfl
        have hle : ((w.auc.claims.erase a).sumBy fun y v => if y ∈ t then v else 0) ≤ b.freeOf c.aucPot := by
          unfold Spec.Covered Spec.owed at hs1
          refine Nat.le_trans ?_ (Nat.le_trans (Nat.le_trans (Nat.le_add_right _ _) (Nat.le_add_right _ _)) hs1)
          exact FMap.sumBy_le_sumBy fun k u _ => by split <;> omega
        rw [e3] at hle
        simp only [List.mem_cons, true_or, if_true]
        exact closed_twice hz hle

/-- two worlds differ in what accounts hold, in the rewards claimed, in the events, and nothing else -/
def SameButRewards (w w' : World) : Prop :=
  w' = { w with
    bal := { w.bal with free := w'.bal.free }
    tee := { w.tee with claimed := w'.tee.claimed }
    evs := w'.evs }

theorem SameButRewards.trans {w1 w2 w3 : World} (h1 : SameButRewards w1 w2) (h2 : SameButRewards w2 w3) :
    SameButRewards w1 w3 := by
  unfold SameButRewards at *
  rw [h2, h1]

/-- one reward -/
theorem reward (hr : Reach c w) {E : Era} (hm : Spec.MayClaim c w a E)
    (hp : Spec.reward w E a + c.ed ≤ w.bal.freeOf c.teePot) :
    ∃ b, step c w (.call (.signed a) (.tee (.claim E))) = { w with
        bal := b
        tee := { w.tee with claimed := w.tee.claimed.insert (E, a) (Spec.reward w E a) }
        evs := .rewardClaimed E a (Spec.reward w E a) :: w.evs } ∧
      b.freeOf c.teePot + Spec.reward w E a = w.bal.freeOf c.teePot ∧
      (∀ y, y ≠ c.teePot → b.freeOf y = w.bal.freeOf y + if y = a then Spec.reward w E a else 0) ∧
      b = { w.bal with free := b.free } := by
  obtain ⟨h0, h1, h2, ⟨s, h3, h4⟩, ⟨A, h5, h6, h7⟩, h8, h9⟩ := hm
  obtain ⟨e, he⟩ := Option.ne_none_iff_exists'.1 h2
  have hap : a ≠ c.teePot := (not_pot_ne h0 Cfg.pot_tee).symm
  have hfz : w.bal.frozen c.teePot = 0 := hr.micro.balInv.pots _ Cfg.pot_tee
  obtain ⟨b, hd, g1, g2, g3, g4, g5⟩ := C73_claim_partial h1 he h3 h4 h5 h6 h7 h8
    (Spec.canPay_iff.2 (by omega)) h9
  refine ⟨b, by simp only [step, hd]; rfl, ?_, fun y hy => ?_, ?_⟩
  · have := g1 c.teePot
    simp only [Spec.gets, if_true, hap.symm, if_false] at this
    omega
  · have := g1 y
    simp only [Spec.gets, hy, if_false] at this
    omega
  · cases b; simp_all

/-- rewards, in any order -/
theorem rewards (l : List (AccountId × Era)) {w : World} (hr : Reach c w) (hd : l.Nodup)
    (hl : ∀ x ∈ l, Spec.MayClaim c w x.1 x.2) (hp : Spec.rewardSum w l + c.ed ≤ w.bal.freeOf c.teePot) :
    (∀ y, y ≠ c.teePot → (run c w (Spec.claimRewards l)).bal.freeOf y =
      w.bal.freeOf y + Spec.rewardSum w (l.filter fun x => x.1 = y)) ∧
    (∀ y E, (run c w (Spec.claimRewards l)).tee.claimed.get (E, y) =
      if (y, E) ∈ l then some (Spec.reward w E y) else w.tee.claimed.get (E, y)) ∧
    (run c w (Spec.claimRewards l)).bal.freeOf c.teePot + Spec.rewardSum w l = w.bal.freeOf c.teePot ∧
    (run c w (Spec.claimRewards l)).evs =
      (l.map fun x => Ev.rewardClaimed x.2 x.1 (Spec.reward w x.2 x.1)).reverse ++ w.evs ∧
    SameButRewards w (run c w (Spec.claimRewards l)) := by
  induction l generalizing w with
  | nil =>
    exact ⟨fun y _ => by simp [Spec.claimRewards, Spec.rewardSum, run], fun y E => by simp [Spec.claimRewards, run],
      by simp [Spec.claimRewards, Spec.rewardSum, run], by simp [Spec.claimRewards, run], rfl⟩
  | cons x t ih =>
    obtain ⟨a, E⟩ := x
    have hm : Spec.MayClaim c w a E := hl (a, E) (by simp)
    simp only [List.nodup_cons] at hd
    have hsum : Spec.rewardSum w ((a, E) :: t) = Spec.reward w E a + Spec.rewardSum w t := by
      simp [Spec.rewardSum]
    obtain ⟨b, e1, e2, e3, e4⟩ := reward hr hm (by omega)
    have hstep : run c w (Spec.claimRewards ((a, E) :: t)) =
      run c (step c w (.call (.signed a) (.tee (.claim E)))) (Spec.claimRewards t) := rfl
    rw [hstep]
    have hr1 : Reach c (step c w (.call (.signed a) (.tee (.claim E)))) := hr.step _ hm.user
    rw [e1] at hr1 ⊢
    have hrew : ∀ E' y, Spec.reward { w with
        bal := b
        tee := { w.tee with claimed := w.tee.claimed.insert (E, a) (Spec.reward w E a) }
        evs := .rewardClaimed E a (Spec.reward w E a) :: w.evs } E' y = Spec.reward w E' y := fun _ _ => rfl
    have hrs : ∀ l, Spec.rewardSum { w with
        bal := b
        tee := { w.tee with claimed := w.tee.claimed.insert (E, a) (Spec.reward w E a) }
        evs := .rewardClaimed E a (Spec.reward w E a) :: w.evs } l = Spec.rewardSum w l := fun _ => rfl
    have hap : a ≠ c.teePot := (not_pot_ne hm.user Cfg.pot_tee).symm
    obtain ⟨h1, h2, h3, h4, h5⟩ := ih hr1 hd.2 (fun y hy => by
        obtain ⟨g0, g1, g2, g3, g4, g5, g6⟩ := hl y (by simp [hy])
        have hyp : y.1 ≠ c.teePot := (not_pot_ne g0 Cfg.pot_tee).symm
        refine ⟨g0, g1, g2, g3, g4, ?_, ?_⟩
        · show (w.tee.claimed.insert _ _).get _ = none
          rw [FMap.get_insert, if_neg, g5]
          intro e
          simp only [Prod.mk.injEq] at e
          obtain ⟨y1, y2⟩ := y
          obtain ⟨rfl, rfl⟩ := e
          exact hd.1 hy
        · unfold Spec.CanGet at g6 ⊢
          rw [hrew]
          refine g6.imp_right fun g => ?_
          show _ ≤ b.freeOf _ + _
          rw [e3 _ hyp]; omega)
      (by rw [hrs]; show _ ≤ b.freeOf _; omega)
    simp only [hrew, hrs] at h1 h2 h3 h4
    have key : ∀ X P Q R S : Nat, X + S = P → P + R = Q → X + (R + S) = Q := by intros; omega
    refine ⟨fun y hy => ?_, fun y E' => ?_, by rw [hsum]; exact key _ _ _ _ _ h3 e2, ?_, SameButRewards.trans (by unfold SameButRewards; rw [← e4]) h5⟩
    · rw [h1 y hy, e3 y hy]
      by_cases e : a = y
      · subst e; simp [Spec.rewardSum]; omega
      · have : y ≠ a := Ne.symm e
        simp [Spec.rewardSum, e, this]
    · rw [h2 y E']
      simp only [FMap.get_insert, List.mem_cons, Prod.mk.injEq]
      by_cases e : (y, E') ∈ t
      · simp [e]
      · simp only [e, if_false, or_false]
        by_cases e' : y = a ∧ E' = E
        · obtain ⟨rfl, rfl⟩ := e'; simp
        · rw [if_neg e', if_neg (by rintro ⟨rfl, rfl⟩; exact e' ⟨rfl, rfl⟩)]
    · rw [h4]; simp

end Collect
