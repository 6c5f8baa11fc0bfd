import Verif.Props.Trade
/-
Auctions that the hook has taken off the schedule without settling them.
-/
variable {c : Cfg} {w w' : World} {a : AccountId}

/-- a bid on an auction past its end, or on one already extended, leaves it extended -/
theorem AucM.extend_extended {x : Auction} {now : Block} (hg : 0 < c.grace)
    (h : x.extended = true ∨ x.fin ≤ now) : (AucM.extend c x now).1.extended = true := by
  rw [AucM.extend_eq]
  split
  · rfl
  · rename_i hn
    rcases h with h | h
    · exact h
    · omega

/-- an auction off the schedule is extended or past its end -/
theorem Reach.overdue (hc : c.Ok) (hr : Reach c w) : ∀ n x, w.auc.auctions.get n = some x →
    n ∉ Queue.ids w.auc.deadlines → x.extended = true ∨ x.fin ≤ w.now := by
  induction hr with
  | init hg => obtain ⟨e1, _⟩ := hg.auc; intro n x hx; simp [e1] at hx
  | @step w o hr ho ih =>
    intro n x hx hn
    have hi := hr.auc hc
    have hnow := step_now_le (c := c) w o
    have later : ∀ y : Auction, (y.extended = true ∨ y.fin ≤ w.now) →
        y.extended = true ∨ y.fin ≤ (_root_.step c w o).now := fun y h => h.imp_right fun h => by omega
    rcases step_auc_case w o ho with ⟨a, y, rfl, ha, hact⟩ | ⟨rfl, hact⟩ | e
    · generalize _root_.step c w _ = w' at hact hx hn hnow later ⊢
      cases hact with
      | @create m k s e p bi d km q g1 g2 g3 g4 g5 g6 hd hown hl hk hal hcov hq =>
        obtain ⟨_, rfl⟩ := Queue.insert_some hq
        simp only [Queue.mem_ids_ins, not_or] at hn
        simp only [FMap.get_insert, hn.1, if_false] at hx
        exact later x (ih n x hx hn.2)
      | cancel =>
        simp only [FMap.get_erase] at hx
        split at hx
        · simp at hx
        · rename_i hne
          exact later x (ih n x hx fun h => hn ((Queue.mem_ids_remove hi.wf).2 ⟨h, hne⟩))
      | end_ =>
        simp only [FMap.get_erase] at hx
        split at hx
        · simp at hx
        · rename_i hne
          exact later x (ih n x hx fun h => hn ((Queue.mem_ids_remove hi.wf).2 ⟨h, hne⟩))
      | buyItNow =>
        simp only [FMap.get_erase] at hx
        split at hx
        · simp at hx
        · rename_i hne
          exact later x (ih n x hx fun h => hn ((Queue.mem_ids_remove hi.wf).2 ⟨h, hne⟩))
      | @addBid m v y b dr l q hy h1 h2 h3 h4 h5 h6 h7 =>
        have hq : n ∉ Queue.ids w.auc.deadlines := by
          intro hin
          apply hn
          simp only
          rw [AucM.extend_eq] at h7
          split at h7
          · simp only [AucM.updateDeadline] at h7
            rcases Queue.update_ok h7 with ⟨_, rfl⟩ | ⟨_, rfl⟩
            · exact hin
            · rw [Queue.mem_ids_ins, Queue.mem_ids_remove hi.wf]
              by_cases e : n = m
              · exact Or.inl e
              · exact Or.inr ⟨hin, e⟩
          · simp only [AucM.updateDeadline, Except.ok.injEq] at h7
            subst h7; exact hin
        simp only [FMap.get_insert] at hx
        split at hx
        · subst_vars
          simp only [Option.some.injEq] at hx
          subst hx
          rw [AucM.extend_eq]
          split
          · exact Or.inl rfl
          · exact later y (ih _ y hy hq)
        · exact later x (ih n x hx hq)
      | @removeBid m y v b hy h1 h2 h3 =>
        simp only [FMap.get_insert] at hx
        split at hx
        · subst_vars
          simp only [Option.some.injEq] at hx
          subst hx
          exact later y (ih _ y hy hn)
        · exact later x (ih n x hx hn)
      | claim => exact later x (ih n x hx hn)
    · have hx0 := AucM.pops_sub hact hx
      obtain ⟨d, hd⟩ := AucM.HasNft.of_good (hr.inv hc).good n x hx0
      obtain ⟨hk, hw⟩ := AucM.pops_at hact hi hx0 hd
      rw [hw]
      cases hk with
      | stay _ _ h => exact ih n x hx0 fun g => hn (h.2 g)
      | won _ _ _ _ h => rw [hx] at h; simp at h
      | noBid _ _ _ _ h => rw [hx] at h; simp at h
      | missed _ h => exact Or.inr h
    · rw [e] at hx hn
      exact later x (ih n x hx hn)

/-- without a grace period, an auction off the schedule that was never extended and has no direct price stays -/
theorem step_stuck (hc : c.Ok) (hr : Reach c w) (hg : c.grace = 0) {n : NFTId} {x : Auction}
    (h : w.auc.auctions.get n = some x) (hn : n ∉ Queue.ids w.auc.deadlines) (he : x.extended = false)
    (hb : x.buyIt = none) (o : Op) (ho : o.Ok c) :
    ∃ x', (step c w o).auc.auctions.get n = some x' ∧ n ∉ Queue.ids (step c w o).auc.deadlines ∧
      x'.extended = false ∧ x'.buyIt = none ∧ x'.creator = x.creator := by
  have hi := hr.auc hc
  have hok := hi.ok n x h
  have hst := hok.begun (Or.inr (Or.inr hn))
  rcases step_auc_case w o ho with ⟨a, y, rfl, ha, hact⟩ | ⟨rfl, hact⟩ | e
  · obtain ⟨d, hd⟩ := AucM.HasNft.of_good (hr.inv hc).good n x h
    have hgood := ((hr.inv hc).good n).nft d hd
    generalize step c w _ = w' at hact ⊢
    cases hact with
    | @create m k s e p bi d' km q g1 g2 g3 g4 g5 g6 hd' hown hl hk hal hcov hq =>
      have hne : n ≠ m := by
        rintro rfl
        obtain rfl : d' = d := Option.some.inj (hd'.symm.trans hd)
        have := hgood.listed.2 (Or.inr (by simp [slice, h]))
        rw [hl] at this; cases this
      obtain ⟨_, rfl⟩ := Queue.insert_some hq
      refine ⟨x, by simp [FMap.get_insert, hne, h], ?_, he, hb, rfl⟩
      simp only [Queue.mem_ids_ins, not_or]
      exact ⟨hne, hn⟩
    | @cancel m d' y hd' hy h1 h2 =>
      have hne : n ≠ m := by
        rintro rfl
        obtain rfl : y = x := Option.some.inj (hy.symm.trans h)
        omega
      exact ⟨x, by simp [FMap.get_erase, hne, h], fun hm => hn ((Queue.mem_ids_remove hi.wf).1 hm).1, he, hb, rfl⟩
    | @end_ m d' y top b hd' hy h1 h2 h3 h4 =>
      have hne : n ≠ m := by
        rintro rfl
        obtain rfl : y = x := Option.some.inj (hy.symm.trans h)
        rw [he] at h2; cases h2
      exact ⟨x, by simp [FMap.get_erase, hne, h], fun hm => hn ((Queue.mem_ids_remove hi.wf).1 hm).1, he, hb, rfl⟩
    | @buyItNow m p d' y b hd' hy h1 =>
      have hne : n ≠ m := by
        rintro rfl
        obtain rfl : y = x := Option.some.inj (hy.symm.trans h)
        rw [hb] at h1; cases h1
      exact ⟨x, by simp [FMap.get_erase, hne, h], fun hm => hn ((Queue.mem_ids_remove hi.wf).1 hm).1, he, hb, rfl⟩
    | @addBid m v y b dr l q hy h1 h2 h3 h4 h5 h6 h7 =>
      rw [AucM.extend_eq, if_neg (by omega)] at h7 ⊢
      simp only [AucM.updateDeadline, Except.ok.injEq] at h7
      subst h7
      by_cases e : n = m
      · subst e
        obtain rfl : y = x := Option.some.inj (hy.symm.trans h)
        exact ⟨{ y with bids := l }, by simp, hn, he, hb, rfl⟩
      · exact ⟨x, by simp [FMap.get_insert, e, h], hn, he, hb, rfl⟩
    | @removeBid m y v b hy h1 h2 h3 =>
      by_cases e : n = m
      · subst e
        obtain rfl : y = x := Option.some.inj (hy.symm.trans h)
        exact ⟨{ y with bids := AucM.removeBid a y.bids }, by simp, hn, he, hb, rfl⟩
      · exact ⟨x, by simp [FMap.get_insert, e, h], hn, he, hb, rfl⟩
    | claim => exact ⟨x, h, hn, he, hb, rfl⟩
  · obtain ⟨d, hd⟩ := AucM.HasNft.of_good (hr.inv hc).good n x h
    obtain ⟨hk, hw⟩ := AucM.pops_at hact hi h hd
    cases hk with
    | stay h1 _ h2 => exact ⟨x, h1, fun g => hn (h2.1 g), he, hb, rfl⟩
    | won _ _ g => exact absurd g hn
    | noBid _ _ g => exact absurd g hn
    | missed _ _ g => exact absurd g hn
  · exact ⟨x, by rw [e]; exact h, by rw [e]; exact hn, he, hb, rfl⟩
