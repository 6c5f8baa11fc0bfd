import Verif.Proofs.Collect
/-
C135: the order in which accounts collect what is due to them does not matter.
-/
variable {c : Cfg} {w w' : World} {a : AccountId}

/-- C135, refunds: whoever claims, in whatever order and however often, everybody who claims has received the own refund exactly
once, nobody else anything, and the pallet's account is short of exactly the sum.  Nothing else has changed. -/
theorem C135_refunds (hc : c.Ok) (hr : Reach c w) (hs : Spec.Covered c 0 w) (l : List AccountId)
    (hl : ∀ a ∈ l, ¬ c.pot a) :
    (∀ y, y ≠ c.aucPot → (run c w (Spec.claimRefunds l)).bal.freeOf y =
      w.bal.freeOf y + if y ∈ l then (w.auc.claims.get y).getD 0 else 0) ∧
    (∀ y, (run c w (Spec.claimRefunds l)).auc.claims.get y = if y ∈ l then none else w.auc.claims.get y) ∧
    (run c w (Spec.claimRefunds l)).bal.freeOf c.aucPot =
      Spec.unlessClosed c.ed (w.bal.freeOf c.aucPot - w.auc.claims.sumBy fun y v => if y ∈ l then v else 0) ∧
    run c w (Spec.claimRefunds l) = { w with
      bal := { w.bal with
        free := (run c w (Spec.claimRefunds l)).bal.free
        issuance := (run c w (Spec.claimRefunds l)).bal.issuance }
      auc := { w.auc with claims := (run c w (Spec.claimRefunds l)).auc.claims } } :=
  let h := Collect.refunds hc l hr hs hl
  ⟨h.1, h.2.1, h.2.2.1, h.2.2.2.1⟩

/-- C135, rewards: whoever is entitled to which rewards, if the tee account holds their sum and an existential deposit, each is paid
in full in every order; the account is short of exactly the sum.  Nothing else has changed. -/
theorem C135_rewards (hr : Reach c w) (l : List (AccountId × Era)) (hd : l.Nodup)
    (hl : ∀ x ∈ l, Spec.MayClaim c w x.1 x.2) (hp : Spec.rewardSum w l + c.ed ≤ w.bal.freeOf c.teePot) :
    (∀ y, y ≠ c.teePot → (run c w (Spec.claimRewards l)).bal.freeOf y =
      w.bal.freeOf y + Spec.rewardSum w (l.filter fun x => x.1 = y)) ∧
    (∀ y E, (run c w (Spec.claimRewards l)).tee.claimed.get (E, y) =
      if (y, E) ∈ l then some (Spec.reward w E y) else w.tee.claimed.get (E, y)) ∧
    (run c w (Spec.claimRewards l)).bal.freeOf c.teePot + Spec.rewardSum w l = w.bal.freeOf c.teePot ∧
    (run c w (Spec.claimRewards l)).evs =
      (l.map fun x => Ev.rewardClaimed x.2 x.1 (Spec.reward w x.2 x.1)).reverse ++ w.evs ∧
    run c w (Spec.claimRewards l) = { w with
      bal := { w.bal with free := (run c w (Spec.claimRewards l)).bal.free }
      tee := { w.tee with claimed := (run c w (Spec.claimRewards l)).tee.claimed }
      evs := (run c w (Spec.claimRewards l)).evs } :=
  Collect.rewards l hr hd hl hp

/-- C135: two orders of the same claims leave everybody with the same, and the same still to be claimed. -/
theorem C135_orders (hc : c.Ok) (hr : Reach c w) {l l' : List AccountId} {r r' : List (AccountId × Era)}
    (hs : Spec.Covered c 0 w) (hl : ∀ a ∈ l, ¬ c.pot a) (hp : l'.Perm l) (hd : r.Nodup)
    (hm : ∀ x ∈ r, Spec.MayClaim c w x.1 x.2) (hb : Spec.rewardSum w r + c.ed ≤ w.bal.freeOf c.teePot)
    (hp' : r'.Perm r) :
    (∀ y, (run c w (Spec.claimRefunds l')).bal.freeOf y = (run c w (Spec.claimRefunds l)).bal.freeOf y) ∧
    (∀ y, (run c w (Spec.claimRefunds l')).auc.claims.get y = (run c w (Spec.claimRefunds l)).auc.claims.get y) ∧
    (∀ y, (run c w (Spec.claimRewards r')).bal.freeOf y = (run c w (Spec.claimRewards r)).bal.freeOf y) ∧
    (∀ k, (run c w (Spec.claimRewards r')).tee.claimed.get k = (run c w (Spec.claimRewards r)).tee.claimed.get k) ∧
    (run c w (Spec.claimRewards r')).evs.Perm (run c w (Spec.claimRewards r)).evs := by
  obtain ⟨a1, a2, a3, _⟩ := C135_refunds hc hr hs l hl
  obtain ⟨b1, b2, b3, _⟩ := C135_refunds hc hr hs l' fun y hy => hl y (hp.mem_iff.1 hy)
  have sum : ∀ {u u' : List (AccountId × Era)}, u'.Perm u → Spec.rewardSum w u' = Spec.rewardSum w u :=
    fun h => List.Perm.sum_nat (h.map _)
  obtain ⟨d1, d2, d3, d4, _⟩ := C135_rewards hr r hd hm hb
  obtain ⟨e1, e2, e3, e4, _⟩ := C135_rewards hr r' (hp'.nodup_iff.2 hd) (fun y hy => hm y (hp'.mem_iff.1 hy))
    (by rw [sum hp']; exact hb)
  refine ⟨fun y => ?_, fun y => ?_, fun y => ?_, fun k => ?_, ?_⟩
  · by_cases h : y = c.aucPot
    · subst h
      rw [a3, b3]; simp only [hp.mem_iff]
    · rw [a1 y h, b1 y h]; simp only [hp.mem_iff]
  · rw [a2, b2]; simp only [hp.mem_iff]
  · by_cases h : y = c.teePot
    · subst h
      have := sum hp'
      omega
    · rw [d1 y h, e1 y h, sum (hp'.filter _)]
  · obtain ⟨E, y⟩ := k
    rw [d2, e2]; simp only [hp'.mem_iff]
  · rw [d4, e4]
    refine List.Perm.append_right _ ?_
    exact (List.reverse_perm _).trans ((hp'.map _).trans (List.reverse_perm _).symm)

/-- an auction is settled: two bidders have refunds -/
abbrev Demo.losers : List Op := auctioned ++ [Demo.by_ 5 (.auc (.addBid 0 450))] ++ blocks 20

-- 2 and 4 claim 400 and 300, 3 has nothing to claim, 4 claims twice
example := C135_refunds Demo.cfg_ok (Demo.reach Demo.losers (by decide)) (by unfold Spec.Covered; decide +kernel) [4, 3, 2, 4]
  (by decide)
example : (Demo.at_ Demo.losers).auc.claims.get 2 = some 400 ∧ (Demo.at_ Demo.losers).auc.claims.get 4 = some 300 ∧
    (Demo.at_ Demo.losers).bal.freeOf Demo.cfg.aucPot = 700 := by decide +kernel

namespace Demo
/-- two bidders have refunds, and two operators can claim the rewards of era 5 -/
abbrev entitled : List Op := losers ++ enclaves ++ [.era 8, .hookTee]

theorem entitled_may {a : AccountId} (h : a = 8 ∨ a = 9) : Spec.MayClaim cfg (at_ entitled) a 5 := by
  rcases h with rfl | rfl <;>
    exact ⟨by decide, by decide, by decide +kernel, ⟨5, by decide +kernel, by decide⟩, ⟨8, by decide +kernel, by decide, by decide⟩,
      by decide +kernel, by unfold Spec.CanGet; decide +kernel⟩

theorem entitled_all : ∀ x ∈ ([(8, 5), (9, 5)] : List (AccountId × Era)), Spec.MayClaim cfg (at_ entitled) x.1 x.2 := by
  intro x hx
  simp only [List.mem_cons, List.not_mem_nil, or_false] at hx
  rcases hx with rfl | rfl
  · exact entitled_may (.inl rfl)
  · exact entitled_may (.inr rfl)
end Demo

-- both claim; each gets 50
example := C135_rewards (c := Demo.cfg) (Demo.reach Demo.entitled (by decide)) [(8, 5), (9, 5)] (by decide) Demo.entitled_all
  (by decide +kernel)
example : Spec.rewardSum (Demo.at_ Demo.entitled) [(8, 5), (9, 5)] = 100 := by decide +kernel

-- refunds and rewards in other orders
example := C135_orders Demo.cfg_ok (Demo.reach Demo.entitled (by decide)) (l := [2, 4]) (l' := [4, 2]) (r := [(8, 5), (9, 5)])
  (r' := [(9, 5), (8, 5)]) (by unfold Spec.Covered; decide +kernel) (by decide) (.swap _ _ _) (by decide) Demo.entitled_all
  (by decide +kernel) (.swap _ _ _)
