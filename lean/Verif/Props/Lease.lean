import Verif.Props.LeaseSpec
import Verif.Props.Rent
import Verif.Proofs.Pay
/-
C149: how long a subscription lasts that the renter can neither revoke nor change.
-/
open Spec

variable {c : Cfg} {w w' : World}

namespace Lease

theorem sum_ins (f : NFTId × Block → Nat) (n : NFTId) (b : Block) (q : Queue) :
    ((Queue.ins n b q).map f).sum = f (n, b) + (q.map f).sum := by
  induction q with
  | nil => simp [Queue.ins]
  | cons x t ih =>
    obtain ⟨m, y⟩ := x
    simp only [Queue.ins]
    split
    · simp
    · simp [ih]; omega

theorem sum_remove (f : NFTId × Block → Nat) {n : NFTId} {b : Block} {q : Queue} (hq : q.ids.Nodup) (h : (n, b) ∈ q) :
    ((q.remove n).map f).sum + f (n, b) = (q.map f).sum := by
  induction q with
  | nil => simp at h
  | cons x t ih =>
    obtain ⟨m, y⟩ := x
    simp only [Queue.ids, List.map_cons, List.nodup_cons] at hq
    simp only [Queue.remove]
    split
    · rename_i e
      subst e
      have : (m, b) = (m, y) := by
        rcases List.mem_cons.1 h with h | h
        · exact h
        · exact absurd (List.mem_map.2 ⟨_, h, rfl⟩) hq.1
      rw [this]; simp; omega
    · rename_i e
      rcases List.mem_cons.1 h with h | h
      · simp at h; exact absurd h.1.symm e
      · have := ih hq.2 h
        simp; omega

theorem sum_le (f : NFTId × Block → Nat) {q : Queue} {x : NFTId × Block} (h : x ∈ q) : f x ≤ (q.map f).sum := by
  induction q with
  | nil => simp at h
  | cons y t ih =>
    rcases List.mem_cons.1 h with rfl | h
    · simp
    · have := ih h; simp; omega

theorem sum_mono (f g : NFTId × Block → Nat) {q : Queue} (h : ∀ x ∈ q, f x ≤ g x) : (q.map f).sum ≤ (q.map g).sum := by
  induction q with
  | nil => simp
  | cons y t ih =>
    have h1 := h y (by simp)
    have h2 := ih fun x hx => h x (by simp [hx])
    simp; omega

theorem sum_remove_le (f : NFTId × Block → Nat) {n : NFTId} {q : Queue} : ((q.remove n).map f).sum ≤ (q.map f).sum := by
  induction q with
  | nil => simp [Queue.remove]
  | cons x t ih =>
    obtain ⟨m, y⟩ := x
    simp only [Queue.remove]
    split
    · simp
    · simp; omega

/-- what stays during the hook -/
structure Inv (c : Cfg) (w : World) (n : NFTId) (k : Contract) (r : AccountId) : Prop where
  there : w.rent.contracts.get n = some k
  pay : owing w r + max c.ed (w.bal.frozen r) ≤ w.bal.freeOf r
  get : ∀ v, k.rentFee = .tokens v → v = 0 ∨ c.ed ≤ w.bal.freeOf k.renter + v

theorem tick {n : NFTId} {k : Contract} {r : AccountId} {s : Block} {u : Subscription} (hi : RentM.RInv c w) (h : RentM.Tick c w w')
    (hr : k.rentee = some r) (hs : k.start = some s) (hu : k.duration = .sub u) (hn : u.newTerms = false)
    (hm : w.now < s + u.maxDur) (v : Inv c w n k r) : Inv c w' n k r := by
  have hrp : c.rentPot ≠ r := (hi.parties v.there).2 r hr
  have hpp : c.rentPot ≠ k.renter := (hi.parties v.there).1
  cases h with
  | @finish m k' b f hk' ho hf =>
    have hne : n ≠ m := by
      rintro rfl
      rw [v.there] at hk'; simp at hk'; subst hk'
      cases ho with
      | unused h1 => rw [hr] at h1; simp at h1
      | fixed _ _ h1 => rw [hu] at h1; simp at h1
      | @sub r' s' u' b' fee h1 h2 h3 h4 h5 h6 h7 =>
        rw [hr] at h1; rw [hs] at h2; rw [hu] at h3
        simp at h1 h2 h3; subst h1 h2 h3
        rcases h7 with h7 | h7 | ⟨e, h7⟩
        · rw [hn] at h7; simp at h7
        · omega
        · have hb := sum_le (fun e => if e.2 ≤ w.now then owes w r e.1 else 0) h5
          simp only [h6, if_true, owes, v.there, hr, h4] at hb
          have hp := v.pay
          unfold owing at hp
          obtain ⟨b', hb'⟩ := Bal.transfer_pays (b := w.bal) (ed := c.ed) (s := r) (d := k.renter) (v := fee)
            (by simp only [owes] at hp; omega) ((v.get fee h4).imp_right Or.inr)
          rw [hb'] at h7; simp at h7
    obtain ⟨d, b1, _, t1, t2, _⟩ := hf
    have m1 := (Bal.transfer_mono t1).trans (Bal.transfer_mono t2)
    have hfr : b.frozen r = w.bal.frozen r := by simp [Bal.frozen, m1.tee, m1.other]
    refine ⟨by simp only [FMap.get_erase, hne, if_false]; exact v.there, ?_, fun x hx => ?_⟩
    · have g1 := m1.free r (fun e => hrp e.symm)
      have hp := v.pay
      have : owing { w with
          bal := b
          nfts := f
          rent := { w.rent with
            contracts := w.rent.contracts.erase m
            fixedQ := w.rent.fixedQ.remove m
            subQ := w.rent.subQ.remove m
            availQ := w.rent.availQ.remove m } } r ≤ owing w r := by
        unfold owing
        refine Nat.le_trans (sum_mono _ (fun e => if e.2 ≤ w.now then owes w r e.1 else 0) fun e _ => ?_) (sum_remove_le _)
        simp only
        split
        · simp only [owes, FMap.get_erase]
          by_cases he : e.1 = m <;> simp [he]
        · exact Nat.le_refl _
      refine Nat.le_trans (Nat.add_le_add_right this _) ?_
      simp only [hfr]
      omega
    · have g1 := m1.free k.renter (fun e => hpp e.symm)
      rcases v.get x hx with h | h
      · exact Or.inl h
      · exact Or.inr (by simp only; omega)
  | @renew m b k' r' s' u' fee bal h1 h2 h3 h4 h5 h6 h7 h8 h9 h10 =>
    have hper : 0 < u'.period := by
      have := (hi.q.con m k' h3).period.1
      rwa [h6] at this
    have hbill : owes w r m = if k'.rentee = some r then fee else 0 := by simp [owes, h3, h7]
    have hm1 := Bal.transfer_mono h10
    have hfr : bal.frozen r = w.bal.frozen r := by simp [Bal.frozen, hm1.tee, hm1.other]
    have hrem := sum_remove (fun e => if e.2 ≤ w.now then owes w r e.1 else 0) hi.q.wfS.nd h1
    simp only [h2, if_true, hbill] at hrem
    have hbills : owing { w with
        bal := bal
        rent := { w.rent with subQ := Queue.ins m (w.now + u'.period) (w.rent.subQ.remove m) } } r =
        ((w.rent.subQ.remove m).map fun e => if e.2 ≤ w.now then owes w r e.1 else 0).sum := by
      have e := sum_ins (fun e => if e.2 ≤ w.now then owes w r e.1 else 0) m (w.now + u'.period) (w.rent.subQ.remove m)
      have hnot : ¬ (w.now + u'.period ≤ w.now) := by omega
      simp only [hnot, if_false, Nat.zero_add] at e
      exact e
    have hp := v.pay
    refine ⟨v.there, ?_, fun x hx => ?_⟩
    · rw [hbills]
      simp only [hfr]
      unfold owing at hp
      by_cases e : r' = r
      · subst e
        rw [if_pos h4] at hrem
        by_cases hself : r' = k'.renter
        · rw [← hself] at h10
          rw [Bal.transfer_self h10]
          omega
        · rw [Bal.transfer_keep h10 _ hself, if_neg hself, if_pos rfl]
          omega
      · have := hm1.free r (fun h => e h.symm)
        omega
    · rcases v.get x hx with h | h
      · exact Or.inl h
      · right
        simp only
        by_cases e : r' = k.renter
        · subst e
          by_cases hself : k.renter = k'.renter
          · rw [← hself] at h10
            rw [Bal.transfer_self h10]
            exact h
          · rcases Bal.transfer_ok h10 with ⟨_, rfl⟩ | ⟨_, _, g3, g4, _, _⟩
            · exact h
            · rw [Bal.transfer_keep h10 _ hself, if_neg hself, if_pos rfl]
              have : ¬ (w.bal.freeOf k.renter - fee < c.ed) := fun hl => by
                have := (g4.2 hl).1; simp at this
              omega
        · have := hm1.free k.renter (fun h => e h.symm)
          omega

theorem ticks {n : NFTId} {k : Contract} {r : AccountId} {s : Block} {u : Subscription} (h : RentM.Ticks c w w')
    (hr : k.rentee = some r) (hs : k.start = some s) (hu : k.duration = .sub u) (hn : u.newTerms = false)
    (hm : w.now < s + u.maxDur) (v : Inv c w n k r) : Inv c w' n k r := by
  induction h with
  | refl => exact v
  | @tail w1 w2 h1 h2 ih =>
    exact tick h2.1 h2.2.2 hr hs hu hn (by rw [RentM.Ticks.now h1]; exact hm) ih

end Lease

/-- **C149**, what holds of it: a subscription that the renter can neither revoke nor change goes on through every operation but
the rentee's own revocation, until the maximal duration is over.  The hook renews it or leaves it alone if the rentee can pay
what is due and the renter can receive it.  Missing: subscriptions that can be changed, and a renter without account. -/
theorem C149_step_partial (hc : c.Ok) (hr : Reach c w) {n : NFTId} {k : Contract} {r : AccountId} {s : Block} {u : Subscription}
    (h : Firm w n k r s u) (o : Op) (ho : o.Ok c) (hno : o ≠ .call (.signed r) (.rent (.revoke n)))
    (hook : o = .hookRent → w.now < s + u.maxDur ∧ Solvent c w r k) : Firm (step c w o) n k r s u := by
  obtain ⟨h1, h2, h3, h4, h5, h6, h7⟩ := h
  refine ⟨?_, h2, h3, h4, h5, h6, h7⟩
  have ht := step_rent_turn hc hr o ho h1
  have hcase := step_rent_case hc hr o ho
  generalize hw : step c w o = w' at ht hcase ⊢
  cases ht with
  | stay h => exact h
  | cancel h => rw [h2] at h; simp at h
  | @revoke a r' _ g1 g2 =>
    rw [h2] at g1; simp at g1; subst g1
    rcases g2 with rfl | ⟨rfl, g2⟩
    · exact absurd rfl hno
    · rw [h5] at g2; simp at g2
  | start h => rw [h2] at h; simp at h
  | change g1 g2 => rw [h4] at g1; simp at g1; subst g1; rw [h6] at g2; simp at g2
  | accept g1 g2 g3 => rw [h4] at g2; simp at g2; subst g2; rw [h7] at g3; simp at g3
  | over _ _ _ _ =>
    obtain ⟨g1, g2⟩ := hook rfl
    rcases hcase with ⟨_, _, e, _⟩ | ⟨_, hct⟩ | e
    · simp at e
    · exact (Lease.ticks hct h2 h3 h4 h7 g1 ⟨h1, g2.1, g2.2⟩).there
    · rw [e]; exact h1

/-- C149 over histories of any length: as long as the rentee can pay when a period is over and does not revoke, the rental goes on
until its maximal duration is over. -/
theorem C149_partial (hc : c.Ok) (hr : Reach c w) {n : NFTId} {k : Contract} {r : AccountId} {s : Block} {u : Subscription}
    (h : Firm w n k r s u) (l : List Op) (hl : ∀ o ∈ l, o.Ok c) (hno : Op.call (.signed r) (.rent (.revoke n)) ∉ l)
    (hook : ∀ l1 l2, l = l1 ++ .hookRent :: l2 → (run c w l1).now < s + u.maxDur ∧ Solvent c (run c w l1) r k) :
    Firm (run c w l) n k r s u := by
  induction l generalizing w with
  | nil => exact h
  | cons o t ih =>
    have ho := hl o (by simp)
    have h' := C149_step_partial hc hr h o ho (fun e => hno (by simp [e])) (fun e => hook [] t (by rw [e]; rfl))
    exact ih (hr.step o ho) h' (fun o ho => hl o (by simp [ho])) (fun e => hno (by simp [e]))
      fun l1 l2 e => hook (o :: l1) l2 (by rw [e]; rfl)

/-- account 2 subscribes to NFT 0 of account 1 for `fee` per 5 blocks, for at most 50; account 1 cannot revoke -/
abbrev leased (fee : Balance) (ch : Bool) : List Op :=
  [Demo.mint1, Demo.by_ 1 (.rent (.create 0 (.sub 5 (some 50) ch) (.auto none) false (.tokens fee) (.fixed 200) (.fixed 300))),
    Demo.by_ 2 (.rent (.rent 0 0))]

/-- the contract of `leased` -/
abbrev lease (fee : Balance) (ch : Bool) : Contract :=
  ⟨some 0, 1, some 2, .sub ⟨5, 50, ch, false⟩, .auto none, false, .tokens fee, .fixed 200, .fixed 300, 0⟩

/-- C149 fails for subscriptions that can be changed: account 1 cannot revoke, but proposes other terms; when the period is over the
rental is over, although account 2 could pay the old fee and the new one many times, and 45 blocks of it are left. -/
theorem C149_fails_change : ∃ (c : Cfg) (w : World) (u : Subscription) (k : Contract), c.Ok ∧ Reach c w ∧
    w.rent.contracts.get 0 = some k ∧ k.rentee = some 2 ∧ k.start = some 0 ∧ k.duration = .sub u ∧ k.renterCanRevoke = false ∧
    u.maxDur = 50 ∧ k.rentFee = .tokens 100 ∧ Solvent c w 2 k ∧ 9000 ≤ w.bal.freeOf 2 ∧
    ∃ l : List Op, (∀ o ∈ l, o.Ok c) ∧ (∀ o ∈ l, ∀ x, o ≠ .call (.signed 2) x) ∧
      Op.call (.signed 1) (.rent (.revoke 0)) ∉ l ∧ 9000 ≤ (run c w l).bal.freeOf 2 ∧
      (run c w l).now = 5 ∧ (run c w l).rent.contracts.get 0 = none :=
  ⟨Demo.cfg, Demo.at_ (leased 100 true), ⟨5, 50, true, false⟩, lease 100 true, Demo.cfg_ok, Demo.reach (leased 100 true) (by decide),
    rfl, rfl, rfl, rfl, rfl, rfl, rfl, ⟨by decide +kernel, fun v e => by simp at e; subst e; right; decide +kernel⟩, by decide +kernel,
    [Demo.by_ 1 (.rent (.changeTerms 0 100 5 (some 50) true)), .tick, .tick, .tick, .tick, .tick, .hookRent], by decide,
    by simp, by simp, by decide +kernel, by decide +kernel, by decide +kernel⟩

/-- C149 fails for a fee below the existential deposit: account 1, who can neither revoke nor change, moves all tokens to account 3
and so refuses the fee; the rental is over when the period is, although account 2 could pay, and the hook returns account 1's deposit. -/
theorem C149_fails_reap : ∃ (c : Cfg) (w : World) (u : Subscription) (k : Contract), c.Ok ∧ Reach c w ∧
    Firm w 0 k 2 0 u ∧ u.maxDur = 50 ∧ k.rentFee = .tokens 5 ∧ Solvent c w 2 k ∧
    ∃ l : List Op, (∀ o ∈ l, o.Ok c) ∧ (∀ o ∈ l, ∀ x, o ≠ .call (.signed 2) x) ∧
      (∀ o ∈ l, ∀ x, o ≠ .call (.signed 1) (.rent x)) ∧ 9000 ≤ (run c w l).bal.freeOf 2 ∧
      (run c w l).now = 5 ∧ (run c w l).rent.contracts.get 0 = none ∧ (run c w l).bal.freeOf 1 = 200 :=
  ⟨Demo.cfg, Demo.at_ (leased 5 false), ⟨5, 50, false, false⟩, lease 5 false, Demo.cfg_ok, Demo.reach (leased 5 false) (by decide),
    ⟨rfl, rfl, rfl, rfl, rfl, rfl, rfl⟩, rfl, rfl, ⟨by decide +kernel, fun v e => by simp at e; subst e; right; decide +kernel⟩,
    [Demo.by_ 1 (.bal 3 9800 .allowDeath), .tick, .tick, .tick, .tick, .tick, .hookRent], by decide,
    by simp, by simp, by decide +kernel, by decide +kernel, by decide +kernel, by decide +kernel⟩

-- the hypotheses of `C149_step_partial` in a block in which a period is over: 100 are due, the hook renews
abbrev leaseDue : List Op := leased 100 false ++ [.tick, .tick, .tick, .tick, .tick]

example : Firm (step Demo.cfg (Demo.at_ leaseDue) .hookRent) 0 (lease 100 false) 2 0 ⟨5, 50, false, false⟩ ∧
    owing (Demo.at_ leaseDue) 2 = 100 :=
  ⟨C149_step_partial Demo.cfg_ok (Demo.reach leaseDue (by decide)) ⟨rfl, rfl, rfl, rfl, rfl, rfl, rfl⟩ _ (by decide) (by simp)
    fun _ => ⟨by decide +kernel, by decide +kernel, fun v e => by simp at e; subst e; right; decide +kernel⟩, by decide +kernel⟩

-- and those of `C149_partial` over a history: the renter tries to revoke and to change, then the hook runs
example : Firm (run Demo.cfg (Demo.at_ leaseDue) [Demo.by_ 1 (.rent (.revoke 0)), Demo.by_ 1 (.rent (.changeTerms 0 900 5 none true)),
    .hookRent]) 0 (lease 100 false) 2 0 ⟨5, 50, false, false⟩ := by
  refine C149_partial Demo.cfg_ok (Demo.reach leaseDue (by decide)) ⟨rfl, rfl, rfl, rfl, rfl, rfl, rfl⟩ _ (by decide) (by simp) ?_
  intro l1 l2 e
  have e1 : l1 = [Demo.by_ 1 (.rent (.revoke 0)), Demo.by_ 1 (.rent (.changeTerms 0 900 5 none true))] := by
    match l1, e with
    | [], e => simp at e
    | [a], e => simp at e
    | [a, b], e => simp at e; simp [e.1, e.2.1]
    | a :: b :: d :: t, e => simp at e
  subst e1
  exact ⟨by decide +kernel, by decide +kernel, fun v e => by simp at e; subst e; right; decide +kernel⟩
