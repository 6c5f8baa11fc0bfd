import Verif.Props.Cold
/-
Property C167: what a subscription costs a rentee that goes away.
-/
variable {c : Cfg} {w w' : World} {y : AccountId} {n : NFTId}
set_option maxRecDepth 10000

/- Specification -/
namespace Spec

/-- the contract on NFT `n` draws rent from `y` period by period: a subscription of `y` without terms waiting for its consent -/
def Draws (w : World) (y : AccountId) (n : NFTId) : Prop :=
  ∃ k u, w.rent.contracts.get n = some k ∧ k.rentee = some y ∧ k.duration = .sub u ∧ u.newTerms = false

/-- how many payments, one every `p` blocks and the first at block `b`, fall due up to block `e` -/
def instalments (b p e : Block) : Nat := (e + p - b) / p

end Spec

namespace Subscriber

theorem offers (hc : c.Ok) (hr : Reach c w) (o : Op) (ho : o.Ok c) (ha : Spec.Absent y o) (h : ∀ n, ¬ Spec.Offers w n y) :
    ∀ n, ¬ Spec.Offers (step c w o) n y := by
  intro n hn
  rcases step_offer hc hr o ho hn with ⟨h1, _⟩ | ⟨_, _, _, _, _, _, _, e⟩
  · exact h n h1
  · exact ha.1 _ e

/-- nothing begins to draw rent from an absent account -/
theorem draws (hc : c.Ok) (hr : Reach c w) (o : Op) (ho : o.Ok c) (ha : Spec.Absent y o) (h : ∀ n, ¬ Spec.Offers w n y)
    (hd : Spec.Draws (step c w o) y n) : Spec.Draws w y n ∧ (step c w o).rent.contracts.get n = w.rent.contracts.get n := by
  obtain ⟨k, u, hk, e, hu, hn⟩ := hd
  cases hk0 : w.rent.contracts.get n with
  | none =>
    have := (Life.new_rent hc hr o ho hk0 hk).1
    rw [e] at this; cases this
  | some k0 =>
    have hst := C33_start (k' := k) (r := y) hc hr o ho hk0
    have ht := step_rent_turn hc hr o ho hk0
    generalize step c w o = w1 at *
    cases ht with
    | stay h1 => rw [hk] at h1; cases h1; exact ⟨⟨k, u, hk0, e, hu, hn⟩, hk⟩
    | cancel _ h1 => rw [hk] at h1; cases h1
    | revoke _ _ h1 => rw [hk] at h1; cases h1
    | start h1 _ _ h4 =>
      obtain ⟨h5 | ⟨_, h5⟩, _⟩ := hst h1 hk e
      · exact absurd h5 (ha.1 _)
      · exact absurd h5 (h n)
    | change h1 _ h3 => rw [hk] at h3; cases h3; cases hu; cases hn
    | accept h1 _ _ _ _ h6 =>
      rw [hk] at h6; cases h6
      rw [h1] at e; cases e
      exact absurd rfl (ha.1 _)
    | over _ _ _ h1 => rw [hk] at h1; cases h1

/-- only the work at the start of a block takes tokens from an absent account -/
theorem tokens (hc : c.Ok) (hr : Reach c w) (hp : ¬ c.pot y) (o : Op) (ha : Spec.Absent y o) (h : ∀ n, ¬ Spec.Offers w n y)
    (hh : o ≠ .hookRent) : w.bal.freeOf y ≤ (step c w o).bal.freeOf y := by
  by_contra hn
  have := C62_who hc hr o (y := y) (by omega)
  unfold Spec.MayPay at this
  simp only [Cfg.pot, not_or] at hp
  split at this
  · rename_i a x
    rcases this with ⟨rfl, _⟩ | ⟨e, _⟩ | ⟨e, _⟩ | ⟨e, _⟩ | ⟨n, l, _, h1, h2⟩
    · exact ha.1 _ rfl
    · simp_all
    · simp_all
    · simp_all
    · exact h n ⟨l, h1, h2⟩
  · simp_all
  · exact hh rfl
  · subst this; exact ha.2 _ _ _ rfl
  · simp_all
  · exact this

/-- other operations plan no payment for a running contract -/
theorem planned (hc : c.Ok) (hr : Reach c w) (o : Op) (ho : o.Ok c) (hh : o ≠ .hookRent) {k : Contract}
    (hk : w.rent.contracts.get n = some k) (hn : k.rentee ≠ none) {b : Block} (hb : (n, b) ∈ (step c w o).rent.subQ) :
    (n, b) ∈ w.rent.subQ := by
  have hi := (hr.inv hc).rent
  rcases step_rent_case hc hr o ho with ⟨a, x, rfl, _, hd⟩ | ⟨rfl, _⟩ | e
  · generalize step c w _ = w' at hd hb
    cases hd with
    | create h2 =>
      obtain ⟨_, _, _, _, _, _, _, _, _, _, _, _, _, _, _, _, _, _, _, _, _, rfl⟩ := RentM.create_ok h2
      exact hb
    | cancel => exact hb
    | @revoke m _ h2 =>
      obtain ⟨k, r, d, b0, b1, b2, hk, _, _, _, _, _, _, _, _, rfl⟩ := RentM.revoke_ok h2
      simp only [RentM.removeKind] at hb
      cases hd : k.duration with
      | sub => rw [hd] at hb; exact ((Queue.mem_remove hi.q.wfS).1 hb).1
      | fixed => rw [hd] at hb; exact hb
    | @start m k' r _ _ hk' hs h2 =>
      have hne : n ≠ m := by
        rintro rfl
        rw [hk] at hk'; cases hk'
        rcases hs with ⟨_, _, h1, _⟩ | ⟨_, _, l, hl, _⟩
        · exact hn h1
        · rw [hi.q.offers n k hk hn] at hl; simp at hl
      obtain ⟨b1, b2, q, _, _, _, _, hq, rfl⟩ := h2.out
      simp only [RentM.insertKind] at hq
      cases hdu : k'.duration with
      | sub d =>
        simp only [hdu, Option.map_eq_some_iff] at hq
        obtain ⟨q', hq', rfl⟩ := hq
        obtain ⟨_, rfl⟩ := Queue.insert_some hq'
        rcases Queue.mem_ins.1 hb with h | h
        · cases h; exact absurd rfl hne
        · exact h
      | fixed =>
        simp only [hdu, Option.map_eq_some_iff] at hq
        obtain ⟨q', hq', rfl⟩ := hq
        exact hb
    | makeOffer => exact hb
    | retractOffer => exact hb
    | changeTerms => exact hb
    | acceptTerms => exact hb
  · exact absurd rfl hh
  · rw [e] at hb; exact hb

/-- after `m` payments -/
structure Paid (w : World) (y : AccountId) (n : NFTId) (k : Contract) (u : Subscription) (s fee b0 F : Nat) (m : Nat) : Prop where
  money : F ≤ w.bal.freeOf y + fee * m
  pace : m = 0 ∨ b0 + m * u.period ≤ min w.now (s + u.maxDur - 1) + u.period
  only : ∀ j, Spec.Draws w y j → j = n
  here : Spec.Draws w y n → w.rent.contracts.get n = some k ∧ ∀ b, (n, b) ∈ w.rent.subQ → b0 + m * u.period ≤ b

variable {k : Contract} {u : Subscription} {s fee b0 F m : Nat}

/-- one action at the start of a block -/
theorem tick (hp : y ≠ c.rentPot) (hy : k.rentee = some y) (hs : k.start = some s) (hu : k.duration = .sub u)
    (hf : k.rentFee = .tokens fee) (h : RentM.RInv c w ∧ BalInv c w.bal ∧ RentM.Tick c w w')
    (hq : Paid w y n k u s fee b0 F m) : ∃ m', Paid w' y n k u s fee b0 F m' := by
  obtain ⟨hi, hb, h⟩ := h
  cases h with
  | @finish n' k' b f hk ho hr =>
    refine ⟨m, ?_, hq.pace, ?_, ?_⟩
    · obtain ⟨δ, g, _⟩ := Spec.PaysOut.of (hr.out hi hk) Spec.refund_eq
      have := g y hp
      have := hq.money
      show F ≤ b.freeOf y + fee * m
      omega
    · rintro j ⟨k1, u1, h1, h2⟩
      simp only [FMap.get_erase] at h1
      split at h1
      · cases h1
      · exact hq.only j ⟨k1, u1, h1, h2⟩
    · rintro ⟨k1, u1, h1, h2⟩
      simp only [FMap.get_erase] at h1 ⊢
      split at h1
      · cases h1
      · rename_i e
        obtain ⟨g1, g2⟩ := hq.here ⟨k1, u1, h1, h2⟩
        rw [if_neg e]
        exact ⟨g1, fun b hb => g2 b ((Queue.mem_remove hi.q.wfS).1 hb).1⟩
  | @renew n' b k' r s' u' fee' bal h1 h2 h3 h4 h5 h6 h7 h8 h9 h10 =>
    have hm := Spec.renewed_moves h10 y
    by_cases e : n' = n
    · by_cases er : r = y
      · subst e; subst er
        obtain ⟨g1, g2⟩ := hq.here ⟨k', u', h3, h4, h6, h8⟩
        rw [h3] at g1; cases g1
        rw [hs] at h5; cases h5
        rw [hu] at h6; cases h6
        rw [hf] at h7; cases h7
        have hpace := g2 b h1
        have hmon := hq.money
        refine ⟨m + 1, ?_, Or.inr ?_, hq.only, fun _ => ⟨h3, fun b' hb' => ?_⟩⟩
        · show F ≤ bal.freeOf r + fee * (m + 1)
          rw [Spec.gets, if_pos rfl] at hm
          rw [Nat.mul_succ]; omega
        · show b0 + (m + 1) * u.period ≤ min w.now (s + u.maxDur - 1) + u.period
          rw [Nat.succ_mul]; omega
        · rcases Queue.mem_ins.1 hb' with g | g
          · cases g; rw [Nat.succ_mul]; omega
          · exact absurd rfl ((Queue.mem_remove hi.q.wfS).1 g).2
      · refine ⟨m, ?_, hq.pace, hq.only, ?_⟩
        · have := hq.money
          rw [Spec.gets, if_neg (Ne.symm er)] at hm
          show F ≤ bal.freeOf y + fee * m
          omega
        · rintro ⟨k1, u1, g1, g2, _⟩
          subst e
          rw [h3] at g1; cases g1
          rw [h4] at g2; cases g2
          exact absurd rfl er
    · have er : r ≠ y := by
        rintro rfl
        exact e (hq.only n' ⟨k', u', h3, h4, h6, h8⟩)
      refine ⟨m, ?_, hq.pace, hq.only, fun hd => ?_⟩
      · have := hq.money
        rw [Spec.gets, if_neg (Ne.symm er)] at hm
        show F ≤ bal.freeOf y + fee * m
        omega
      · obtain ⟨g1, g2⟩ := hq.here hd
        refine ⟨g1, fun b' hb' => ?_⟩
        rcases Queue.mem_ins.1 hb' with g | g
        · cases g; exact absurd rfl e
        · exact g2 b' ((Queue.mem_remove hi.q.wfS).1 g).1

/-- one step -/
theorem one (hc : c.Ok) (hr : Reach c w) (hp : ¬ c.pot y) (o : Op) (ho : o.Ok c) (ha : Spec.Absent y o) (h : ∀ n, ¬ Spec.Offers w n y)
    (hy : k.rentee = some y) (hs : k.start = some s) (hu : k.duration = .sub u) (hf : k.rentFee = .tokens fee)
    (hq : Paid w y n k u s fee b0 F m) : ∃ m', Paid (step c w o) y n k u s fee b0 F m' := by
  by_cases hh : o = .hookRent
  · subst hh
    have ht : RentM.Ticks c w (step c w .hookRent) := (hr.inv hc).rent.ticks hr.micro.balInv
    have hpy : y ≠ c.rentPot := fun e => hp (by rw [e]; simp [Cfg.pot])
    generalize step c w .hookRent = w1 at ht
    induction ht with
    | refl => exact ⟨m, hq⟩
    | tail _ hs' ih =>
      obtain ⟨m1, ih⟩ := ih
      exact tick hpy hy hs hu hf hs' ih
  · have h1 := tokens hc hr hp o ha h hh
    have h2 := hq.money
    have h3 := step_now_le (c := c) w o
    refine ⟨m, by omega, hq.pace.imp id fun g => by omega, fun j hj => hq.only j (draws hc hr o ho ha h hj).1, fun hj => ?_⟩
    obtain ⟨g1, g2⟩ := draws hc hr o ho ha h hj
    obtain ⟨g3, g4⟩ := hq.here g1
    refine ⟨by rw [g2]; exact g3, fun b hb => g4 b ?_⟩
    exact planned hc hr o ho hh g3 (by rw [hy]; simp) hb

theorem all (hc : c.Ok) (hr : Reach c w) (hp : ¬ c.pot y) (l : List Op) (hl : ∀ o ∈ l, o.Ok c) (ha : ∀ o ∈ l, Spec.Absent y o)
    (h : ∀ n, ¬ Spec.Offers w n y) (hy : k.rentee = some y) (hs : k.start = some s) (hu : k.duration = .sub u)
    (hf : k.rentFee = .tokens fee) (hq : Paid w y n k u s fee b0 F m) : ∃ m', Paid (run c w l) y n k u s fee b0 F m' := by
  induction l generalizing w m with
  | nil => exact ⟨m, hq⟩
  | cons o l ih =>
    have ho := hl o (List.mem_cons_self ..)
    have ho' := ha o (List.mem_cons_self ..)
    obtain ⟨m1, h1⟩ := one hc hr hp o ho ho' h hy hs hu hf hq
    exact ih (hr.step o ho) (fun o h => hl o (List.mem_cons_of_mem _ h)) (fun o h => ha o (List.mem_cons_of_mem _ h))
      (offers hc hr o ho ho' h) h1

end Subscriber

/- C167 -/

/-- An account that has one subscription, whatever it rents for fixed times, and no standing offer, and which signs nothing and
pays no transaction fee: whatever all others do, it loses at most the agreed rent for each payment that has fallen due, one a
period from the next one planned on, and none from the end of the maximal duration on. In particular the renter cannot raise the
rent. -/
theorem C167 (hc : c.Ok) (hr : Reach c w) (hp : ¬ c.pot y) (l : List Op) (hl : ∀ o ∈ l, o.Ok c) (ha : ∀ o ∈ l, Spec.Absent y o)
    (ho : ∀ n, ¬ Spec.Offers w n y) {k : Contract} {s fee b : Nat} {u : Subscription} (hk : w.rent.contracts.get n = some k)
    (hy : k.rentee = some y) (hs : k.start = some s) (hu : k.duration = .sub u) (hf : k.rentFee = .tokens fee)
    (hb : Spec.entries w n = [(.subscription, b)]) (h1 : ∀ j, Spec.Draws w y j → j = n) :
    w.bal.freeOf y ≤ (run c w l).bal.freeOf y +
      fee * Spec.instalments b u.period (min (run c w l).now (s + u.maxDur - 1)) := by
  have hper : 0 < u.period := by
    have := ((hr.inv hc).rent.q.con n k hk).period.1
    rw [hu] at this
    exact this
  have h0 : Subscriber.Paid w y n k u s fee b (w.bal.freeOf y) 0 := by
    refine ⟨by omega, Or.inl rfl, h1, fun _ => ⟨hk, fun b' hb' => ?_⟩⟩
    have : (Spec.Schedule.subscription, b') ∈ Spec.entries w n := by
      unfold Spec.entries
      simp [hb']
    rw [hb] at this
    simp at this; omega
  obtain ⟨m, hm⟩ := Subscriber.all hc hr hp l hl ha ho hy hs hu hf h0
  have hle : m ≤ Spec.instalments b u.period (min (run c w l).now (s + u.maxDur - 1)) := by
    unfold Spec.instalments
    rw [Nat.le_div_iff_mul_le hper]
    rcases hm.pace with rfl | h
    · omega
    · omega
  exact Nat.le_trans hm.money (Nat.add_le_add_left (Nat.mul_le_mul_left _ hle) _)

/-- the subscription of account 2 in `subscribed`: 100 every five blocks, the next at block 5; the renter proposes dearer terms at
block 12, and nothing is paid from then on -/
theorem Demo.drawsOne : ∀ j, Spec.Draws (Demo.at_ subscribed) 2 j → j = 0 := by
  rintro j ⟨k, u, h, _⟩
  have e : (Demo.at_ subscribed).rent.contracts = FMap.set FMap.empty 0 (((Demo.at_ subscribed).rent.contracts.get 0).get rfl) := rfl
  rw [e, FMap.get_set] at h
  split at h
  · rename_i h1; first | exact h1 | exact h1.symm
  · cases h

theorem Demo.noOffers2 : ∀ n, ¬ Spec.Offers (Demo.at_ subscribed) n 2 := by
  rintro n ⟨l, h, _⟩
  have e : (Demo.at_ subscribed).rent.offers = FMap.empty := rfl
  rw [e] at h; cases h

example := C167 Demo.cfg_ok (Demo.reach subscribed (by decide)) (y := 2) (n := 0) (by decide)
  (rentBlocks 12 ++ [Demo.by_ 1 (.rent (.changeTerms 0 150 6 none true))] ++ rentBlocks 12) (by decide)
  (by
    intro o ho
    simp [List.replicate, Demo.by_] at ho
    have : o = .tick ∨ o = .hookRent ∨ o = .call (.signed 1) (.rent (.changeTerms 0 150 6 none true)) := by tauto
    rcases this with rfl | rfl | rfl <;> simp [Spec.Absent]) Demo.noOffers2 (k := _) rfl rfl rfl rfl rfl (b := 5) rfl Demo.drawsOne

/-- the bound is met: two payments of 100 up to block 12 -/
example : Spec.instalments 5 5 (min 12 49) = 2 ∧ (Demo.at_ subscribed).bal.freeOf 2 =
    (run Demo.cfg (Demo.at_ subscribed) (rentBlocks 12)).bal.freeOf 2 + 100 * 2 := ⟨by decide, by decide⟩

/-- An absent account from which no contract draws rent, because it rents for fixed times only or the renter has proposed terms it
has not accepted, and which has no standing offer, loses nothing. -/
theorem C167_none (hc : c.Ok) (hr : Reach c w) (hp : ¬ c.pot y) (l : List Op) (hl : ∀ o ∈ l, o.Ok c)
    (ha : ∀ o ∈ l, Spec.Absent y o) (ho : ∀ n, ¬ Spec.Offers w n y) (h1 : ∀ j, ¬ Spec.Draws w y j) :
    w.bal.freeOf y ≤ (run c w l).bal.freeOf y ∧ ∀ j, ¬ Spec.Draws (run c w l) y j := by
  induction l generalizing w with
  | nil => exact ⟨Nat.le_refl _, h1⟩
  | cons o l ih =>
    have hl0 := hl o (List.mem_cons_self ..)
    have ha0 := ha o (List.mem_cons_self ..)
    have hstep : w.bal.freeOf y ≤ (step c w o).bal.freeOf y := by
      by_cases hh : o = .hookRent
      · subst hh
        by_contra hn
        rcases C62_who hc hr .hookRent (y := y) (by omega) with e | ⟨n, k, u, _, _, _, g1, g2, g3, _, _, g4, _⟩
        · exact hp (by rw [e]; simp [Cfg.pot])
        · exact h1 n ⟨k, u, g1, g2, g3, g4⟩
      · exact Subscriber.tokens hc hr hp o ha0 ho hh
    have h2 := ih (hr.step o hl0) (fun o h => hl o (List.mem_cons_of_mem _ h)) (fun o h => ha o (List.mem_cons_of_mem _ h))
      (Subscriber.offers hc hr o hl0 ha0 ho) (fun j hj => h1 j (Subscriber.draws hc hr o hl0 ha0 ho hj).1)
    exact ⟨Nat.le_trans hstep h2.1, h2.2⟩

/-- the renter of `subscribed` has proposed dearer terms -/
abbrev Demo.dearer : List Op := subscribed ++ [Demo.by_ 1 (.rent (.changeTerms 0 150 6 none true))]

example : (Demo.at_ Demo.dearer).bal.freeOf 2 ≤ (run Demo.cfg (Demo.at_ Demo.dearer) (rentBlocks 12)).bal.freeOf 2 :=
  (C167_none Demo.cfg_ok (Demo.reach Demo.dearer (by decide)) (y := 2) (by decide) (rentBlocks 12) (by decide)
    (by simp [Spec.Absent, List.replicate])
    (fun n ⟨l, h, _⟩ => by rw [show (Demo.at_ Demo.dearer).rent.offers = .empty from rfl] at h; simp at h)
    (by
      rintro j ⟨k, u, h, _, h2, h3⟩
      have e : (Demo.at_ Demo.dearer).rent.contracts = (Demo.at_ subscribed).rent.contracts.insert 0
        (((Demo.at_ Demo.dearer).rent.contracts.get 0).get rfl) := rfl
      rw [e, FMap.get_insert] at h
      split at h
      · cases h; cases h2; cases h3
      · rename_i hne
        have e : (Demo.at_ subscribed).rent.contracts =
          FMap.set FMap.empty 0 (((Demo.at_ subscribed).rent.contracts.get 0).get rfl) := rfl
        rw [e, FMap.get_set, if_neg hne] at h; cases h)).1
