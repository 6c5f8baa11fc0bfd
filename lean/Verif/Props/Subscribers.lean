import Verif.Props.Subscriber
/-
Property C167 for any number of subscriptions.
-/
variable {c : Cfg} {w w' : World} {y : AccountId} {n : NFTId}
set_option maxRecDepth 10000

/- Specification -/
namespace Spec

/-- the first planned date of the contract on NFT `n` -/
def nextDate (w : World) (n : NFTId) : Block := ((entries w n).head?.map Prod.snd).getD 0

/-- the rent in tokens of the contract on NFT `n` -/
def agreedRent (w : World) (n : NFTId) : Balance :=
  match (w.rent.contracts.get n).map Contract.rentFee with
  | some (.tokens fee) => fee
  | _ => 0

/-- how many payments for the subscription of NFT `n`, as it is in state `w`, fall due up to block `now` -/
def dueCount (w : World) (n : NFTId) (now : Block) : Nat :=
  match w.rent.contracts.get n with
  | none => 0
  | some k =>
    match k.duration, k.start with
    | .sub u, some s => instalments (nextDate w n) u.period (min now (s + u.maxDur - 1))
    | _, _ => 0

end Spec

namespace Subscribers

/-- sums over distinct NFTs grow by what one of them adds -/
theorem sum_up {f : NFTId → Nat} (m : NFTId → Nat) (l : List NFTId) (hl : l.Nodup) (hn : n ∈ l) :
    (l.map fun j => f j * (if j = n then m j + 1 else m j)).sum = (l.map fun j => f j * m j).sum + f n := by
  induction l with
  | nil => cases hn
  | cons a l ih =>
    simp only [List.map_cons, List.sum_cons]
    rw [List.nodup_cons] at hl
    by_cases e : a = n
    · subst e
      have : (l.map fun j => f j * (if j = a then m j + 1 else m j)) = l.map fun j => f j * m j := by
        apply List.map_congr_left
        intro j hj
        rw [if_neg]; rintro rfl; exact hl.1 hj
      rw [this, if_pos rfl, Nat.mul_succ]; omega
    · rw [if_neg e, ih hl.2 (by rcases List.mem_cons.1 hn with h | h; exact absurd h.symm e; exact h)]
      omega

theorem sum_le {f g : NFTId → Nat} (l : List NFTId) (h : ∀ j, f j ≤ g j) : (l.map f).sum ≤ (l.map g).sum := by
  induction l with
  | nil => exact Nat.le_refl _
  | cons a l ih => simp only [List.map_cons, List.sum_cons]; exact Nat.add_le_add (h a) ih

/-- after `m j` payments for each NFT `j` of the list -/
structure Paid (w0 w : World) (y : AccountId) (l : List NFTId) (m : NFTId → Nat) : Prop where
  money : w0.bal.freeOf y ≤ w.bal.freeOf y + (l.map fun j => Spec.agreedRent w0 j * m j).sum
  pace : ∀ j, m j = 0 ∨ ∃ k u s, w0.rent.contracts.get j = some k ∧ k.duration = .sub u ∧ k.start = some s ∧ 0 < u.period ∧
    Spec.nextDate w0 j + m j * u.period ≤ min w.now (s + u.maxDur - 1) + u.period
  only : ∀ j, Spec.Draws w y j → j ∈ l
  here : ∀ j, Spec.Draws w y j → w.rent.contracts.get j = w0.rent.contracts.get j ∧
    ∀ k u b, w0.rent.contracts.get j = some k → k.duration = .sub u → (j, b) ∈ w.rent.subQ →
      Spec.nextDate w0 j + m j * u.period ≤ b

variable {w0 : World} {l : List NFTId} {m : NFTId → Nat}

/-- one action at the start of a block -/
theorem tick (hp : y ≠ c.rentPot) (hl : l.Nodup) (h : RentM.RInv c w ∧ BalInv c w.bal ∧ RentM.Tick c w w')
    (hq : Paid w0 w y l m) : ∃ m', Paid w0 w' y l m' := by
  obtain ⟨hi, hb, h⟩ := h
  cases h with
  | @finish n' k' b f hk ho hr =>
    refine ⟨m, ?_, hq.pace, ?_, ?_⟩
    · obtain ⟨δ, g, _⟩ := Spec.PaysOut.of (hr.out hi hk) Spec.refund_eq
      have := g y hp
      have := hq.money
      show _ ≤ b.freeOf y + _
      omega
    · rintro j ⟨k1, u1, h1, h2⟩
      simp only [FMap.get_erase] at h1
      split at h1
      · cases h1
      · exact hq.only j ⟨k1, u1, h1, h2⟩
    · rintro j ⟨k1, u1, h1, h2⟩
      simp only [FMap.get_erase] at h1 ⊢
      split at h1
      · cases h1
      · rename_i e
        obtain ⟨g1, g2⟩ := hq.here j ⟨k1, u1, h1, h2⟩
        rw [if_neg e]
        exact ⟨g1, fun k u b hk hu hb => g2 k u b hk hu ((Queue.mem_remove hi.q.wfS).1 hb).1⟩
  | @renew n' b k' r s' u' fee' bal h1 h2 h3 h4 h5 h6 h7 h8 h9 h10 =>
    have hm := Spec.renewed_moves h10 y
    by_cases er : r = y
    · subst er
      have hd : Spec.Draws w r n' := ⟨k', u', h3, h4, h6, h8⟩
      obtain ⟨g1, g2⟩ := hq.here n' hd
      rw [h3] at g1
      have hpace := g2 k' u' b g1.symm h6 h1
      have hpos : 0 < u'.period := by
        have := (hi.q.con n' k' h3).period.1
        rw [h6] at this
        exact this
      have hmon := hq.money
      have hfee : Spec.agreedRent w0 n' = fee' := by
        unfold Spec.agreedRent
        rw [← g1, Option.map_some, h7]
      refine ⟨fun j => if j = n' then m j + 1 else m j, ?_, fun j => ?_, hq.only, fun j hj => ⟨(hq.here j hj).1, ?_⟩⟩
      · rw [sum_up m l hl (hq.only _ hd), hfee]
        rw [Spec.gets, if_pos rfl] at hm
        show _ ≤ bal.freeOf r + _
        omega
      · by_cases e : j = n'
        · subst e
          refine Or.inr ⟨k', u', s', g1.symm, h6, h5, hpos, ?_⟩
          rw [if_pos rfl, Nat.succ_mul]
          show _ ≤ min w.now _ + _
          omega
        · simp only [if_neg e]; exact hq.pace j
      · intro k u b' hk hu hb'
        by_cases e : j = n'
        · subst e
          rw [← g1] at hk; cases hk
          rw [h6] at hu; cases hu
          rw [if_pos rfl]
          rcases Queue.mem_ins.1 hb' with g | g
          · cases g; rw [Nat.succ_mul]; omega
          · exact absurd rfl ((Queue.mem_remove hi.q.wfS).1 g).2
        · rw [if_neg e]
          rcases Queue.mem_ins.1 hb' with g | g
          · cases g; exact absurd rfl e
          · exact (hq.here j hj).2 k u b' hk hu ((Queue.mem_remove hi.q.wfS).1 g).1
    · refine ⟨m, ?_, hq.pace, hq.only, fun j hj => ⟨(hq.here j hj).1, fun k u b' hk hu hb' => ?_⟩⟩
      · have := hq.money
        rw [Spec.gets, if_neg (Ne.symm er)] at hm
        show _ ≤ bal.freeOf y + _
        omega
      · rcases Queue.mem_ins.1 hb' with g | g
        · cases g
          obtain ⟨k1, u1, f1, f2, _⟩ := hj
          have f1 : w.rent.contracts.get n' = some k1 := f1
          rw [h3] at f1; cases f1
          rw [h4] at f2; cases f2
          exact absurd rfl er
        · exact (hq.here j hj).2 k u b' hk hu ((Queue.mem_remove hi.q.wfS).1 g).1

/-- one step -/
theorem one (hc : c.Ok) (hr : Reach c w) (hp : ¬ c.pot y) (hl : l.Nodup) (o : Op) (ho : o.Ok c) (ha : Spec.Absent y o)
    (h : ∀ n, ¬ Spec.Offers w n y) (hq : Paid w0 w y l m) : ∃ m', Paid w0 (step c w o) y l m' := by
  by_cases hh : o = .hookRent
  · subst hh
    have ht : RentM.Ticks c w (step c w .hookRent) := (hr.inv hc).rent.ticks hr.micro.balInv
    have hpy : y ≠ c.rentPot := fun e => hp (by rw [e]; simp [Cfg.pot])
    generalize step c w .hookRent = w1 at ht
    induction ht with
    | refl => exact ⟨m, hq⟩
    | tail _ hs' ih =>
      obtain ⟨m1, ih⟩ := ih
      exact tick hpy hl hs' ih
  · have h1 := Subscriber.tokens hc hr hp o ha h hh
    have h2 := hq.money
    have h3 := step_now_le (c := c) w o
    refine ⟨m, by omega, fun j => (hq.pace j).imp id fun ⟨k, u, s, e1, e2, e3, e4, e5⟩ => ⟨k, u, s, e1, e2, e3, e4, by omega⟩,
      fun j hj => hq.only j (Subscriber.draws hc hr o ho ha h hj).1, fun j hj => ?_⟩
    obtain ⟨g1, g2⟩ := Subscriber.draws hc hr o ho ha h hj
    obtain ⟨g3, g4⟩ := hq.here j g1
    refine ⟨by rw [g2]; exact g3, fun k u b hk hu hb => g4 k u b hk hu ?_⟩
    obtain ⟨k1, _, f1, f2, _⟩ := g1
    exact Subscriber.planned hc hr o ho hh f1 (by rw [f2]; simp) hb

theorem all (hc : c.Ok) (hr : Reach c w) (hp : ¬ c.pot y) (hn : l.Nodup) (ops : List Op) (hl : ∀ o ∈ ops, o.Ok c)
    (ha : ∀ o ∈ ops, Spec.Absent y o) (h : ∀ n, ¬ Spec.Offers w n y) (hq : Paid w0 w y l m) :
    ∃ m', Paid w0 (run c w ops) y l m' := by
  induction ops generalizing w m with
  | nil => exact ⟨m, hq⟩
  | cons o ops ih =>
    have ho := hl o (List.mem_cons_self ..)
    have ho' := ha o (List.mem_cons_self ..)
    obtain ⟨m1, h1⟩ := one hc hr hp hn o ho ho' h hq
    exact ih (hr.step o ho) (fun o h => hl o (List.mem_cons_of_mem _ h)) (fun o h => ha o (List.mem_cons_of_mem _ h))
      (Subscriber.offers hc hr o ho ho' h) h1

end Subscribers

/- C167 -/

/-- Any number of subscriptions: an account without standing offers that signs nothing and pays no transaction fee loses at most,
for each of the subscriptions it had when it left, the rent agreed then times the number of payments fallen due. -/
theorem C167_all (hc : c.Ok) (hr : Reach c w) (hp : ¬ c.pot y) (ops : List Op) (hl : ∀ o ∈ ops, o.Ok c)
    (ha : ∀ o ∈ ops, Spec.Absent y o) (ho : ∀ n, ¬ Spec.Offers w n y) (l : List NFTId) (hn : l.Nodup)
    (h1 : ∀ j, Spec.Draws w y j → j ∈ l) :
    w.bal.freeOf y ≤ (run c w ops).bal.freeOf y +
      (l.map fun j => Spec.agreedRent w j * Spec.dueCount w j (run c w ops).now).sum := by
  have h0 : Subscribers.Paid w w y l fun _ => 0 := by
    refine ⟨by omega, fun _ => Or.inl rfl, h1, fun j hj => ⟨rfl, fun k u b hk hu hb => ?_⟩⟩
    obtain ⟨b1, e, _⟩ := (C30 hc hr).2.1 j k hk
    have : (Spec.Schedule.subscription, b) ∈ Spec.entries w j := by
      unfold Spec.entries
      simp [hb]
    rw [e] at this
    simp only [List.mem_singleton, Prod.mk.injEq] at this
    unfold Spec.nextDate
    rw [e, this.2]
    simp
  obtain ⟨m, hm⟩ := Subscribers.all hc hr hp hn ops hl ha ho h0
  have hle : ∀ j, m j ≤ Spec.dueCount w j (run c w ops).now := by
    intro j
    rcases hm.pace j with h | ⟨k, u, s, e1, e2, e3, e4, e5⟩
    · omega
    · unfold Spec.dueCount Spec.instalments
      rw [e1]
      simp only [e2, e3]
      rw [Nat.le_div_iff_mul_le e4]
      omega
  exact Nat.le_trans hm.money (Nat.add_le_add_left (Subscribers.sum_le l fun j => Nat.mul_le_mul_left _ (hle j)) _)

/-- account 2 subscribes to two NFTs of account 1: 100 every five and 70 every three blocks -/
abbrev Demo.twoSubs : List Op :=
  [Demo.mint1, Demo.mint1,
   Demo.by_ 1 (.rent (.create 0 (.sub 5 (some 50) true) (.auto none) true (.tokens 100) (.fixed 200) (.fixed 300))),
   Demo.by_ 1 (.rent (.create 1 (.sub 3 (some 10) true) (.auto none) true (.tokens 70) (.fixed 200) (.fixed 300))),
   Demo.by_ 2 (.rent (.rent 0 0)), Demo.by_ 2 (.rent (.rent 1 0))]

theorem Demo.twoSubs_draws : ∀ j, Spec.Draws (Demo.at_ Demo.twoSubs) 2 j → j ∈ [0, 1] := by
  rintro j ⟨k, u, h, _⟩
  by_contra hn
  simp only [List.mem_cons, List.not_mem_nil, or_false, not_or] at hn
  have e : (Demo.at_ Demo.twoSubs).rent.contracts = ((FMap.empty.set 0 (((Demo.at_ Demo.twoSubs).rent.contracts.get 0))).set 1
    ((Demo.at_ Demo.twoSubs).rent.contracts.get 1)) := rfl
  rw [e, FMap.get_set, if_neg hn.2, FMap.get_set, if_neg hn.1] at h
  cases h

example : (Demo.at_ Demo.twoSubs).bal.freeOf 2 ≤ (run Demo.cfg (Demo.at_ Demo.twoSubs) (rentBlocks 12)).bal.freeOf 2 +
    ([0, 1].map fun j => Spec.agreedRent (Demo.at_ Demo.twoSubs) j *
      Spec.dueCount (Demo.at_ Demo.twoSubs) j (run Demo.cfg (Demo.at_ Demo.twoSubs) (rentBlocks 12)).now).sum :=
  C167_all Demo.cfg_ok (Demo.reach Demo.twoSubs (by decide)) (y := 2) (by decide) (rentBlocks 12) (by decide)
    (by simp [Spec.Absent, List.replicate])
    (fun n ⟨l, h, _⟩ => by rw [show (Demo.at_ Demo.twoSubs).rent.offers = .empty from rfl] at h; simp at h)
    [0, 1] (by decide) Demo.twoSubs_draws

/-- two payments of 100 and three of 70 fall due -/
example : ([0, 1].map fun j => Spec.agreedRent (Demo.at_ Demo.twoSubs) j * Spec.dueCount (Demo.at_ Demo.twoSubs) j 12).sum = 410 := by
  decide
