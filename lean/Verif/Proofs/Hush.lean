import Verif.Proofs.Cash
import Verif.Props.ShortfallSpec
/-
Payments of the auction hook that no event announces.
-/
open Spec
variable {c : Cfg} {w w' : World} {a : AccountId}

/-- payments `l`, and others of the auction pallet's account of at most `u` together, lead from `b` to `b'` -/
def Spec.Hushed (c : Cfg) (b b' : Bal) (l : List Payment) (u : Balance) : Prop :=
  ∃ p : List Payment, (∀ q ∈ p, q.payer = c.aucPot ∧ q.payee ≠ none) ∧ (p.map (·.amount)).sum ≤ u ∧
    Paying c b b' (l ++ p)

namespace Spec.Hushed
variable {b b' b1 b2 : Bal} {l l' : List Payment} {u u' : Balance}

theorem _root_.Spec.Paying.perm (h : Paying c b b' l) (hp : l.Perm l') : Paying c b b' l' := by
  refine ⟨fun x h1 h2 => ?_, ?_⟩
  · have := h.free x h1 h2
    rw [outgo, income, ((hp.filter _).map _).sum_nat, ((hp.filter (fun q => q.payee = some x)).map _).sum_nat] at this
    exact this
  · have := h.collected
    rw [toCollector, ((hp.filter _).map _).sum_nat] at this
    exact this

theorem of (h : Paying c b b' l) : Hushed c b b' l 0 := ⟨[], by simp, by simp, by simpa using h⟩

theorem mono (h : Hushed c b b' l u) (hu : u ≤ u') : Hushed c b b' l u' := by
  obtain ⟨p, h1, h2, h3⟩ := h
  exact ⟨p, h1, by omega, h3⟩

theorem append (h : Hushed c b b1 l u) (h' : Hushed c b1 b2 l' u') : Hushed c b b2 (l ++ l') (u + u') := by
  obtain ⟨p, h1, h2, h3⟩ := h
  obtain ⟨p', g1, g2, g3⟩ := h'
  refine ⟨p ++ p', fun q hq => ?_, by simp; omega, (h3.append g3).perm ?_⟩
  · rcases List.mem_append.1 hq with hq | hq
    · exact h1 q hq
    · exact g1 q hq
  · rw [List.append_assoc, List.append_assoc]
    refine List.Perm.append_left l ?_
    rw [← List.append_assoc, ← List.append_assoc]
    exact List.Perm.append_right p' List.perm_append_comm

end Spec.Hushed

/-- payments from the pot, some of them made -/
theorem AucM.paySeq_hushed {lv : Live} {xs : List (AccountId × Balance)} {b b' : Bal} {r : Except Err Unit}
    (h : paySeq c b c.aucPot lv xs = (b', r)) : Hushed c b b' [] ((xs.map Prod.snd).sum) := by
  induction xs generalizing b with
  | nil =>
    simp only [paySeq, Prod.mk.injEq] at h
    obtain ⟨rfl, _⟩ := h
    exact .of (.nil _)
  | cons y t ih =>
    obtain ⟨d, v⟩ := y
    simp only [paySeq] at h
    split at h
    · simp only [Prod.mk.injEq] at h
      obtain ⟨rfl, _⟩ := h
      exact (Hushed.of (.nil _)).mono (Nat.zero_le _)
    · rename_i b1 h1
      have e1 : Hushed c b b1 [] v :=
        ⟨[⟨c.aucPot, some d, v⟩], by simp, by simp, by simpa using Paying.pot (Or.inl rfl) h1⟩
      simpa using e1.append (ih h)

theorem AucM.payForNft_hushed {n v d x b r} (h : payForNft c w n c.aucPot v d x = (b, r))
    (hm : ∀ f, w.auc.comm.get n = some f → MktM.feeOnOpt v f ≤ v) : Hushed c w.bal b [] v := by
  unfold payForNft at h
  split at h
  · simp only [Prod.mk.injEq] at h
    obtain ⟨rfl, _⟩ := h
    exact (Hushed.of (.nil _)).mono (Nat.zero_le _)
  · split at h
    · simp only [Prod.mk.injEq] at h
      obtain ⟨rfl, _⟩ := h
      exact (Hushed.of (.nil _)).mono (Nat.zero_le _)
    · rename_i f hf
      have h1 := hm f hf
      have h2 := d.royalty.mul_le (v - MktM.feeOnOpt v f)
      refine (paySeq_hushed h).mono ?_
      simp only [cuts, List.map_cons, List.map_nil, List.sum_cons, List.sum_nil]
      omega

/-- the highest bids cover the commissions -/
def AucM.Affords (w : World) : Prop := ∀ n x top f, w.auc.auctions.get n = some x → x.bids.getLast? = some top →
  w.auc.comm.get n = some f → MktM.feeOnOpt top.2 f ≤ top.2

theorem AucM.settle_sub {n m : NFTId} {x : Auction} (h : (settleOne c w n).1.auc.auctions.get m = some x) :
    w.auc.auctions.get m = some x := by
  by_cases e : m = n
  · subst e
    unfold settleOne at h
    cases hx : w.auc.auctions.get m with
    | none => simp only [hx] at h; simp at h
    | some y =>
      simp only [hx] at h
      cases hd : w.nfts.get m with
      | none => simp only [hd] at h; rw [hx] at h; exact h
      | some d =>
        simp only [hd] at h
        cases ht : y.bids.getLast? with
        | none => simp [ht, World.putNft, World.ev] at h
        | some top =>
          simp only [ht] at h
          rcases hp : payForNft c w m c.aucPot top.2 d y with ⟨b, _ | _⟩
          · simp only [hp, World.putBal, hx] at h; exact h
          · simp [hp, World.putNft, World.putBal, World.ev] at h
  · rw [settle_others n m e] at h; exact h

theorem AucM.settle_comm (n : NFTId) : (settleOne c w n).1.auc.comm = w.auc.comm := by
  unfold settleOne
  split
  · rfl
  · split
    · rfl
    · split
      · split <;> rfl
      · rfl

theorem AucM.Affords.settle (h : Affords w) (n : NFTId) : Affords (settleOne c w n).1 := by
  intro m x top f h1 h2 h3
  rw [settle_comm] at h3
  exact h m x top f (settle_sub h1) h2 h3

/-- one settlement -/
theorem AucM.settle_hushed (t : Tariff) (ha : Affords w) (n : NFTId) :
    Hushed c w.bal (settleOne c w n).1.bal (billAt c t w.now (truth w) (settleEmit c w n))
      ((((settleOne c w n).1.auc.auctions.get n).map topBid).getD 0) := by
  cases hz : (settleOne c w n).1.auc.auctions.get n with
  | none => exact .of (settle_paid t n hz)
  | some x =>
    have hx := settle_sub hz
    unfold settleOne at hz ⊢
    unfold settleEmit
    simp only [hx] at hz ⊢
    cases hd : w.nfts.get n with
    | none => exact (Hushed.of (.nil _)).mono (Nat.zero_le _)
    | some d =>
      simp only [hd] at hz
      simp only
      cases ht : x.bids.getLast? with
      | none => simp [ht, World.putNft, World.ev] at hz
      | some top =>
        simp only [ht] at hz
        rcases hp : payForNft c w n c.aucPot top.2 d x with ⟨b, _ | _⟩
        · simp only [topBid, ht, Option.map_some, Option.getD_some]
          simp only [hp]
          exact payForNft_hushed hp fun f hf => ha n x top f hx ht hf
        · simp [hp, World.putNft, World.putBal, World.ev] at hz

/-- the highest bids in `w'` of auctions whose id is in `s` and not in `r` -/
def AucM.left (w' : World) (s r : List NFTId) : Balance :=
  w'.auc.auctions.sumBy fun n x => if n ∈ s ∧ n ∉ r then topBid x else 0

theorem AucM.left_cons {n : NFTId} {s r : List NFTId} (h1 : n ∉ s) (h2 : n ∉ r) :
    ((w'.auc.auctions.get n).map topBid).getD 0 + left w' s r = left w' (n :: s) r := by
  unfold left
  rw [FMap.sumBy_split _ w'.auc.auctions n, FMap.sumBy_split _ w'.auc.auctions n]
  have h4 : (w'.auc.auctions.erase n).sumBy (fun k x => if k ∈ s ∧ k ∉ r then topBid x else 0) =
      (w'.auc.auctions.erase n).sumBy (fun k x => if k ∈ n :: s ∧ k ∉ r then topBid x else 0) := by
    refine FMap.sumBy_congr fun k v hk => ?_
    have : k ≠ n := by rintro rfl; simp [FMap.get_erase] at hk
    simp [this]
  rw [h4]
  cases w'.auc.auctions.get n <;> simp [h1, h2]

/-- the loop of the hook -/
theorem AucM.loop_hushed (t : Tariff) (hi : Ladders w) (ha : Affords w) (q : Queue) (k : Nat) (hq : q.ids.Nodup) :
    Hushed c w.bal (hookLoop c w q k).1.bal (billAt c t w.now (truth w) (hookEmit c w q k))
      (left (hookLoop c w q k).1 q.ids (Queue.ids (hookLoop c w q k).2)) := by
  induction q generalizing w k with
  | nil => exact (Hushed.of (.nil _)).mono (Nat.zero_le _)
  | cons x q ih =>
    obtain ⟨n, e⟩ := x
    obtain ⟨h1, h2, h3⟩ := settle_seen (c := c) hi n
    have hsame : Same (settleEmit c w n) := by
      unfold settleEmit
      split
      · exact .nil
      · split
        · exact .nil
        · split
          · split
            · exact .nil
            · exact .cons (fun _ => rfl) .nil
          · exact .cons (fun _ => rfl) .nil
    simp only [Queue.ids, List.map_cons, List.nodup_cons] at hq
    have hs := settle_hushed (c := c) t ha n
    simp only [hookLoop, hookEmit]
    have next : ∀ k', Hushed c w.bal (hookLoop c (settleOne c w n).1 q k').1.bal
          (billAt c t w.now (truth w) (settleEmit c w n ++ hookEmit c (settleOne c w n).1 q k'))
          (left (hookLoop c (settleOne c w n).1 q k').1 (Queue.ids ((n, e) :: q))
            (Queue.ids (hookLoop c (settleOne c w n).1 q k').2)) := by
      intro k'
      have i1 := ih h2 (ha.settle n) k' hq.2
      rw [h3, h1] at i1
      rw [billAt_append hsame]
      refine (hs.append i1).mono (Nat.le_of_eq ?_)
      rw [← loop_others (c := c) q k' hq.1]
      exact left_cons hq.1 fun h => hq.1 (loop_rest _ _ h)
    split
    · split
      · split
        · simp only [List.append_nil]
          refine hs.mono ?_
          show _ ≤ left _ (n :: q.map Prod.fst) (q.map Prod.fst)
          rw [← left_cons hq.1 hq.1]
          exact Nat.le_add_right _ _
        · exact next _
      · exact next _
    · exact (Hushed.of (.nil _)).mono (Nat.zero_le _)

theorem AucM.hook_hushed (hc : c.Ok) (hr : Reach c w) :
    Hushed c w.bal (hook c w).bal (bill c w (hookEmit c w w.auc.deadlines 0)) (unpaid w (hook c w)) :=
  loop_hushed (tariff w) (fun n x hx => ((hr.auc hc).ok n x hx).ladder)
    (fun n x top f h1 h2 h3 => ((hr.auc hc).ok n x h1).cuts
      (Nat.le_of_lt (((hr.auc hc).ok n x h1).bid top (List.mem_of_getLast? h2)).2.1) h3) _ _ (hr.auc hc).wf.nd

/-- one operation -/
theorem step_hushed (hc : c.Ok) (hr : Reach c w) (o : Op) (ho : ¬ Elsewhere o) :
    Hushed c w.bal (step c w o).bal (bill c w (emit c w o)) (unpaid w (step c w o)) := by
  by_cases h : o = .hookAuc
  · subst h
    exact AucM.hook_hushed hc hr
  · exact (Hushed.of (step_paying hc hr o ho fun e => absurd e h)).mono (Nat.zero_le _)
