import Verif.Model.Weights
import Verif.Props.WeightSpec
import Verif.Props.Work
/-
Which storage items hooks change, action by action.
-/
open Spec

variable {c : Cfg} {w w' : World}

/-- only items in `l` have changed -/
def Spec.Only (l : List Slot) (w w' : World) : Prop := ∀ s, Changed w w' s → s ∈ l

namespace Spec.Only
variable {l l' : List Slot} {w1 w2 : World}

theorem refl (w : World) : Only l w w := by
  intro s h
  cases s <;> simp [Changed] at h

theorem mono (h : Only l w w') (hl : ∀ s ∈ l, s ∈ l') : Only l' w w' := fun s hs => hl s (h s hs)

theorem trans (h : Only l w w1) (h' : Only l w1 w2) : Only l w w2 := by
  intro s hs
  by_contra hn
  have h1 : ¬ Changed w w1 s := fun x => hn (h s x)
  have h2 : ¬ Changed w1 w2 s := fun x => hn (h' s x)
  cases s <;> simp_all [Changed]

theorem append (h : Only l w w1) (h' : Only l' w1 w2) : Only (l ++ l') w w2 :=
  (h.mono (by simp +contextual)).trans (h'.mono (by simp +contextual))

theorem ev (h : Only l w w') (e : Ev) : Only l w (w'.ev e) := h

theorem transfer {s d : AccountId} {v : Balance} {lv : Live} {b : Bal} (h : w.bal.transfer c.ed s d v lv = .ok b) :
    Only [.account s, .account d, .issuance] w (w.putBal b) := by
  intro x hx
  cases x with
  | account a =>
    by_contra hn
    simp only [List.mem_cons, Slot.account.injEq, reduceCtorEq, List.not_mem_nil, or_false, not_or] at hn
    refine hx ?_
    show b.freeOf a = _
    by_cases e : s = d
    · subst e; rw [Bal.transfer_self h]
    · rw [Bal.transfer_free h e]; simp [hn]
  | issuance => simp
  | other =>
    refine absurd ?_ hx
    have := Bal.transfer_locks h
    simp [others, World.putBal, this]
  | _ => simp [Changed, World.putBal] at hx

theorem putNft (w : World) (n : NFTId) (d : NFTData) : Only [.nft n] w (w.putNft n d) := by
  intro x hx
  cases x with
  | nft m =>
    simp only [Changed, World.putNft, FMap.get_insert] at hx
    split at hx
    · subst_vars; simp
    · simp at hx
  | other => exact absurd rfl hx
  | _ => simp [Changed, World.putNft] at hx

end Spec.Only

/-! ## transmissions -/

theorem TrM.one_only (w : World) (n : NFTId) :
    Only (if (hookOne w n).2 then [.nft n, .transmission n] else []) w (hookOne w n).1 := by
  unfold hookOne transmit
  cases ht : w.tr.trans.get n with
  | none => exact .refl w
  | some t =>
    cases hd : w.nfts.get n with
    | none => exact .refl w
    | some d =>
      simp only [getOr, bind, Except.bind, pure, Except.pure, if_true]
      intro s hs
      cases s with
      | nft m =>
        simp only [Changed, World.putNft, World.ev, FMap.get_insert] at hs
        split at hs
        · subst_vars; simp
        · simp at hs
      | transmission m =>
        simp only [Changed, World.putNft, World.ev, FMap.get_erase] at hs
        split at hs
        · subst_vars; simp
        · simp at hs
      | other => exact absurd rfl hs
      | _ => simp [Changed, World.putNft, World.ev] at hs

theorem TrM.loop_only (q : Queue) (w : World) (k : Nat) :
    k ≤ (hookLoop c w q k).2.2 ∧
    ∃ l, l.length + 2 * k ≤ 2 * (hookLoop c w q k).2.2 ∧ Only l w (hookLoop c w q k).1 := by
  induction q generalizing w k with
  | nil => exact ⟨Nat.le_refl _, [], by simp [hookLoop], .refl w⟩
  | cons x q ih =>
    obtain ⟨n, b⟩ := x
    simp only [hookLoop]
    split
    · have h1 := one_only w n
      generalize hl1 : (if (hookOne w n).2 then [Slot.nft n, Slot.transmission n] else []) = l1 at h1
      have hk : l1.length + 2 * k = 2 * (if (hookOne w n).2 = true then k + 1 else k) ∧
          k ≤ (if (hookOne w n).2 = true then k + 1 else k) := by
        subst hl1; split <;> simp <;> omega
      generalize (if (hookOne w n).2 = true then k + 1 else k) = k' at hk
      split
      · exact ⟨hk.2, l1, by dsimp only; omega, h1⟩
      · obtain ⟨h2, l2, h3, h4⟩ := ih (hookOne w n).1 k'
        exact ⟨by omega, l1 ++ l2, by simp only [List.length_append]; omega, h1.append h4⟩
    · exact ⟨Nat.le_refl _, [], by simp, .refl w⟩

theorem TrM.hook_only : AtMost (weight c w).2 w (hook c w) := by
  obtain ⟨_, l, h1, h2⟩ := loop_only (c := c) w.tr.queue w 0
  simp only [hook, weight]
  split
  · refine ⟨.transmissionQueue :: l, by simp only [List.length_cons]; omega, fun s hs => ?_⟩
    by_cases e : s = .transmissionQueue
    · simp [e]
    · refine List.mem_cons_of_mem _ (h2 s ?_)
      cases s <;> first | exact hs | exact absurd rfl e
  · exact ⟨l, by omega, h2⟩

/-! ## rentals -/

/-- the items that all actions of the rent hook share -/
abbrev RentM.common (c : Cfg) : List Slot := [.account c.rentPot, .issuance, .rentQueues]

theorem RentM.pay_only {dst : AccountId} {v : Balance} {lv : Live} (w : World) :
    Only (common c ++ [.account dst]) w (payAct c c.rentPot dst v lv w).1 := by
  unfold payAct
  cases h : w.bal.transfer c.ed c.rentPot dst v lv with
  | error e => exact .refl w
  | ok b => exact (Only.transfer h).mono (by simp)

theorem RentM.chown_only (o : Option NFTId) (a : AccountId) (w : World) :
    Only (o.toList.map .nft) w (chownOpt o a w).1 := by
  cases o with
  | none => exact .refl w
  | some n =>
    simp only [chownOpt, chownAct]
    cases h : w.nfts.get n with
    | none => exact .refl w
    | some d => exact .putNft w n _

theorem RentM.seq_only {l l' : List Slot} {x y : Act} (hx : Only l w (x w).1) (hy : ∀ w, Only l' w (y w).1) :
    Only (l ++ l') w ((x.seq y) w).1 := by
  unfold Act.seq
  rcases h : x w with ⟨w1, e | u⟩
  · rw [h] at hx; exact hx.mono (by simp +contextual)
  · rw [h] at hx; exact hx.append (hy w1)

/-- items of `common` need not be counted again -/
theorem RentM.only_append {l l' : List Slot} {w1 w2 : World} (h : Only (common c ++ l) w w1)
    (h' : Only (common c ++ l') w1 w2) : Only (common c ++ (l ++ l')) w w2 :=
  (h.append h').mono (by intro s hs; simp only [List.mem_append] at hs ⊢; tauto)

theorem RentM.only_seq {l l' : List Slot} {x y : Act} (hx : Only (common c ++ l) w (x w).1)
    (hy : ∀ w, Only (common c ++ l') w (y w).1) : Only (common c ++ (l ++ l')) w ((x.seq y) w).1 :=
  (seq_only hx hy).mono (by intro s hs; simp only [List.mem_append] at hs ⊢; tauto)

theorem RentM.finished_only (n : NFTId) (w : World) :
    ∃ l, l.length ≤ 6 ∧ Only (common c ++ l) w (handleFinished c n w).1 := by
  unfold handleFinished
  cases hk : w.rent.contracts.get n with
  | none => exact ⟨[], by simp, .refl w⟩
  | some k =>
    cases hd : w.nfts.get n with
    | none => exact ⟨[], by simp, .refl w⟩
    | some d =>
      have own : ∀ (o : Option NFTId) (a : AccountId) (w : World),
          Only (common c ++ o.toList.map .nft) w (chownOpt o a w).1 := fun o a w =>
        (chown_only o a w).mono (by simp +contextual)
      have skip : ∀ w, Only (common c ++ []) w (Act.skip w).1 := fun w => .refl w
      have last : ∀ w : World, Only (common c ++ [.nft n, .contract n]) w
          { w.putNft n { d with st := { d.st with rented := false } } with
            rent := { w.rent with contracts := w.rent.contracts.erase n } } := by
        intro w s hs
        cases s with
        | nft m =>
          simp only [Changed, World.putNft, FMap.get_insert] at hs
          split at hs
          · subst_vars; simp
          · simp at hs
        | contract m =>
          simp only [Changed, FMap.get_erase] at hs
          split at hs
          · subst_vars; simp
          · simp at hs
        | other => exact absurd rfl hs
        | _ => simp [Changed, World.putNft] at hs
      cases hr : k.rentee with
      | none =>
        simp only [hr]
        refine ⟨_, ?_, only_seq (pay_only w) fun w => only_seq (skip w) fun w => only_seq (own _ _ w) fun w =>
          only_seq (skip w) fun w => last w⟩
        cases feeNft k.renterFee <;> simp
      | some r =>
        simp only [hr]
        refine ⟨_, ?_, only_seq (pay_only w) fun w => only_seq (pay_only w) fun w => only_seq (own _ _ w) fun w =>
          only_seq (own _ _ w) fun w => last w⟩
        cases feeNft k.renterFee <;> cases feeNft k.renteeFee <;> simp

theorem RentM.finish_only (q : Queue) (w : World) (k : Nat) :
    k ≤ (finishLoop c w q k).2.2 ∧
    ∃ l, l.length + 6 * k ≤ 6 * (finishLoop c w q k).2.2 ∧ Only (common c ++ l) w (finishLoop c w q k).1 := by
  induction q generalizing w k with
  | nil => exact ⟨Nat.le_refl _, [], by simp [finishLoop], .refl w⟩
  | cons x q ih =>
    obtain ⟨n, b⟩ := x
    simp only [finishLoop]
    split
    · obtain ⟨l1, h0, h1⟩ := finished_only (c := c) n w
      split
      · exact ⟨Nat.le_succ _, l1, by dsimp only; omega, h1⟩
      · obtain ⟨h2, l2, h3, h4⟩ := ih (handleFinished c n w).1 (k + 1)
        exact ⟨by omega, l1 ++ l2, by simp only [List.length_append]; omega, only_append h1 h4⟩
    · exact ⟨Nat.le_refl _, [], by simp, .refl w⟩

theorem RentM.sub_one_only (n : NFTId) (q : Queue) (w : World) :
    ∃ l, l.length ≤ 6 ∧ Only (common c ++ l) w (subOne c w n q).1 := by
  have key : (handleSub c w n).2 = none ∧ (handleSub c w n).1 = w ∨
      ∃ b r k, (handleSub c w n).2 = some b ∧ Only (common c ++ [.account r, .account k]) w (handleSub c w n).1 := by
    unfold handleSub
    split
    · exact .inl ⟨rfl, rfl⟩
    · split
      · split
        · exact .inl ⟨rfl, rfl⟩
        · split
          · exact .inl ⟨rfl, rfl⟩
          · rename_i b hb
            exact .inr ⟨_, _, _, rfl, (Only.transfer hb).mono (by intro s hs; simp at hs ⊢; tauto)⟩
      · exact .inl ⟨rfl, rfl⟩
  unfold subOne
  rcases key with ⟨h1, h2⟩ | ⟨b, r, k, h1, h2⟩
  · rcases h : handleSub c w n with ⟨w1, o⟩
    rw [h] at h1 h2
    subst h1 h2
    exact finished_only n w1
  · rcases h : handleSub c w n with ⟨w1, o⟩
    rw [h] at h1 h2
    subst h1
    exact ⟨_, by simp, h2⟩

theorem RentM.sub_only (fuel : Nat) (w : World) (q : Queue) (k : Nat) :
    k ≤ (subLoop c w q k fuel).2.2 ∧
    ∃ l, l.length + 6 * k ≤ 6 * (subLoop c w q k fuel).2.2 ∧ Only (common c ++ l) w (subLoop c w q k fuel).1 := by
  induction fuel generalizing w q k with
  | zero => exact ⟨Nat.le_refl _, [], by simp [subLoop], .refl w⟩
  | succ f ih =>
    unfold subLoop
    cases q with
    | nil => exact ⟨Nat.le_refl _, [], by simp, .refl w⟩
    | cons x q =>
      obtain ⟨n, b⟩ := x
      dsimp only
      split
      · obtain ⟨l1, h0, h1⟩ := sub_one_only (c := c) n q w
        split
        · exact ⟨Nat.le_succ _, l1, by dsimp only; omega, h1⟩
        · obtain ⟨h2, l2, h3, h4⟩ := ih (subOne c w n q).1 (subOne c w n q).2 (k + 1)
          exact ⟨by omega, l1 ++ l2, by simp only [List.length_append]; omega, only_append h1 h4⟩
      · exact ⟨Nat.le_refl _, [], by simp, .refl w⟩

theorem RentM.finish_idle (q : Queue) (w : World) (k : Nat) (h : (finishLoop c w q k).2.2 ≤ k) :
    (finishLoop c w q k).1 = w := by
  cases q with
  | nil => rfl
  | cons x q =>
    obtain ⟨n, b⟩ := x
    simp only [finishLoop] at h ⊢
    split
    · rename_i hb
      simp only [if_pos hb] at h
      split at h
      · dsimp only at h; omega
      · have := (finish_only (c := c) q (handleFinished c n w).1 (k + 1)).1
        omega
    · rfl

theorem RentM.sub_idle (fuel : Nat) (w : World) (q : Queue) (k : Nat) (h : (subLoop c w q k fuel).2.2 ≤ k) :
    (subLoop c w q k fuel).1 = w := by
  cases fuel with
  | zero => rfl
  | succ f =>
    unfold subLoop at h ⊢
    cases q with
    | nil => rfl
    | cons x q =>
      obtain ⟨n, b⟩ := x
      dsimp only at h ⊢
      split
      · rename_i hb
        simp only [if_pos hb] at h
        split at h
        · dsimp only at h; omega
        · have := (sub_only (c := c) f (subOne c w n q).1 (subOne c w n q).2 (k + 1)).1
          omega
      · rfl

theorem RentM.hook_only : AtMost (3 * (weight c w).2) w (hook c w) := by
  obtain ⟨f1, l1, f2, f3⟩ := finish_only (c := c) w.rent.fixedQ w 0
  have f4 := finish_idle (c := c) w.rent.fixedQ w 0
  simp only [hook, weight]
  generalize finishLoop c w w.rent.fixedQ 0 = f at *
  obtain ⟨s1, l2, s2, s3⟩ := sub_only (c := c) (max 1 (c.rentActions - f.2.2)) f.1 w.rent.subQ f.2.2
  have s4 := sub_idle (c := c) (max 1 (c.rentActions - f.2.2)) f.1 w.rent.subQ f.2.2
  generalize subLoop c f.1 w.rent.subQ f.2.2 (max 1 (c.rentActions - f.2.2)) = s at *
  obtain ⟨a1, l3, a2, a3⟩ := finish_only (c := c) w.rent.availQ s.1 s.2.2
  have a4 := finish_idle (c := c) w.rent.availQ s.1 s.2.2
  generalize finishLoop c s.1 w.rent.availQ s.2.2 = a at *
  have h := only_append (only_append f3 s3) a3
  split
  · refine ⟨common c ++ (l1 ++ l2 ++ l3), by simp only [List.length_append, List.length_cons, List.length_nil]; omega,
      fun s hs => ?_⟩
    by_cases e : s = .rentQueues
    · simp [e]
    · refine h s ?_
      cases s <;> first | exact hs | exact absurd rfl e
  · rw [a4 (by omega), s4 (by omega), f4 (by omega)]
    exact ⟨[], by simp, fun s hs => Only.refl (l := []) w s hs⟩

/-! ## auctions -/

/-- the items that all settlements share -/
abbrev AucM.common (c : Cfg) : List Slot := [.account c.aucPot, .issuance, .deadlines]

theorem AucM.pay_only (b : Bal) (l : Live) (x : List (AccountId × Balance)) (hb : w.bal = b) :
    Only (common c ++ x.map fun y => .account y.1) w (w.putBal (paySeq c b c.aucPot l x).1) := by
  induction x generalizing b w with
  | nil => subst hb; exact .refl w
  | cons y x ih =>
    subst hb
    simp only [paySeq]
    cases h : w.bal.transfer c.ed c.aucPot y.1 y.2 l with
    | error e => exact .refl w
    | ok b' =>
      exact (((Only.transfer h).append (ih (w := w.putBal b') b' rfl)).mono
        (by intro s hs; simp at hs ⊢; tauto))

theorem AucM.claims_only (w : World) (l : List (AccountId × Balance)) :
    Only (l.map fun x => .claim x.1) w { w with auc := { w.auc with claims := addClaims w.auc.claims l } } := by
  induction l generalizing w with
  | nil => exact .refl w
  | cons x l ih =>
    have h1 : Only [.claim x.1] w
        { w with auc := { w.auc with claims := addClaim w.auc.claims x.1 x.2 } } := by
      intro s hs
      cases s with
      | claim a =>
        simp only [Changed, addClaim, FMap.get_insert] at hs
        split at hs
        · subst_vars; simp
        · simp at hs
      | other => exact absurd rfl hs
      | _ => simp [Changed] at hs
    exact h1.append (ih { w with auc := { w.auc with claims := addClaim w.auc.claims x.1 x.2 } })

theorem AucM.only_append {l l' : List Slot} {w1 w2 : World} (h : Only (common c ++ l) w w1)
    (h' : Only (common c ++ l') w1 w2) : Only (common c ++ (l ++ l')) w w2 :=
  (h.append h').mono (by intro s hs; simp only [List.mem_append] at hs ⊢; tauto)

theorem AucM.close_only (w : World) (n : NFTId) (d : NFTData) :
    Only [.nft n, .auction n] w
      { w.putNft n d with auc := { w.auc with auctions := w.auc.auctions.erase n } } := by
  intro s hs
  cases s with
  | nft m =>
    simp only [Changed, World.putNft, FMap.get_insert] at hs
    split at hs
    · subst_vars; simp
    · simp at hs
  | auction m =>
    simp only [Changed, FMap.get_erase] at hs
    split at hs
    · subst_vars; simp
    · simp at hs
  | other => exact absurd rfl hs
  | _ => simp [Changed, World.putNft] at hs

/-- a settlement that counts: what it changes is counted as a read or a write -/
theorem AucM.settle_only (n : NFTId) (h : (settleOne c w n).2 = true) :
    ∃ l, l.length ≤ (settleWeight c w n).1 + (settleWeight c w n).2 ∧
      (settleWeight c w n).2 = 2 ∧ Only (common c ++ l) w (settleOne c w n).1 := by
  unfold settleOne at h ⊢
  unfold settleWeight
  cases hx : w.auc.auctions.get n with
  | none => simp [hx] at h
  | some x =>
    cases hd : w.nfts.get n with
    | none => simp [hx, hd] at h
    | some d =>
      simp only [hx, hd] at h ⊢
      have ht : x.bids.getLast? = none ∨ ∃ top, x.bids.getLast? = some top := by
        cases x.bids.getLast? <;> simp
      rcases ht with ht | ⟨top, ht⟩
      · simp only [ht] at h ⊢
        exact ⟨[.nft n, .auction n], by simp, trivial, ((close_only w n _).mono (by intro s hs; simp only [List.mem_append]; exact .inr hs))⟩
      · simp only [ht] at h ⊢
        rcases hp : payForNft c w n c.aucPot top.2 d x with ⟨b, e | u⟩
        · simp [hp] at h
        · dsimp only
          have h1 : ∃ l, l.length ≤ 3 ∧ Only (common c ++ l) w (w.putBal b) := by
            unfold payForNft at hp
            split at hp
            · simp at hp
            · split at hp
              · simp at hp
              · rename_i m _ _ comm _
                have := pay_only (c := c) (w := w) w.bal (if c.aucPot = c.aucPot then .allowDeath else .keepAlive)
                  [(m.owner, (cuts top.2 comm d.royalty).1), (d.creator, (cuts top.2 comm d.royalty).2.1),
                    (x.creator, (cuts top.2 comm d.royalty).2.2)] rfl
                rw [hp] at this
                exact ⟨_, by simp, this⟩
          obtain ⟨l1, h1, h2⟩ := h1
          have h3 := close_only (w.putBal b) n { d with owner := top.1, st := { d.st with listed := false } }
          have h4 := claims_only
            { (w.putBal b).putNft n { d with owner := top.1, st := { d.st with listed := false } } with
              auc := { w.auc with auctions := w.auc.auctions.erase n } } x.bids.dropLast
          have h5 := only_append h2 ((h3.append h4).mono fun s hs => by simp only [List.mem_append]; exact .inr hs)
          refine ⟨_, ?_, rfl, h5⟩
          simp only [List.length_append, List.length_map, List.length_cons, List.length_nil]
          omega

theorem AucM.settle_weight (n : NFTId) (hb : ∀ x, w.auc.auctions.get n = some x →
    x.bids.length ≤ c.bidLimit) : (settleWeight c w n).1 ≤ c.bidLimit + 3 ∧ (settleWeight c w n).2 ≤ 2 := by
  unfold settleWeight
  cases hx : w.auc.auctions.get n with
  | none => simp
  | some x =>
    have := hb x hx
    cases hd : w.nfts.get n with
    | none => simp
    | some d =>
      dsimp only
      split
      · split
        · simp
        · simp; omega
      · simp

theorem AucM.loop_only (q : Queue) (w : World) (k : Nat) (hq : q.ids.Nodup)
    (he : ∀ n ∈ q.ids, w.auc.auctions.get n ≠ none ∧ w.nfts.get n ≠ none)
    (hs : ∀ n ∈ q.ids, n ∉ Queue.ids (hookLoop c w q k).2 → (hookLoop c w q k).1.auc.auctions.get n = none) :
    ∃ l, l.length ≤ (loopWeight c w q k).1 + (loopWeight c w q k).2 ∧ Only (common c ++ l) w (hookLoop c w q k).1 := by
  induction q generalizing w k with
  | nil => exact ⟨[], by simp, .refl w⟩
  | cons x q ih =>
    obtain ⟨n, e⟩ := x
    simp only [Queue.ids, List.map_cons, List.nodup_cons] at hq
    simp only [hookLoop, loopWeight] at hs ⊢
    obtain ⟨e1, e2⟩ := he n (by simp [Queue.ids])
    have he' : ∀ m ∈ Queue.ids q, (settleOne c w n).1.auc.auctions.get m ≠ none ∧ (settleOne c w n).1.nfts.get m ≠ none := by
      intro m hm
      obtain ⟨x1, x2⟩ := he m (by simp only [Queue.ids, List.map_cons, List.mem_cons]; exact .inr hm)
      have : m ≠ n := by rintro rfl; exact hq.1 hm
      rw [settle_others n m this]
      exact ⟨x1, settle_nfts n m x2⟩
    split
    · rename_i hn
      simp only [if_pos hn] at hs
      have hz : ∀ k', (∀ m ∈ Queue.ids ((n, e) :: q), m ∉ Queue.ids (hookLoop c (settleOne c w n).1 q k').2 →
            (hookLoop c (settleOne c w n).1 q k').1.auc.auctions.get m = none) →
          (settleOne c w n).1.auc.auctions.get n = none := by
        intro k' hs
        have := hs n (by simp [Queue.ids]) fun h => hq.1 (loop_rest _ _ h)
        rwa [loop_others q k' hq.1] at this
      by_cases hr : (settleOne c w n).2 = true
      · rw [if_pos hr] at hs
        rw [if_pos hr, if_pos hr]
        obtain ⟨l1, h1, _, h3⟩ := settle_only n hr
        split
        · exact ⟨l1, by simpa using h1, h3⟩
        · rename_i hk
          rw [if_neg hk] at hs
          obtain ⟨l2, h4, h5⟩ := ih (settleOne c w n).1 (k + 1) hq.2 he' fun m hm =>
            hs m (by simp only [Queue.ids, List.map_cons, List.mem_cons]; exact .inr hm)
          exact ⟨_, by simp only [List.length_append]; omega, only_append h3 h5⟩
      · rw [if_neg hr] at hs
        exact absurd (settle_counted n e1 e2 (hz _ hs)) hr
    · exact ⟨[], by simp, .refl w⟩

theorem AucM.hook_only (hq : (Queue.ids w.auc.deadlines).Nodup)
    (he : ∀ n ∈ Queue.ids w.auc.deadlines, w.auc.auctions.get n ≠ none ∧ w.nfts.get n ≠ none)
    (hs : Settled w (hook c w)) : AtMost ((weight c w).1 + (weight c w).2 + 2) w (hook c w) := by
  obtain ⟨l, h1, h2⟩ := loop_only (c := c) w.auc.deadlines w 0 hq he hs
  have h3 : Only (common c ++ l) (hookLoop c w w.auc.deadlines 0).1 (hook c w) := by
    intro s hs
    cases s with
    | deadlines => simp
    | other => exact absurd rfl hs
    | _ => simp [Changed, hook] at hs
  refine ⟨_, ?_, h2.trans h3⟩
  simp only [List.length_append, List.length_cons, List.length_nil, weight]
  omega

theorem AucM.settle_idle (n : NFTId) (h : (settleOne c w n).2 ≠ true) : settleWeight c w n = (0, 0) := by
  unfold settleOne at h
  unfold settleWeight
  cases hx : w.auc.auctions.get n with
  | none => rfl
  | some x =>
    cases hd : w.nfts.get n with
    | none => rfl
    | some d =>
      simp only [hx, hd] at h ⊢
      cases ht : x.bids.getLast? with
      | none => simp [ht] at h
      | some top =>
        simp only [ht] at h ⊢
        rcases hp : payForNft c w n c.aucPot top.2 d x with ⟨b, e | u⟩
        · simp
        · simp [hp] at h

theorem AucM.settle_bids (n : NFTId) (hb : ∀ m x, w.auc.auctions.get m = some x → x.bids.length ≤ c.bidLimit) :
    ∀ m x, (settleOne c w n).1.auc.auctions.get m = some x → x.bids.length ≤ c.bidLimit := by
  intro m x hx
  by_cases e : m = n
  · subst e
    unfold settleOne at hx
    repeat' split at hx
    all_goals first
      | exact hb _ _ hx
      | (simp [World.ev, World.putNft] at hx)
  · rw [settle_others n m e] at hx
    exact hb m x hx

theorem AucM.loop_weight (q : Queue) (w : World) (k : Nat)
    (hb : ∀ m x, w.auc.auctions.get m = some x → x.bids.length ≤ c.bidLimit) :
    (loopWeight c w q k).1 ≤ max 1 (c.aucActions - k) * (c.bidLimit + 3) ∧
    (loopWeight c w q k).2 ≤ 2 * max 1 (c.aucActions - k) := by
  induction q generalizing w k with
  | nil => simp [loopWeight]
  | cons x q ih =>
    obtain ⟨n, e⟩ := x
    simp only [loopWeight]
    split
    · by_cases hr : (settleOne c w n).2 = true
      · rw [if_pos hr]
        obtain ⟨h1, h2⟩ := settle_weight n (hb n)
        split
        · have : (c.bidLimit + 3) * 1 ≤ max 1 (c.aucActions - k) * (c.bidLimit + 3) := by
            rw [Nat.mul_comm]; exact Nat.mul_le_mul_right _ (by omega)
          simp only; omega
        · obtain ⟨h3, h4⟩ := ih (settleOne c w n).1 (k + 1) (settle_bids n hb)
          have e1 : max 1 (c.aucActions - k) = max 1 (c.aucActions - (k + 1)) + 1 := by omega
          rw [e1, Nat.add_mul]
          omega
      · rw [if_neg hr, settle_idle n hr]
        obtain ⟨h3, h4⟩ := ih (settleOne c w n).1 k (settle_bids n hb)
        simp only; omega
    · simp

/-! ## TEE -/

theorem TeeM.hook_only : ∃ e, ∀ s, Changed w (hook c w) s → ∃ a, s = .report e a ∨ s = .claimed e a := by
  unfold hook
  cases w.active with
  | none => exact ⟨0, fun s hs => absurd (Only.refl (l := []) w s hs) (by simp)⟩
  | some x =>
    refine ⟨x - c.history, fun s hs => ?_⟩
    dsimp only at hs
    split at hs
    · cases s with
      | report e a =>
        by_cases he : e = x - c.history
        · exact ⟨a, .inl (by rw [he])⟩
        · simp [Changed, clearEra, FMap.get_filterKeys, he] at hs
      | claimed e a =>
        by_cases he : e = x - c.history
        · exact ⟨a, .inr (by rw [he])⟩
        · simp [Changed, clearEra, FMap.get_filterKeys, he] at hs
      | other => exact absurd rfl hs
      | _ => simp [Changed, clearEra] at hs
    · exact absurd (Only.refl (l := []) w s hs) (by simp)
