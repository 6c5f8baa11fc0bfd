import Verif.Proofs.HookScope
import Verif.Proofs.Inv
import Verif.Proofs.AucInv
import Mathlib.Data.List.Nodup
/-
C109: which hooks do not meet in reachable states, and that the order of such hooks does not matter.
-/
open Spec
variable {c : Cfg} {w w' w1 w2 : World}

/-- maps with the same entries have the same sums -/
theorem FMap.sumBy_ext {K V : Type} [DecidableEq K] (f : K → V → Nat) {m m' : FMap K V} (h : ∀ k, m.get k = m'.get k) :
    m.sumBy f = m'.sumBy f := by
  have hp : m.l.Perm m'.l := by
    refine (List.perm_ext_iff_of_nodup (List.Nodup.of_map _ m.nd) (List.Nodup.of_map _ m'.nd)).2 fun x => ?_
    obtain ⟨k, v⟩ := x
    rw [← FMap.get_some_iff_mem, ← FMap.get_some_iff_mem, h k]
  exact (hp.map _).sum_nat

/-! hooks charge no fees -/

theorem Bal.transfer_collected {b b' : Bal} {ed v : Balance} {s d : AccountId} {l : Live}
    (h : b.transfer ed s d v l = .ok b') : b'.collected = b.collected := (Bal.transfer_locks h).2.2

theorem AucM.paySeq_collected (s : AccountId) (v : Live) : ∀ (l : List (AccountId × Balance)) (b : Bal),
    (AucM.paySeq c b s v l).1.collected = b.collected := by
  intro l
  induction l with
  | nil => intro b; rfl
  | cons x t ih =>
    intro b
    obtain ⟨d, v⟩ := x
    simp only [AucM.paySeq]
    split
    · rfl
    · rename_i b' hb
      rw [ih, Bal.transfer_collected hb]

theorem AucM.settleOne_collected (w : World) (n : NFTId) : (AucM.settleOne c w n).1.bal.collected = w.bal.collected := by
  unfold AucM.settleOne
  cases w.auc.auctions.get n with
  | none => rfl
  | some a =>
    cases w.nfts.get n with
    | none => rfl
    | some d =>
      dsimp only
      cases a.bids.getLast? with
      | none => rfl
      | some top =>
        dsimp only
        have h0 : (AucM.payForNft c w n c.aucPot top.2 d a).1.collected = w.bal.collected := by
          unfold AucM.payForNft
          split
          · rfl
          · split
            · rfl
            · exact paySeq_collected ..
        rcases hp : AucM.payForNft c w n c.aucPot top.2 d a with ⟨b, r⟩
        rw [hp] at h0
        cases r <;> exact h0

theorem AucM.hookLoop_collected : ∀ (q : Queue) (k : Nat) (w : World),
    (AucM.hookLoop c w q k).1.bal.collected = w.bal.collected := by
  intro q
  induction q with
  | nil => intro k w; rfl
  | cons x t ih =>
    obtain ⟨n, b⟩ := x
    intro k w
    have h := settleOne_collected (c := c) w n
    simp only [AucM.hookLoop]
    repeat' split
    all_goals first | rfl | exact h | (rw [ih]; exact h)

/-- code that leaves the collected fees alone -/
def NoFee (f : Act) : Prop := ∀ w, (f w).1.bal.collected = w.bal.collected

namespace RentM

theorem noFee_seq {f g : Act} (hf : NoFee f) (hg : NoFee g) : NoFee (f.seq g) := by
  intro w
  unfold Act.seq
  have h := hf w
  rcases hx : f w with ⟨v, _ | _⟩
  · rw [hx] at h; exact h
  · rw [hx] at h; exact (hg v).trans h

theorem noFee_pay (s d : AccountId) (v : Balance) (l : Live) : NoFee (payAct c s d v l) := by
  intro w
  unfold payAct
  cases h : w.bal.transfer c.ed s d v l with
  | error e => rfl
  | ok b => exact Bal.transfer_collected h

theorem noFee_chown (n : Option NFTId) (a : AccountId) : NoFee (chownOpt n a) := by
  intro w
  cases n with
  | none => rfl
  | some m => simp only [chownOpt, chownAct]; split <;> rfl

theorem noFee_finished (n : NFTId) : NoFee (handleFinished c n) := by
  intro w
  unfold handleFinished
  cases w.rent.contracts.get n with
  | none => rfl
  | some k =>
    cases w.nfts.get n with
    | none => rfl
    | some d =>
      refine noFee_seq (noFee_pay _ _ _ _) (noFee_seq ?_ (noFee_seq (noFee_chown _ _) (noFee_seq ?_ ?_))) w
      · cases k.rentee with
        | none => exact fun _ => rfl
        | some r => exact noFee_pay _ _ _ _
      · cases k.rentee with
        | none => exact fun _ => rfl
        | some r => exact noFee_chown _ _
      · exact fun _ => rfl

theorem subOne_collected (w : World) (n : NFTId) (t : Queue) : (subOne c w n t).1.bal.collected = w.bal.collected := by
  unfold subOne
  rcases hs : handleSub c w n with ⟨v, _ | b⟩
  · rw [handleSub_none hs]; exact noFee_finished n w
  · obtain ⟨k, r, fee, bal, -, -, -, -, -, hb, -, rfl⟩ := handleSub_some hs
    exact Bal.transfer_collected hb

theorem finishLoop_collected : ∀ (q : Queue) (k : Nat) (w : World),
    (finishLoop c w q k).1.bal.collected = w.bal.collected := by
  intro q
  induction q with
  | nil => intro k w; rfl
  | cons x t ih =>
    obtain ⟨n, b⟩ := x
    intro k w
    have h := noFee_finished (c := c) n w
    simp only [finishLoop]
    repeat' split
    all_goals first | rfl | exact h | (rw [ih]; exact h)

theorem subLoop_collected : ∀ (f : Nat) (q : Queue) (k : Nat) (w : World),
    (subLoop c w q k f).1.bal.collected = w.bal.collected := by
  intro f
  induction f with
  | zero => intro q k w; rfl
  | succ f ih =>
    intro q k w
    cases q with
    | nil => rfl
    | cons x t =>
      obtain ⟨n, b⟩ := x
      have h := subOne_collected (c := c) w n t
      simp only [subLoop]
      repeat' split
      all_goals first | rfl | exact h | (rw [ih]; exact h)

theorem hook_collected (w : World) : (hook c w).bal.collected = w.bal.collected := by
  unfold hook
  dsimp only
  split
  all_goals
    try dsimp only
    rw [finishLoop_collected, subLoop_collected, finishLoop_collected]

end RentM

theorem TrM.hookLoop_bal : ∀ (q : Queue) (k : Nat) (w : World), (TrM.hookLoop c w q k).1.bal = w.bal := by
  intro q
  induction q with
  | nil => intro k w; rfl
  | cons x t ih =>
    obtain ⟨n, b⟩ := x
    intro k w
    have h : (TrM.hookOne w n).1.bal = w.bal := by
      unfold TrM.hookOne
      cases hx : TrM.transmit w n with
      | error e => rfl
      | ok v =>
        unfold TrM.transmit at hx
        inv_ok at hx
        obtain ⟨_, _, -, -, rfl⟩ := hx
        rfl
    simp only [TrM.hookLoop]
    generalize (if (TrM.hookOne w n).2 = true then k + 1 else k) = k'
    repeat' split
    all_goals first | rfl | exact h | (rw [ih]; exact h)

theorem hook_collected (k : Hook) (w : World) : (step c w k.op).bal.collected = w.bal.collected := by
  cases k with
  | auction => exact AucM.hookLoop_collected ..
  | rent => exact RentM.hook_collected w
  | transmission =>
    show (TrM.hook c w).bal.collected = _
    have h := TrM.hookLoop_bal (c := c) w.tr.queue 0 w
    unfold TrM.hook
    dsimp only
    split <;> exact congrArg Bal.collected h
  | tee =>
    show (TeeM.hook c w).bal.collected = _
    unfold TeeM.hook
    repeat' split
    all_goals rfl

/-! ### which hooks meet -/

theorem Reach.hook (hr : Reach c w) (k : Hook) : Reach c (_root_.step c w k.op) :=
  .step k.op hr (by cases k <;> exact trivial)

/-- an NFT that the auctions' hook is about is listed -/
theorem auction_nft (hc : c.Ok) (hr : Reach c w) {n : NFTId} (h : Item.nft n ∈ hookUses c w .auction) :
    ∃ d, w.nfts.get n = some d ∧ d.st.listed = true := by
  simp only [hookUses, List.mem_append, List.mem_flatMap, List.mem_cons, List.not_mem_nil, reduceCtorEq,
    false_or, List.cons_append] at h
  obtain ⟨m, hm, h⟩ := h
  have e : n = m := by
    rcases h with h | h | h
    · cases h; rfl
    · simp only [auctionPayees, marketAndOwner, creatorOf] at h; repeat' split at h
      all_goals simp at h
    · simp only [refunds] at h; split at h <;> simp at h
  subst e
  obtain ⟨b, hb, -⟩ := mem_dueBy.1 hm
  obtain ⟨x, hx, -⟩ := (hr.auc hc).inQ n b hb
  have hg := (hr.inv hc).good n
  cases hd : w.nfts.get n with
  | none =>
    have := congrArg Slice.auc (hg.gone hd)
    simp [slice, hx, Slice.blank] at this
  | some d => exact ⟨d, rfl, (hg.nft d hd).listed.2 (.inr (by simp [slice, hx]))⟩

/-- an NFT that the transmissions' hook is about is in transmission -/
theorem transmission_nft (hc : c.Ok) (hr : Reach c w) {n : NFTId} (h : Item.nft n ∈ hookUses c w .transmission) :
    ∃ d, w.nfts.get n = some d ∧ d.st.transmission = true := by
  simp only [hookUses, List.mem_cons, List.mem_map, reduceCtorEq, false_or, Item.nft.injEq, exists_eq_right] at h
  obtain ⟨b, hb, -⟩ := mem_dueBy.1 h
  obtain ⟨x, hx, -⟩ := (hr.inv hc).tr.inQ n b hb
  have hg := (hr.inv hc).good n
  cases hd : w.nfts.get n with
  | none =>
    have := congrArg Slice.tr (hg.gone hd)
    simp [slice, hx, Slice.blank] at this
  | some d => exact ⟨d, rfl, (hg.nft d hd).trans.2 (by simp [slice, hx])⟩

/-- an NFT that the rentals' hook is about is rented or free of claims by other pallets -/
theorem rent_nft (hc : c.Ok) (hr : Reach c w) {n : NFTId} (h : Item.nft n ∈ hookUses c w .rent) :
    ∃ d, w.nfts.get n = some d ∧ d.st.listed = false ∧ d.st.transmission = false := by
  have hi := (hr.inv hc).rent
  simp only [hookUses] at h
  rcases List.mem_append.1 h with h | h
  · simp at h
  obtain ⟨m, hm, h⟩ := List.mem_flatMap.1 h
  have hk : ∃ k, w.rent.contracts.get m = some k := by
    simp only [List.mem_append, mem_dueBy] at hm
    rcases hm with (⟨b, hb, -⟩ | ⟨b, hb, -⟩) | ⟨b, hb, -⟩
    · obtain ⟨k, _, _, hk, -⟩ := hi.q.inF m b hb; exact ⟨k, hk⟩
    · obtain ⟨k, _, _, hk, -⟩ := hi.q.inS m b hb; exact ⟨k, hk⟩
    · obtain ⟨k, hk, -⟩ := hi.q.inA m b hb; exact ⟨k, hk⟩
  obtain ⟨k, hk⟩ := hk
  have self : ∃ d, w.nfts.get m = some d ∧ d.st.listed = false ∧ d.st.transmission = false := by
    obtain ⟨d, hd⟩ := hi.dep.nft m k hk
    have hg := ((hr.inv hc).good m).nft d hd
    have h1 := hg.rented.2 (by simp [slice, hk])
    refine ⟨d, hd, ?_, (hg.exR h1).1⟩
    cases hl : d.st.listed with
    | false => rfl
    | true => have := (hg.exL hl).1; rw [h1] at this; cases this
  have held : ∀ x, RentM.deposits m k x → ∃ d, w.nfts.get x = some d ∧ d.st.listed = false ∧ d.st.transmission = false := by
    intro x hx
    obtain ⟨d, h1, -, h3⟩ := (hi.dep.ok m k hk).held x hx
    refine ⟨d, h1, ?_⟩
    simp [RentM.valid] at h3
    simp [h3]
  simp only [List.cons_append, List.mem_cons, List.mem_append] at h
  rcases h with h | h | h
  · cases h; exact self
  · exfalso; simp only [parties, hk] at h; cases k.rentee <;> simp at h
  · simp only [depositedNfts, hk, List.mem_append] at h
    rcases h with h | h
    · by_cases e : n = m
      · subst e; exact self
      · refine held n (.inl ⟨?_, e⟩)
        cases hf : k.renterFee <;> simp_all [RentM.feeNft]
    · refine held n (.inr ?_)
      cases hr : k.rentee <;> cases hf : k.renteeFee <;> simp_all [RentM.feeNft, RentM.renteeNft]

theorem HooksApart.symm {j k : Hook} (h : HooksApart c w j k) : HooksApart c w k j := ⟨h.2, h.1⟩

/-- in reachable states hooks can only meet at accounts -/
theorem apart_of (hc : c.Ok) (hr : Reach c w) {j k : Hook} (hne : j ≠ k)
    (h : ∀ a, Item.account a ∈ hookUses c w j → Item.account a ∉ hookUses c w k) : HooksApart c w j k := by
  have shape : ∀ k i, i ∈ hookUses c w k → (match k, i with
      | .auction, .nft _ | .auction, .account _ | .auction, .refund _ | .auction, .market _ | .auction, .auctions => true
      | .rent, .nft _ | .rent, .account _ | .rent, .rents => true
      | .transmission, .nft _ | .transmission, .transmissions => true
      | .tee, .tee => true
      | _, _ => false) = true := by
    intro k i hk
    cases k
    · rcases List.mem_append.1 hk with h | h
      · simp at h; rcases h with rfl | rfl <;> rfl
      obtain ⟨m, -, h⟩ := List.mem_flatMap.1 h
      rcases List.mem_append.1 h with h | h
      · rcases List.mem_cons.1 h with rfl | h
        · rfl
        · simp only [auctionPayees, marketAndOwner, creatorOf] at h; repeat' split at h
          all_goals
            simp at h
            try (rcases h with rfl | rfl | rfl | rfl <;> rfl)
      · simp only [refunds] at h; split at h
        · obtain ⟨b, -, rfl⟩ := List.mem_map.1 h; rfl
        · simp at h
    · rcases List.mem_append.1 hk with h | h
      · simp at h; rcases h with rfl | rfl <;> rfl
      obtain ⟨m, -, h⟩ := List.mem_flatMap.1 h
      rcases List.mem_append.1 h with h | h
      · rcases List.mem_cons.1 h with rfl | h
        · rfl
        · simp only [parties] at h; split at h
          · rcases List.mem_cons.1 h with rfl | h
            · rfl
            · simp only [Option.mem_toList, Option.map_eq_some_iff] at h
              obtain ⟨r, -, rfl⟩ := h; rfl
          · simp at h
      · simp only [depositedNfts] at h; split at h
        · rcases List.mem_append.1 h with h | h <;> split at h <;> simp at h <;> subst h <;> rfl
        · simp at h
    · simp only [hookUses, List.mem_cons, List.mem_map] at hk
      rcases hk with rfl | ⟨n, -, rfl⟩ <;> rfl
    · simp [hookUses] at hk; subst hk; rfl
  have main : ∀ {j k : Hook}, j ≠ k → (∀ a, Item.account a ∈ hookUses c w j → Item.account a ∉ hookUses c w k) →
      ∀ i ∈ hookTouches c w j, i ∉ hookUses c w k := by
    intro j k hne h i hi hk
    have sk := shape k i hk
    by_cases hs : i = .supply
    · subst hs; cases k <;> simp at sk
    have hj := hookTouches_uses hi hs
    cases i with
    | supply => exact hs rfl
    | account a => exact h a hj hk
    | nft n =>
      have sj := shape j _ hj
      cases j <;> cases k <;> simp at sj sk hne
      · obtain ⟨d, h1, h2⟩ := auction_nft hc hr hj
        obtain ⟨d', h3, h4, -⟩ := rent_nft hc hr hk
        rw [h1] at h3; cases h3; rw [h2] at h4; cases h4
      · obtain ⟨d, h1, h2⟩ := auction_nft hc hr hj
        obtain ⟨d', h3, h4⟩ := transmission_nft hc hr hk
        rw [h1] at h3; cases h3
        have := ((((hr.inv hc).good n).nft d h1).exL h2).2.1
        rw [h4] at this; cases this
      · obtain ⟨d, h1, h2⟩ := auction_nft hc hr hk
        obtain ⟨d', h3, h4, -⟩ := rent_nft hc hr hj
        rw [h1] at h3; cases h3; rw [h2] at h4; cases h4
      · obtain ⟨d, h1, h2⟩ := transmission_nft hc hr hk
        obtain ⟨d', h3, -, h4⟩ := rent_nft hc hr hj
        rw [h1] at h3; cases h3; rw [h2] at h4; cases h4
      · obtain ⟨d, h1, h2⟩ := auction_nft hc hr hk
        obtain ⟨d', h3, h4⟩ := transmission_nft hc hr hj
        rw [h1] at h3; cases h3
        have := ((((hr.inv hc).good n).nft d h1).exL h2).2.1
        rw [h4] at this; cases this
      · obtain ⟨d, h1, h2⟩ := transmission_nft hc hr hj
        obtain ⟨d', h3, -, h4⟩ := rent_nft hc hr hk
        rw [h1] at h3; cases h3; rw [h2] at h4; cases h4
    | _ =>
      have sj := shape j _ hj
      cases j <;> cases k <;> simp at sj sk hne
  exact ⟨main hne h, main hne.symm fun a ha hb => h a hb ha⟩

/-- the other hooks are apart from every hook -/
theorem apart_still (hc : c.Ok) (hr : Reach c w) {j k : Hook} (hne : j ≠ k) (hj : j.money = false) : HooksApart c w j k := by
  refine apart_of hc hr hne fun a ha => ?_
  cases j <;> simp [Hook.money] at hj <;> simp [hookUses] at ha

/-- hooks that do not meet can be swapped, the total issuance included -/
theorem swap_same (hr : Reach c w) {j k : Hook} (h : HooksApart c w j k) :
    SameState (step c (step c w j.op) k.op) (step c (step c w k.op) j.op) := by
  refine ⟨hooks_settings j k, fun i => ?_⟩
  by_cases hi : i = .supply
  · subst hi
    have e1 : (step c (step c w j.op) k.op).bal.collected = (step c (step c w k.op) j.op).bal.collected := by
      rw [hook_collected, hook_collected, hook_collected, hook_collected]
    refine ⟨?_, e1⟩
    rw [((hr.hook j).hook k).micro.balInv.wf.sum, ((hr.hook k).hook j).micro.balInv.wf.sum, e1]
    congr 1
    exact FMap.sumBy_ext _ fun a => (hooks_swap h (i := .account a) (by simp)).1
  · exact hooks_swap h hi

theorem Spec.SameState.refl (w : World) : SameState w w := ⟨.rfl' w, fun i => .rfl' w i⟩

theorem Spec.SameState.trans {w1 w2 w3 : World} (h : SameState w1 w2) (h' : SameState w2 w3) : SameState w1 w3 :=
  ⟨h.1.trans h'.1, fun i => (h.2 i).trans (h'.2 i)⟩

theorem Spec.SameState.symm {w1 w2 : World} (h : SameState w1 w2) : SameState w2 w1 :=
  ⟨h.1.symm, fun i => (h.2 i).symm⟩

theorem Spec.SameState.hook {w1 w2 : World} (h : SameState w1 w2) (k : Hook) :
    SameState (step c w1 k.op) (step c w2 k.op) := by
  have key : ∀ S, Rel S w1 w2 := fun S => ⟨h.1, fun i _ => h.2 i⟩
  refine ⟨(hook_dep k (key _) (List.Subset.refl _)).set, fun i => ?_⟩
  exact (hook_dep (S := i :: hookUses c w1 k) k (key _) fun x hx => List.mem_cons_of_mem _ hx).on i (by simp)

theorem Spec.SameState.hooks {w1 w2 : World} (h : SameState w1 w2) (l : List Hook) :
    SameState (Spec.hooks c w1 l) (Spec.hooks c w2 l) := by
  induction l generalizing w1 w2 with
  | nil => exact h
  | cons k t ih => exact ih (h.hook k)

theorem Reach.hooks (hr : Reach c w) (l : List Hook) : Reach c (Spec.hooks c w l) := by
  induction l generalizing w with
  | nil => exact hr
  | cons k t ih => exact ih (hr.hook k)

theorem hooks_append (w : World) (l l' : List Hook) : hooks c w (l ++ l') = hooks c (hooks c w l) l' := by
  induction l generalizing w with
  | nil => rfl
  | cons k t ih => exact ih _

/-- a hook that moves no tokens can be moved past others -/
theorem move_past (hc : c.Ok) (hr : Reach c w) {j : Hook} (hj : j.money = false) (l r : List Hook) :
    SameState (hooks c w (j :: l ++ r)) (hooks c w (l ++ j :: r)) := by
  induction l generalizing w with
  | nil => exact .refl _
  | cons k t ih =>
    refine SameState.trans ?_ (ih (hr.hook k))
    by_cases e : j = k
    · subst e; exact .refl _
    · exact (swap_same hr (apart_still hc hr e hj)).hooks (t ++ r)

/-- the hooks sorted by pallet -/
def canon (l : List Hook) : List Hook :=
  l.filter Hook.money ++ (l.filter (· = .transmission) ++ l.filter (· = .tee))

theorem canon_same (hc : c.Ok) (hr : Reach c w) (l : List Hook) : SameState (hooks c w l) (hooks c w (canon l)) := by
  induction l generalizing w with
  | nil => exact .refl _
  | cons x t ih =>
    have h1 : SameState (hooks c w (x :: t)) (hooks c w (x :: canon t)) := ih (hr.hook x)
    refine h1.trans ?_
    cases x with
    | auction => exact .refl _
    | rent => exact .refl _
    | transmission => exact move_past hc hr rfl _ _
    | tee =>
      have := move_past hc hr (j := .tee) rfl (t.filter Hook.money ++ t.filter (· = .transmission)) (t.filter (· = .tee))
      simpa [canon, Hook.money, List.append_assoc] using this
