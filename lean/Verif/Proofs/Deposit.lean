import Verif.Props.DepositSpec
import Verif.Proofs.Bidder
import Verif.Proofs.RentStep
/-
What the parties of rentals deposit, forfeit and get back, event by event.
-/
open Spec

variable {c : Cfg} {w w' : World} {a : AccountId}

/-- an account's deposits from `w` to `w'`, by the events `l` -/
def Spec.Balanced (c : Cfg) (y : AccountId) (w w' : World) (l : List (Block × Event)) : Prop :=
  pledges w y + total c (putsDown y) (truth w) l =
    pledges w' y + total c (recovers y) (truth w) l + total c (forfeits y) (truth w) l

theorem Spec.Balanced.nil {y : AccountId} (h : w'.rent.contracts = w.rent.contracts) : Balanced c y w w' [] := by
  simp [Balanced, total, pledges, h]

theorem Spec.Balanced.append {y : AccountId} {w1 : World} {l l' : List (Block × Event)} (h : Balanced c y w w1 l)
    (hb : truth w1 = books c.rentPot c.grace (truth w) l) (h' : Balanced c y w1 w' l') : Balanced c y w w' (l ++ l') := by
  unfold Balanced at *
  rw [hb] at h'
  simp only [total_append]
  omega

/-- an event that is not about deposits -/
def Spec.NoDeposit : Event → Bool
  | .contractCreated .. | .contractStarted .. | .contractRevoked .. | .contractCanceled .. | .contractEnded ..
  | .contractExpired .. => false
  | _ => true

theorem Spec.NoDeposit.zero {e : Event} (he : NoDeposit e = true) (y : AccountId) (now : Block) (v : View) :
    putsDown y now v e = 0 ∧ recovers y now v e = 0 ∧ forfeits y now v e = 0 := by
  cases e <;> first | exact ⟨rfl, rfl, rfl⟩ | simp [NoDeposit] at he

theorem Spec.Balanced.none {y : AccountId} {l : List Event} (h : ∀ e ∈ l, NoDeposit e = true)
    (hs : w'.rent.contracts = w.rent.contracts) (now : Block) : Balanced c y w w' (l.map fun e => (now, e)) := by
  unfold Balanced
  rw [total_zero fun e he v => (NoDeposit.zero (h e he) y now v).1,
    total_zero fun e he v => (NoDeposit.zero (h e he) y now v).2.1,
    total_zero fun e he v => (NoDeposit.zero (h e he) y now v).2.2]
  simp only [pledges, hs]

namespace RentM

theorem pledges_erase {m : FMap NFTId Contract} {n k} {y : AccountId} (h : m.get n = some k) :
    (m.erase n).sumBy (fun _ k => pledge y k) + pledge y k = m.sumBy fun _ k => pledge y k := by
  rw [FMap.sumBy_split _ m n, h]; simp; omega

theorem pledges_insert {m : FMap NFTId Contract} {n k k'} {y : AccountId} (h : m.get n = some k) :
    (m.insert n k').sumBy (fun _ k => pledge y k) + pledge y k = (m.sumBy fun _ k => pledge y k) + pledge y k' := by
  rw [FMap.sumBy_insert, ← pledges_erase h]; omega

theorem pledges_new {m : FMap NFTId Contract} {n k} {y : AccountId} (h : m.get n = none) :
    (m.insert n k).sumBy (fun _ k => pledge y k) = (m.sumBy fun _ k => pledge y k) + pledge y k := by
  rw [FMap.sumBy_insert, FMap.sumBy_split _ m n, h]; simp; omega

/-- a contract is over without dispute -/
theorem over_balanced {n k e} {y : AccountId} (he : e = .contractCanceled n ∨ e = .contractEnded n ∨ e = .contractExpired n)
    (hk : w.rent.contracts.get n = some k) (hw : w'.rent.contracts = w.rent.contracts.erase n) (now : Block) :
    Balanced c y w w' [(now, e)] := by
  have ek : (truth w).contract n = some k := hk
  have := pledges_erase (y := y) hk
  rcases he with rfl | rfl | rfl <;>
    (simp only [Balanced, total, putsDown, recovers, forfeits, ek, Option.elim, pledges, hw]; omega)

theorem balanced (hi : RInv c w) {x} (h : call c w a x = .ok w') (y : AccountId) :
    Balanced c y w w' ((emit c a x).map fun e => (w.now, e)) := by
  have hd := call_did h
  cases hd with
  | @create n dur acc rv rf f1 f2 _ h2 =>
    obtain ⟨d, b, q, _, hd, _, hv, _, _, _, _, _, _, _, _, _, _, _, _, _, _, rfl⟩ := create_ok h2
    have hnone : w.rent.contracts.get n = none := by
      cases hk : w.rent.contracts.get n with
      | none => rfl
      | some k =>
        have := (hi.dep.ok n k hk).owner d hd
        simp [valid, this.2] at hv
    simp only [emit, List.map_cons, List.map_nil, Balanced, total, putsDown, recovers, forfeits, pledges]
    rw [pledges_new hnone]
    simp only [pledge, reduceCtorEq, if_false]
    omega
  | @cancel n k b f hk h1 h2 h3 => exact over_balanced (.inl rfl) hk rfl _
  | @revoke n _ h2 =>
    obtain ⟨k, r, d, b0, b1, b2, hk, hr, hp, _, _, _, _, _, _, rfl⟩ := revoke_ok h2
    have ek : (truth w).contract n = some k := hk
    have e := pledges_erase (y := y) hk
    have hle : (if a = y then forfeit k y w.now else 0) ≤ pledge y k := by
      split
      · subst_vars
        unfold forfeit pledge
        rcases hp with hp | hp
        · simp only [hp, if_true]; omega
        · subst hp; simp only [hr, if_true]; split <;> omega
      · omega
    simp only [emit, List.map_cons, List.map_nil, Balanced, total, putsDown, recovers, forfeits, ek, Option.elim, pledges]
    omega
  | @start n k r x _ hk hs hst =>
    obtain ⟨F, S, e⟩ := hst.rent
    have hn : k.rentee = none := by
      rcases hs with ⟨_, _, h, _⟩ | ⟨_, _, l, hl, _⟩
      · exact h
      · by_contra hne
        rw [hi.q.offers n k hk hne] at hl; simp at hl
    have ek : (truth w).contract n = some k := hk
    have e1 : emit c a x = [.contractStarted n r] := by
      rcases hs with ⟨rfl, rfl, _⟩ | ⟨rfl, _⟩ <;> rfl
    have e2 := pledges_insert (k' := { k with rentee := some r, start := some w.now }) (y := y) hk
    rw [e1]
    simp only [List.map_cons, List.map_nil, Balanced, total, putsDown, recovers, forfeits, ek, Option.elim, pledges, e]
    simp only [pledge, hn, Option.some.injEq, reduceCtorEq, if_false] at e2 ⊢
    omega
  | makeOffer => exact .none (by simp [emit, NoDeposit]) rfl _
  | retractOffer => exact .none (by simp [emit, NoDeposit]) rfl _
  | @changeTerms n k s fee per md ch hk =>
    have e2 := pledges_insert (k' := { k with
          duration := .sub { period := per, maxDur := md.getD c.rentMaxDur, changeable := ch, newTerms := true }
          rentFee := .tokens fee }) (y := y) hk
    simp only [emit, List.map_cons, List.map_nil, Balanced, total, putsDown, recovers, forfeits, pledges]
    simp only [pledge] at e2 ⊢
    omega
  | @acceptTerms n k s fee per md ch hk =>
    have e2 := pledges_insert (k' := { k with duration := .sub { s with newTerms := false } }) (y := y) hk
    simp only [emit, List.map_cons, List.map_nil, Balanced, total, putsDown, recovers, forfeits, pledges]
    simp only [pledge] at e2 ⊢
    omega

/-! ## The hook -/

theorem finish_contracts {F S A n k} (h : RInv c (setQ w F S A)) (hb : BalInv c w.bal)
    (hk : w.rent.contracts.get n = some k) :
    (handleFinished c n w).1.rent.contracts = w.rent.contracts.erase n := by
  obtain ⟨w1, h1⟩ := h.finish_succeeds hb hk
  rw [handleFinished_comm] at h1
  simp only [Prod.mk.injEq] at h1
  obtain ⟨_, _, _, _, _, _, _, _, e⟩ := finished_ok (c := c) (w := w) (w' := (handleFinished c n w).1) (n := n) (by rw [← h1.2])
  rw [e]

theorem loopF_balanced (q : Queue) (w : World) (i : Nat) {S A} (h : RInv c (setQ w q S A)) (hb : BalInv c w.bal)
    (y : AccountId) :
    Balanced c y w (finishLoop c w q i).1 ((finishEmit c .contractEnded w q i).map fun e => (w.now, e)) := by
  induction q generalizing w i with
  | nil => exact .nil rfl
  | cons x q ih =>
    obtain ⟨n, b⟩ := x
    obtain ⟨k, _, _, hk, _⟩ := h.q.inF n b (List.mem_cons_self ..)
    have hk : w.rent.contracts.get n = some k := hk
    have e : Balanced c y w (handleFinished c n w).1 [(w.now, .contractEnded n)] :=
      over_balanced (.inr (.inl rfl)) hk (finish_contracts h hb hk) _
    have e' := finish_here h hb hk
    have ek : (truth w).contract n = some k := hk
    have h1 := (popF (off := fun _ _ => True) h hb).1
    have hb1 := handleFinished_bal w n hb
    simp only [finishLoop, finishEmit]
    split
    · split
      · exact e
      · have i1 := ih _ (i + 1) h1 hb1
        rw [handleFinished_now] at i1
        exact e.append (by rw [e']; simp only [books, see, ek]) i1
    · exact .nil rfl

theorem loopA_balanced (q : Queue) (w : World) (i : Nat) {F S} (h : RInv c (setQ w F S q)) (hb : BalInv c w.bal)
    (y : AccountId) :
    Balanced c y w (finishLoop c w q i).1 ((finishEmit c .contractExpired w q i).map fun e => (w.now, e)) := by
  induction q generalizing w i with
  | nil => exact .nil rfl
  | cons x q ih =>
    obtain ⟨n, b⟩ := x
    obtain ⟨k, hk, _⟩ := h.q.inA n b (List.mem_cons_self ..)
    have hk : w.rent.contracts.get n = some k := hk
    have e : Balanced c y w (handleFinished c n w).1 [(w.now, .contractExpired n)] :=
      over_balanced (.inr (.inr rfl)) hk (finish_contracts h hb hk) _
    have e' := finish_here h hb hk
    have ek : (truth w).contract n = some k := hk
    have h1 := (popA (off := fun _ _ => True) h hb).1
    have hb1 := handleFinished_bal w n hb
    simp only [finishLoop, finishEmit]
    split
    · split
      · exact e
      · have i1 := ih _ (i + 1) h1 hb1
        rw [handleFinished_now] at i1
        exact e.append (by rw [e']; simp only [books, see, ek]) i1
    · exact .nil rfl

theorem sub_balanced {n b q F A} (h : RInv c (setQ w F ((n, b) :: q) A)) (hb : BalInv c w.bal) (y : AccountId) :
    Balanced c y w (subOne c w n q).1 [(w.now, subEvent c w n)] := by
  obtain ⟨k, _, _, hk, _⟩ := h.q.inS n b (List.mem_cons_self ..)
  have hk : w.rent.contracts.get n = some k := hk
  unfold subOne subEvent
  rcases e : handleSub c w n with ⟨w1, _ | b1⟩
  · rw [handleSub_none e]
    exact over_balanced (.inr (.inl rfl)) hk (finish_contracts h hb hk) _
  · obtain ⟨k', r, fee, bal, hk', hr, hf, ht, he, hbl, rfl, rfl⟩ := handleSub_some e
    exact .none (l := [.periodStarted n]) (by simp [NoDeposit]) rfl _

theorem loopS_balanced (fuel : Nat) (w : World) (q : Queue) (i : Nat) {F A} (h : RInv c (setQ w F q A))
    (hb : BalInv c w.bal) (y : AccountId) :
    Balanced c y w (subLoop c w q i fuel).1 ((subEmit c w q i fuel).map fun e => (w.now, e)) := by
  induction fuel generalizing w q i with
  | zero => exact .nil rfl
  | succ f ih =>
    unfold subLoop subEmit
    cases q with
    | nil => exact .nil rfl
    | cons x q =>
      obtain ⟨n, b⟩ := x
      obtain ⟨h1, h2, h3, _⟩ := stepS (off := fun _ _ => True) h hb
      have e := sub_balanced h hb y
      have e' := sub_seen h hb
      dsimp only
      split
      · split
        · exact e
        · have i1 := ih _ _ (i + 1) h1 h2
          rw [h3] at i1
          exact e.append e' i1
      · exact .nil rfl

theorem hook_balanced (h : RInv c w) (hb : BalInv c w.bal) (y : AccountId) :
    Balanced c y w (hook c w) ((hookEmit c w).map fun e => (w.now, e)) := by
  have he := hook_eq (c := c) w
  dsimp only at he
  rw [he]
  have f0 := loopF_seen w.rent.fixedQ w 0 (S := w.rent.subQ) (A := w.rent.availQ) h hb
  have p0 := loopF_balanced w.rent.fixedQ w 0 (S := w.rent.subQ) (A := w.rent.availQ) h hb y
  obtain ⟨f1, f2⟩ := loopF (off := fun _ _ => True) w.rent.fixedQ w 0 (S := w.rent.subQ) (A := w.rent.availQ) h hb
  have fb := hb.pays (finishLoop_pays w.rent.fixedQ w 0)
  have fn := finishLoop_now (c := c) w.rent.fixedQ w 0
  have s0 := loopS_seen (max 1 (c.rentActions - (finishLoop c w w.rent.fixedQ 0).2.2)) _ w.rent.subQ
    (finishLoop c w w.rent.fixedQ 0).2.2 f1 fb
  have p1 := loopS_balanced (max 1 (c.rentActions - (finishLoop c w w.rent.fixedQ 0).2.2)) _ w.rent.subQ
    (finishLoop c w w.rent.fixedQ 0).2.2 f1 fb y
  obtain ⟨s1, s2, s3, s4⟩ := loopS (off := fun _ _ => True)
    (max 1 (c.rentActions - (finishLoop c w w.rent.fixedQ 0).2.2)) _ w.rent.subQ
    (finishLoop c w w.rent.fixedQ 0).2.2 f1 fb
  have p2 := loopA_balanced w.rent.availQ _
    (subLoop c (finishLoop c w w.rent.fixedQ 0).1 w.rent.subQ (finishLoop c w w.rent.fixedQ 0).2.2
      (max 1 (c.rentActions - (finishLoop c w w.rent.fixedQ 0).2.2))).2.2 s1 s2 y
  rw [s3, fn] at p2
  rw [fn] at s0 p1
  have := (p0.append (by rw [books_map]; exact f0) p1).append
    (by rw [books_append, books_map, books_map, ← f0]; exact s0) p2
  simp only [hookEmit, List.map_append]
  exact this

theorem finishEmit_not {e : NFTId → Event} {z : Event} (he : ∀ n, e n ≠ z) (q : Queue) (w : World) (i : Nat) :
    ∀ x ∈ finishEmit c e w q i, x ≠ z := by
  induction q generalizing w i with
  | nil => simp [finishEmit]
  | cons y q ih =>
    obtain ⟨n, b⟩ := y
    simp only [finishEmit]
    split
    · intro x hx
      rcases List.mem_cons.1 hx with rfl | hx
      · exact he n
      · split at hx
        · simp at hx
        · exact ih _ _ x hx
    · simp

theorem subEmit_not {n a} (fuel : Nat) (q : Queue) (w : World) (i : Nat) :
    ∀ x ∈ subEmit c w q i fuel, x ≠ .contractRevoked n a := by
  induction fuel generalizing w q i with
  | zero => simp [subEmit]
  | succ f ih =>
    cases q with
    | nil => simp [subEmit]
    | cons y q =>
      obtain ⟨n, b⟩ := y
      simp only [subEmit]
      split
      · intro x hx
        rcases List.mem_cons.1 hx with rfl | hx
        · unfold subEvent; split <;> simp
        · split at hx
          · simp at hx
          · exact ih _ _ _ x hx
      · simp

end RentM

/-! ## Other operations -/

theorem AucM.hook_nodeposit (w : World) (q : Queue) (k : Nat) : ∀ e ∈ hookEmit c w q k, NoDeposit e = true := by
  induction q generalizing w k with
  | nil => simp [hookEmit]
  | cons x q ih =>
    obtain ⟨n, b⟩ := x
    simp only [hookEmit]
    split
    · intro e he
      rcases List.mem_append.1 he with he | he
      · have : (settleEmit c w n).all NoDeposit = true := by
          unfold settleEmit
          split
          · rfl
          · split
            · rfl
            · split
              · split <;> rfl
              · rfl
        exact List.all_eq_true.1 this e he
      · split at he
        · split at he
          · simp at he
          · exact ih _ _ e he
        · exact ih _ _ e he
    · simp

theorem TrM.hook_nodeposit (w : World) (q : Queue) (k : Nat) : ∀ e ∈ hookEmit c w q k, NoDeposit e = true := by
  induction q generalizing w k with
  | nil => simp [hookEmit]
  | cons x q ih =>
    obtain ⟨n, b⟩ := x
    simp only [hookEmit]
    split
    · intro e he
      rcases List.mem_cons.1 he with rfl | he
      · unfold oneEvent; split <;> rfl
      · revert he
        generalize (if (hookOne w n).2 = true then k + 1 else k) = k'
        split
        · simp
        · exact ih _ _ e
    · simp

theorem signedEmit_nodeposit (x : Call) (hx : ∀ y, x ≠ .rent y) : ∀ e ∈ signedEmit c w a x, NoDeposit e = true := by
  refine List.all_eq_true.1 ?_
  cases x with
  | nft x =>
    cases x <;> simp only [signedEmit, NftM.emit] <;> first | rfl | (split <;> rfl)
  | mkt x =>
    cases x <;> simp only [signedEmit, MktM.emit] <;> first | rfl | (split <;> rfl)
  | auc x =>
    cases x <;> simp only [signedEmit, AucM.emit, AucM.soldEvent, AucM.droppedEvent] <;>
      first | rfl | (split <;> rfl) |
        (split
         · rfl
         · split <;> rfl)
  | rent x => exact absurd rfl (hx x)
  | tr x =>
    cases x <;> simp only [signedEmit, TrM.emit] <;>
      first | rfl |
        (split
         · split <;> rfl
         · rfl)
  | _ => rfl

theorem rootEmit_nodeposit (x : RootCall) : ∀ e ∈ rootEmit x, NoDeposit e = true := by
  cases x <;> simp [rootEmit, NoDeposit]

theorem callEmit_nodeposit (x : Call) : ∀ (o : Origin) (w : World), (∀ a, o ≠ .signed a) →
    ∀ e ∈ callEmit c w x o, NoDeposit e = true := by
  induction x with
  | mandate y ih =>
    intro o w ho
    cases o with
    | signed a => exact absurd rfl (ho a)
    | root =>
      simp only [callEmit]
      split
      · exact ih .root w (by simp)
      · simp
    | ext =>
      simp only [callEmit]
      split
      · exact ih .root w (by simp)
      · simp
  | root y =>
    intro o w ho
    cases o with
    | signed a => exact absurd rfl (ho a)
    | root => exact rootEmit_nodeposit y
    | ext => simp [callEmit]
  | _ =>
    intro o w ho
    cases o with
    | signed a => exact absurd rfl (ho a)
    | root => simp [callEmit]
    | ext => simp [callEmit]

theorem emit_nodeposit (o : Op) (h1 : o ≠ .hookRent) (h2 : ∀ a x, o ≠ .call (.signed a) (.rent x)) :
    ∀ e ∈ emit c w o, NoDeposit e = true := by
  cases o <;> simp only [emit]
  case call o x =>
    split
    · cases o with
      | signed a =>
        by_cases hx : ∃ y, x = .rent y
        · obtain ⟨y, rfl⟩ := hx; exact absurd rfl (h2 a y)
        · have e : callEmit c w x (.signed a) = signedEmit c w a x := by cases x <;> rfl
          rw [e]
          exact signedEmit_nodeposit x fun y e => hx ⟨y, e⟩
      | root => exact callEmit_nodeposit x _ w (by simp)
      | ext => exact callEmit_nodeposit x _ w (by simp)
    · simp
  case hookAuc => exact AucM.hook_nodeposit _ _ _
  case hookRent => exact absurd rfl h1
  case hookTr => exact TrM.hook_nodeposit _ _ _
  all_goals simp

/-- one operation -/
theorem step_balanced (hc : c.Ok) (hr : Reach c w) (o : Op) (ho : o.Ok c) (y : AccountId) :
    Balanced c y w (step c w o) ((emit c w o).map fun e => (w.now, e)) := by
  by_cases h1 : o = .hookRent
  · subst h1; exact RentM.hook_balanced (hr.inv hc).rent hr.micro.balInv y
  by_cases h2 : ∃ a x, o = .call (.signed a) (.rent x)
  · obtain ⟨a, x, rfl⟩ := h2
    simp only [step, emit]
    cases h : dispatch c (.rent x) (.signed a) w with
    | error e => exact .nil rfl
    | ok w' => exact RentM.balanced (hr.inv hc).rent h y
  · refine .none (emit_nodeposit o h1 fun a x e => h2 ⟨a, x, e⟩) ?_ _
    rcases step_rent_case hc hr o ho with ⟨a, x, rfl, _⟩ | ⟨rfl, _⟩ | e
    · exact absurd ⟨a, x, rfl⟩ h2
    · exact absurd rfl h1
    · rw [e]

/-- only a party of a running contract revokes it -/
theorem revoked_parties (o : Op) {n : NFTId} (he : .contractRevoked n a ∈ emit c w o) :
    ∃ k r, w.rent.contracts.get n = some k ∧ k.rentee = some r ∧ (k.renter = a ∨ r = a) := by
  by_cases h1 : o = .hookRent
  · subst h1
    have : ∀ x ∈ RentM.hookEmit c w, x ≠ .contractRevoked n a := by
      intro x hx
      simp only [RentM.hookEmit, List.mem_append] at hx
      rcases hx with (hx | hx) | hx
      · exact RentM.finishEmit_not (by simp) _ _ _ x hx
      · exact RentM.subEmit_not _ _ _ _ x hx
      · exact RentM.finishEmit_not (by simp) _ _ _ x hx
    exact absurd rfl (this _ he)
  by_cases h2 : ∃ b x, o = .call (.signed b) (.rent x)
  · obtain ⟨b, x, rfl⟩ := h2
    simp only [emit] at he
    cases h : dispatch c (.rent x) (.signed b) w with
    | error e => simp [h] at he
    | ok w' =>
      simp only [h, callEmit, signedEmit] at he
      cases x <;> simp [RentM.emit] at he
      obtain ⟨rfl, rfl⟩ := he
      obtain ⟨k, r, _, _, _, _, hk, hr, hp, _⟩ := RentM.revoke_ok (c := c) h
      exact ⟨k, r, hk, hr, hp⟩
  · simpa [NoDeposit] using emit_nodeposit o h1 (fun a x e => h2 ⟨a, x, e⟩) _ he
