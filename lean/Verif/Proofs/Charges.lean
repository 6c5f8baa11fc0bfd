import Verif.Proofs.Period
/-
A subscription is renewed only before its maximal duration is over and under terms the rentee knows.
-/
open Spec

variable {c : Cfg} {w w' : World} {a : AccountId}

/-- if an event renews a subscription, the books show that it runs, has its agreed terms and is not yet over -/
def Spec.Timely (v : View) (b : Block) (e : Event) : Prop :=
  ∀ n, e = .periodStarted n → ∃ k s u, v.contract n = some k ∧ k.start = some s ∧ k.duration = .sub u ∧
    u.newTerms = false ∧ b < s + u.maxDur ∧ 0 < u.period

/-- all renewals of a series of events are agreed -/
def Spec.AllTimely (c : Cfg) (v : View) : List (Block × Event) → Prop
  | [] => True
  | (b, e) :: l => Timely v b e ∧ AllTimely c (see c.rentPot c.grace b v e) l

theorem Spec.AllTimely.append {v : View} {l l' : List (Block × Event)} (h : AllTimely c v l)
    (h' : AllTimely c (books c.rentPot c.grace v l) l') : AllTimely c v (l ++ l') := by
  induction l generalizing v with
  | nil => exact h'
  | cons x l ih => obtain ⟨b, e⟩ := x; exact ⟨h.1, ih h.2 h'⟩

theorem Spec.AllTimely.drop {v : View} {l l' : List (Block × Event)} (h : AllTimely c v (l ++ l')) :
    AllTimely c (books c.rentPot c.grace v l) l' := by
  induction l generalizing v with
  | nil => exact h
  | cons x l ih => obtain ⟨b, e⟩ := x; exact ih h.2

theorem Spec.AllTimely.none {v : View} {now : Block} {l : List Event} (h : ∀ e ∈ l, ∀ n, e ≠ .periodStarted n) :
    AllTimely c v (l.map fun e => (now, e)) := by
  induction l generalizing v with
  | nil => exact trivial
  | cons e l ih =>
    exact ⟨fun n hn => absurd hn (h e (by simp) n), ih fun x hx => h x (by simp [hx])⟩

theorem Spec.Plain.other {e : Event} (h : Plain e = true) (n : NFTId) : e ≠ .periodStarted n := by
  rintro rfl; simp [Plain] at h

namespace RentM

theorem finishEmit_ends {e : NFTId → Event} (he : ∀ m n, e m ≠ .periodStarted n) (q : Queue) (w : World) (i : Nat) :
    ∀ x ∈ finishEmit c e w q i, ∀ n, x ≠ .periodStarted n := by
  induction q generalizing w i with
  | nil => simp [finishEmit]
  | cons y q ih =>
    obtain ⟨n, b⟩ := y
    simp only [finishEmit]
    split
    · intro x hx
      rcases List.mem_cons.1 hx with rfl | hx
      · exact he n
      · split at hx
        · simp at hx
        · exact ih _ _ x hx
    · simp

theorem sub_timely {n b t F A} (h : RInv c (setQ w F ((n, b) :: t) A)) :
    Timely (truth w) w.now (subEvent c w n) := by
  intro m hm
  obtain ⟨k, s, u, hk, hr, hs, hu, _⟩ := h.q.inS n b (List.mem_cons_self ..)
  have hp := (h.q.con n k hk).period.1
  have hk : w.rent.contracts.get n = some k := hk
  unfold subEvent at hm
  rcases e : handleSub c w n with ⟨w1, _ | b1⟩
  · simp [e] at hm
  · rw [e] at hm
    cases hm
    obtain ⟨k', r, fee, bal, hk', _, _, ht, he, _⟩ := handleSub_some e
    rw [hk] at hk'; cases hk'
    refine ⟨k, s, u, hk, hs, hu, by simpa [termsChanged, hu] using ht, ?_, by simpa [period, hu] using hp⟩
    have hse := ((h.q.con n k hk).started s hs).2
    have hse : s ≤ w.now := hse
    simp only [hasEnded, hs, hu, full, Bool.and_eq_false_iff, decide_eq_false_iff_not] at he
    omega

theorem loopS_timely (fuel : Nat) (w : World) (q : Queue) (i : Nat) {F A} (h : RInv c (setQ w F q A))
    (hb : BalInv c w.bal) :
    AllTimely c (truth w) ((subEmit c w q i fuel).map fun e => (w.now, e)) := by
  induction fuel generalizing w q i with
  | zero => exact trivial
  | succ f ih =>
    unfold subEmit
    cases q with
    | nil => exact trivial
    | cons x q =>
      obtain ⟨n, b⟩ := x
      obtain ⟨h1, h2, h3, _⟩ := stepS (off := fun _ _ => True) h hb
      have e' := sub_seen h hb
      dsimp only
      split
      · split
        · exact ⟨sub_timely h, trivial⟩
        · have i1 := ih _ _ (i + 1) h1 h2
          rw [h3, e'] at i1
          exact ⟨sub_timely h, i1⟩
      · exact trivial

theorem hook_timely (h : RInv c w) (hb : BalInv c w.bal) :
    AllTimely c (truth w) ((hookEmit c w).map fun e => (w.now, e)) := by
  have f0 := loopF_seen w.rent.fixedQ w 0 (S := w.rent.subQ) (A := w.rent.availQ) h hb
  obtain ⟨f1, f2⟩ := loopF (off := fun _ _ => True) w.rent.fixedQ w 0 (S := w.rent.subQ) (A := w.rent.availQ) h hb
  have fb := hb.pays (finishLoop_pays w.rent.fixedQ w 0)
  have fn := finishLoop_now (c := c) w.rent.fixedQ w 0
  have p1 := loopS_timely (max 1 (c.rentActions - (finishLoop c w w.rent.fixedQ 0).2.2)) _ w.rent.subQ
    (finishLoop c w w.rent.fixedQ 0).2.2 f1 fb
  rw [fn, f0] at p1
  simp only [hookEmit, List.map_append]
  refine .append (.append (.none (finishEmit_ends (by simp) _ _ _)) ?_) (.none (finishEmit_ends (by simp) _ _ _))
  rw [books_map]
  exact p1

end RentM

/-- one operation -/
theorem step_timely (hc : c.Ok) (hr : Reach c w) (o : Op) : AllTimely c (truth w) ((emit c w o).map fun e => (w.now, e)) := by
  by_cases h1 : o = .hookRent
  · subst h1; exact RentM.hook_timely (hr.inv hc).rent hr.micro.balInv
  by_cases h2 : ∃ a x, o = .call (.signed a) (.rent x)
  · obtain ⟨a, x, rfl⟩ := h2
    simp only [emit]
    split
    · refine .none ?_
      show ∀ e ∈ RentM.emit c a x, ∀ n, e ≠ .periodStarted n
      cases x <;> simp [RentM.emit]
    · exact trivial
  · exact .none fun e he => Plain.other (emit_plain o h1 (fun a x e => h2 ⟨a, x, e⟩) e he)

theorem run_timely (hc : c.Ok) (hr : Reach c w) (l : List Op) (hl : ∀ o ∈ l, o.Ok c) :
    AllTimely c (truth w) (history c w l) := by
  induction l generalizing w with
  | nil => exact trivial
  | cons o t ih =>
    have ho := hl o (by simp)
    have i1 := ih (hr.step o ho) (fun y hy => hl y (by simp [hy]))
    simp only [history]
    rw [step_seen hc hr o ho] at i1
    refine .append (step_timely hc hr o) ?_
    rw [books_map]; exact i1

/-- how often rent can still be due: the running subscription `k` is paid until block `d` -/
def Spec.due (k : Option Contract) (d : Block) : Nat :=
  match k with
  | none => 0
  | some k =>
    match k.start, k.duration with
    | some s, .sub u => if u.newTerms = true then 0 else (s + u.maxDur - d + u.period - 1) / u.period
    | _, _ => 0

theorem Spec.due_less {s M d b P : Nat} (hP : 0 < P) (hd : d ≤ b) (hb : b < s + M) :
    (s + M - (b + P) + P - 1) / P + 1 ≤ (s + M - d + P - 1) / P := by
  by_cases h : b + P ≤ s + M
  · rw [← Nat.add_div_right _ hP]
    apply Nat.div_le_div_right
    omega
  · have e : s + M - (b + P) + P - 1 = P - 1 := by omega
    rw [e, Nat.div_eq_of_lt (by omega)]
    exact (Nat.le_div_iff_mul_le hP).2 (by omega)

/-- one event -/
theorem Spec.due_event {v : View} {d : NFTId → Block} {b : Block} {e : Event} {n : NFTId} (ha : Timely v b e)
    (ht : InTime d b e) (h1 : e ≠ .termsAccepted n) (h2 : ∀ r, e ≠ .contractStarted n r) :
    due ((see c.rentPot c.grace b v e).contract n) (paidNext b v d e n) + (if rentPaid e = some n then 1 else 0) ≤
      due (v.contract n) (d n) := by
  by_cases hp : rentPaid e = some n
  · obtain rfl : e = .periodStarted n := by
      cases e <;> simp only [rentPaid, Option.some.injEq, reduceCtorEq] at hp
      · subst hp; exact absurd rfl (h2 _)
      · subst hp; rfl
    obtain ⟨k, s, u, hk, hs, hu, hn, hb, hP⟩ := ha n rfl
    have hd := ht n (.inl rfl)
    simp only [see, paidNext, rentPaid, hk, Option.elim, if_true, due, hs, hu, hn, Bool.false_eq_true, if_false, term]
    exact due_less hP hd hb
  · have e1 : paidNext b v d e n = d n := by
      unfold paidNext
      cases hm : rentPaid e with
      | none => rfl
      | some m =>
        have : n ≠ m := by rintro rfl; exact hp hm
        simp [this]
    rw [if_neg hp, e1, Nat.add_zero]
    have g : ∀ (v : View) (x : Option NFTId) (y : AccountId), (v.give x y).contract = v.contract := by
      intro v x y; cases x <;> rfl
    have gs : ∀ (v : View) (m : NFTId) (k : Contract), (settled v m k).contract = v.contract := by
      intro v m k; unfold settled; split <;> simp only [g]
    have gone : ∀ m, due (View.put v.contract m none n) (d n) ≤ due (v.contract n) (d n) := by
      intro m
      simp only [View.put, View.at_]
      split
      · exact Nat.zero_le _
      · exact Nat.le_refl _
    cases e
    case contractCreated m a dur acc r f x y =>
      simp only [see, View.put, View.at_]
      split
      · exact Nat.zero_le _
      · exact Nat.le_refl _
    case contractStarted m r =>
      have hm : n ≠ m := by rintro rfl; exact h2 r rfl
      simp only [see]
      split
      · exact Nat.le_refl _
      · simp [View.put, View.at_, hm]
    case contractRevoked m a =>
      simp only [see]
      split
      · exact Nat.le_refl _
      · simp only [noContract, View.flag, g]; exact gone m
    case contractCanceled m =>
      simp only [see]
      split
      · exact Nat.le_refl _
      · simp only [noContract, View.flag, gs]; exact gone m
    case contractEnded m =>
      simp only [see]
      split
      · exact Nat.le_refl _
      · simp only [noContract, View.flag, gs]; exact gone m
    case contractExpired m =>
      simp only [see]
      split
      · exact Nat.le_refl _
      · simp only [noContract, View.flag, gs]; exact gone m
    case termsChanged m p mx ch f =>
      simp only [see, View.on, View.at_]
      split
      · cases v.contract n with
        | none => exact Nat.le_refl _
        | some k => cases hs : k.start <;> simp [due, hs]
      · exact Nat.le_refl _
    case termsAccepted m =>
      have hm : n ≠ m := by rintro rfl; exact h1 rfl
      simp [see, View.on, View.at_, hm]
    case auctionCompleted m o p x =>
      cases o <;> exact Nat.le_refl _
    case transmitted m =>
      simp only [see]
      split <;> exact Nat.le_refl _
    all_goals exact Nat.le_refl _

/-- a series of events -/
theorem Spec.due_events {v : View} {d : NFTId → Block} {l : List (Block × Event)} {n : NFTId} (ha : AllTimely c v l)
    (ht : AllInTime c v d l) (h : ∀ x ∈ l, x.2 ≠ .termsAccepted n ∧ ∀ r, x.2 ≠ .contractStarted n r) :
    l.countP (fun x => rentPaid x.2 = some n) ≤ due (v.contract n) (d n) := by
  induction l generalizing v d with
  | nil => simp
  | cons x l ih =>
    obtain ⟨b, e⟩ := x
    have h0 := h (b, e) (by simp)
    have h1 := due_event (c := c) ha.1 ht.1 h0.1 h0.2
    have h2 := ih ha.2 ht.2 fun y hy => h y (by simp [hy])
    rw [List.countP_cons]
    simp only [decide_eq_true_eq]
    omega
