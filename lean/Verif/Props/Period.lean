import Verif.Proofs.Period
import Verif.Props.Rent
/-
Who has paid rent for a period is not charged again and does not lose the NFT before the period is over.
-/
open Spec

variable {c : Cfg} {w : World}

/-! ## C91 -/

theorem Spec.run_paced (hc : c.Ok) (hr : Reach c w) (l : List Op) (hl : ∀ o ∈ l, o.Ok c) {d}
    (hd : RentM.Planned w.rent.fixedQ w.rent.subQ d) :
    AllInTime c (truth w) d (history c w l) ∧
    RentM.Planned (run c w l).rent.fixedQ (run c w l).rent.subQ (paidUntil c (truth w) d (history c w l)) := by
  induction l generalizing w d with
  | nil => exact ⟨trivial, hd⟩
  | cons o t ih =>
    have ho := hl o (by simp)
    obtain ⟨h1, h2⟩ := step_paced hc hr o ho d hd
    obtain ⟨i1, i2⟩ := ih (hr.step o ho) (fun y hy => hl y (by simp [hy])) h2
    simp only [history, run]
    rw [step_seen hc hr o ho] at i1 i2
    refine ⟨.append h1 ?_, ?_⟩
    · rw [books_map]; exact i1
    · rw [paidUntil_append, books_map]; exact i2

theorem Genesis.planned (h : Genesis c w) (d) : RentM.Planned w.rent.fixedQ w.rent.subQ d := by
  intro n b hx
  simp [h.rent] at hx

/-- C91: in every history from genesis, a new period of a subscription starts, and a rental ends without being revoked, only
at a block at which the time the rentee has paid for is over. -/
theorem C91 (hc : c.Ok) (hw : Genesis c w) (l : List Op) (hl : ∀ o ∈ l, o.Ok c) {h1 h2 : List (Block × Event)}
    {b : Block} {e : Event} {n : NFTId} (h : history c w l = h1 ++ (b, e) :: h2)
    (he : e = .periodStarted n ∨ e = .contractEnded n) : paidUntil c (truth w) (fun _ => 0) h1 n ≤ b := by
  have := (run_paced hc (.init hw) l hl (hw.planned fun _ => 0)).1
  rw [h] at this
  exact this.split n he

/-- C91: what events tell about payments is right: the hook's next turn of a running contract is when the time the rentee has
paid for is over. -/
theorem C91_told (hc : c.Ok) (hw : Genesis c w) (l : List Op) (hl : ∀ o ∈ l, o.Ok c) {n : NFTId} {k : Contract}
    (hk : (run c w l).rent.contracts.get n = some k) (hr : k.rentee ≠ none) :
    entries (run c w l) n = [(scheduleOf k, paidUntil c (truth w) (fun _ => 0) (history c w l) n)] := by
  have h := (run_paced hc (.init hw) l hl (hw.planned fun _ => 0)).2
  obtain ⟨b, hb, _⟩ := (C30 hc ((Reach.init hw).run l hl)).2.1 n k hk
  rw [hb]
  congr 2
  have hm : (scheduleOf k, b) ∈ entries (run c w l) n := by rw [hb]; simp
  refine (h n b ?_).symm
  unfold entries scheduleOf at hm
  cases e : k.rentee with
  | none => exact absurd e hr
  | some r =>
    cases e' : k.duration <;> simp [e, e'] at hm <;> simp [hm]

/-- C91: two payments of the same rentee's rent lie at least one term apart: if the rent of an NFT was paid at block `b1` and
the next payment is for a further period, it is not before `b1` plus the term of the contract at `b1`. -/
theorem C91_apart (hc : c.Ok) (hw : Genesis c w) (l : List Op) (hl : ∀ o ∈ l, o.Ok c)
    {h1 h2 h3 : List (Block × Event)} {b1 b2 : Block} {e : Event} {n : NFTId}
    (h : history c w l = h1 ++ (b1, e) :: h2 ++ (b2, .periodStarted n) :: h3) (he : rentPaid e = some n)
    (hno : ∀ x ∈ h2, rentPaid x.2 ≠ some n) :
    b1 + ((books c.rentPot c.grace (truth w) h1).contract n).elim 0 term ≤ b2 := by
  have key : ∀ (h2 : List (Block × Event)) (v : View) (d : NFTId → Block), (∀ x ∈ h2, rentPaid x.2 ≠ some n) →
      paidUntil c v d h2 n = d n := by
    intro h2
    induction h2 with
    | nil => intros; rfl
    | cons x t ih =>
      intro v d hx
      obtain ⟨b, e⟩ := x
      have h0 := hx (b, e) (by simp)
      simp only [paidUntil]
      rw [ih _ _ fun y hy => hx y (by simp [hy])]
      unfold paidNext
      cases e' : rentPaid e with
      | none => rfl
      | some m =>
        have : n ≠ m := by rintro rfl; exact h0 e'
        simp [this]
  have := C91 hc hw l hl h (.inl rfl)
  rw [paidUntil_append] at this
  simp only [paidUntil] at this
  rw [key h2 _ _ hno] at this
  simpa [paidNext, he] using this

-- a subscription with a period of 5 that is renewed twice, by the hook at blocks 5 and 10
abbrev renewed : List Op :=
  subscribed ++ Demo.ticks 5 ++ [.hookRent] ++ Demo.ticks 2 ++ [.hookRent] ++ Demo.ticks 3 ++ [.hookRent]

example : Genesis Demo.cfg Demo.w0 ∧ (∀ o ∈ renewed, o.Ok Demo.cfg) ∧
    (history Demo.cfg Demo.w0 renewed).map (fun x => (x.1, rentPaid x.2)) =
      [(0, none), (0, none), (0, some 0), (5, some 0), (10, some 0)] ∧
    (entries (run Demo.cfg Demo.w0 renewed) 0) = [(.subscription, 15)] ∧
    paidUntil Demo.cfg (truth Demo.w0) (fun _ => 0) (history Demo.cfg Demo.w0 renewed) 0 = 15 :=
  ⟨Demo.genesis, by decide, by decide, by decide, by decide⟩

example := C91 Demo.cfg_ok Demo.genesis renewed (by decide) (h1 := (history Demo.cfg Demo.w0 renewed).take 3)
  (h2 := (history Demo.cfg Demo.w0 renewed).drop 4) (b := 5) (e := .periodStarted 0) (n := 0) rfl (Or.inl rfl)

example := C91_told Demo.cfg_ok Demo.genesis renewed (by decide) (n := 0) (k := _) rfl (by decide)

example := C91_apart Demo.cfg_ok Demo.genesis renewed (by decide) (h1 := (history Demo.cfg Demo.w0 renewed).take 3)
  (h2 := []) (h3 := []) (b1 := 5) (b2 := 10) (e := .periodStarted 0) (n := 0) rfl rfl (by simp)
