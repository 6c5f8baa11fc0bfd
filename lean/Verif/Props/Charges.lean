import Verif.Proofs.Charges
import Verif.Props.Period
/-
A subscription is paid for at most as often as agreed.
-/
open Spec

variable {c : Cfg} {w : World}

/-! ## C105 -/

theorem Spec.AllInTime.drop {v : View} {d : NFTId → Block} {l l' : List (Block × Event)}
    (h : AllInTime c v d (l ++ l')) : AllInTime c (books c.rentPot c.grace v l) (paidUntil c v d l) l' := by
  induction l generalizing v d with
  | nil => exact h
  | cons x l ih => obtain ⟨b, e⟩ := x; exact ih h.2

theorem Spec.AllInTime.take {v : View} {d : NFTId → Block} {l l' : List (Block × Event)}
    (h : AllInTime c v d (l ++ l')) : AllInTime c v d l := by
  induction l generalizing v d with
  | nil => exact trivial
  | cons x l ih => obtain ⟨b, e⟩ := x; exact ⟨h.1, ih h.2⟩

theorem Spec.AllTimely.take {v : View} {l l' : List (Block × Event)} (h : AllTimely c v (l ++ l')) :
    AllTimely c v l := by
  induction l generalizing v with
  | nil => exact trivial
  | cons x l ih => obtain ⟨b, e⟩ := x; exact ⟨h.1, ih h.2⟩

theorem Spec.run_due (hc : c.Ok) (hw : Genesis c w) (l : List Op) (hl : ∀ o ∈ l, o.Ok c)
    {h1 h2 h3 : List (Block × Event)} {n : NFTId} (h : history c w l = h1 ++ h2 ++ h3)
    (hno : ∀ x ∈ h2, x.2 ≠ .termsAccepted n ∧ ∀ r, x.2 ≠ .contractStarted n r) :
    h2.countP (fun x => rentPaid x.2 = some n) ≤
      due ((books c.rentPot c.grace (truth w) h1).contract n) (paidUntil c (truth w) (fun _ => 0) h1 n) := by
  have a := (run_paced hc (.init hw) l hl (hw.planned fun _ => 0)).1
  have b := run_timely hc (.init hw) l hl
  rw [h] at a b
  exact due_events b.take.drop a.take.drop hno

/-- C105: take any stretch `h2` of a history that begins while a subscription runs and in which its rentee accepts no new
terms and nobody rents the NFT anew.  If rent is paid `i` times in it, then the last of these payments is for a period that
begins before the maximal duration is over: until it, the `i - 1` earlier periods fit in after what was already paid. -/
theorem C105 (hc : c.Ok) (hw : Genesis c w) (l : List Op) (hl : ∀ o ∈ l, o.Ok c)
    {h1 h2 h3 : List (Block × Event)} {n : NFTId} {k : Contract} {s : Block} {u : Subscription}
    (h : history c w l = h1 ++ h2 ++ h3)
    (hk : (books c.rentPot c.grace (truth w) h1).contract n = some k) (hs : k.start = some s) (hu : k.duration = .sub u)
    (hno : ∀ x ∈ h2, x.2 ≠ .termsAccepted n ∧ ∀ r, x.2 ≠ .contractStarted n r)
    {i : Nat} (hi : h2.countP (fun x => rentPaid x.2 = some n) = i + 1) :
    paidUntil c (truth w) (fun _ => 0) h1 n + i * u.period < s + u.maxDur ∧ u.newTerms = false := by
  have key := run_due hc hw l hl h hno
  rw [hk, hi] at key
  simp only [due, hs, hu] at key
  split at key
  · omega
  · rename_i hn
    have hP : 0 < u.period := by
      by_contra h0
      obtain h0 : u.period = 0 := by omega
      rw [h0] at key
      simp at key
    have := (Nat.le_div_iff_mul_le hP).1 key
    rw [Nat.add_mul] at this
    exact ⟨by omega, by simpa using hn⟩

/-- C105: from the moment somebody rents a subscription with period `P` and maximal duration `M`, and as long as they accept
no new terms, they pay at most `(M - 1) / P` times after the first payment, so `⌈M / P⌉` times in all. -/
theorem C105_start (hc : c.Ok) (hw : Genesis c w) (l : List Op) (hl : ∀ o ∈ l, o.Ok c)
    {h1 h2 h3 : List (Block × Event)} {b : Block} {n : NFTId} {r : AccountId} {k : Contract} {u : Subscription}
    (h : history c w l = h1 ++ (b, .contractStarted n r) :: h2 ++ h3)
    (hk : (books c.rentPot c.grace (truth w) h1).contract n = some k) (hu : k.duration = .sub u)
    (hno : ∀ x ∈ h2, x.2 ≠ .termsAccepted n ∧ ∀ r, x.2 ≠ .contractStarted n r) :
    h2.countP (fun x => rentPaid x.2 = some n) ≤ (u.maxDur - 1) / u.period := by
  have e : history c w l = (h1 ++ [(b, .contractStarted n r)]) ++ h2 ++ h3 := by simp [h]
  have key := run_due hc hw l hl e hno
  rw [books_append, paidUntil_append] at key
  simp only [books, see, hk, paidUntil, paidNext, rentPaid, View.put, View.at_, if_true, due, hu, Option.elim,
    term] at key
  split at key
  · exact Nat.le_trans key (Nat.zero_le _)
  · refine Nat.le_trans key ?_
    by_cases hP : u.period = 0
    · simp [hP]
    by_cases hm : u.period ≤ u.maxDur
    · exact Nat.div_le_div_right (by omega)
    · have e : b + u.maxDur - (b + u.period) + u.period - 1 = u.period - 1 := by omega
      rw [e, Nat.div_eq_of_lt (by omega)]
      exact Nat.zero_le _

/-- C105: a rental of fixed duration is paid for once. -/
theorem C105_once (hc : c.Ok) (hw : Genesis c w) (l : List Op) (hl : ∀ o ∈ l, o.Ok c)
    {h1 h2 h3 : List (Block × Event)} {b : Block} {n : NFTId} {r : AccountId} {k : Contract} {dur : Block}
    (h : history c w l = h1 ++ (b, .contractStarted n r) :: h2 ++ h3)
    (hk : (books c.rentPot c.grace (truth w) h1).contract n = some k) (hu : k.duration = .fixed dur)
    (hno : ∀ x ∈ h2, x.2 ≠ .termsAccepted n ∧ ∀ r, x.2 ≠ .contractStarted n r) :
    ∀ x ∈ h2, rentPaid x.2 ≠ some n := by
  have e : history c w l = (h1 ++ [(b, .contractStarted n r)]) ++ h2 ++ h3 := by simp [h]
  have key := run_due hc hw l hl e hno
  rw [books_append] at key
  simp only [books, see, hk, View.put, View.at_, if_true, due, hu] at key
  have := List.countP_eq_zero.1 (Nat.le_zero.1 key)
  simpa using this


-- a subscription with period 5 and maximal duration 12: the hook runs in 20 blocks and charges twice more, as `(12 - 1) / 5`
-- allows, at blocks 5 and 10; then the contract is over
abbrev twelve : List Op :=
  [Demo.mint1, Demo.by_ 1 (.rent (.create 0 (.sub 5 (some 12) true) (.auto none) true (.tokens 100)
    (.fixed 200) (.fixed 300))), Demo.by_ 2 (.rent (.rent 0 0))] ++ rentBlocks 20

set_option maxRecDepth 100000 in
example : Genesis Demo.cfg Demo.w0 ∧ (∀ o ∈ twelve, o.Ok Demo.cfg) ∧
    (history Demo.cfg Demo.w0 twelve).map (fun x => (x.1, rentPaid x.2)) =
      [(0, none), (0, none), (0, some 0), (5, some 0), (10, some 0), (15, none)] ∧
    (history Demo.cfg Demo.w0 twelve).take 3 = history Demo.cfg Demo.w0 (twelve.take 3) ∧
    ((books Demo.cfg.rentPot Demo.cfg.grace (truth Demo.w0) ((history Demo.cfg Demo.w0 twelve).take 2)).contract 0).map
      (·.duration) = some (.sub { period := 5, maxDur := 12, changeable := true, newTerms := false }) ∧
    ((history Demo.cfg Demo.w0 twelve).drop 3).countP (fun x => rentPaid x.2 = some 0) = (12 - 1) / 5 ∧
    paidUntil Demo.cfg (truth Demo.w0) (fun _ => 0) ((history Demo.cfg Demo.w0 twelve).take 3) 0 + 1 * 5 < 0 + 12 :=
  ⟨Demo.genesis, by decide, by decide, rfl, rfl, by decide, by decide⟩

/-- the terms of the subscription in `twelve` -/
abbrev twelveTerms : Subscription := { period := 5, maxDur := 12, changeable := true, newTerms := false }

/-- the contract in `twelve` -/
abbrev twelveContract (s : Option Block) (r : Option AccountId) : Contract :=
  ⟨s, 1, r, .sub twelveTerms, .auto none, true, .tokens 100, .fixed 200, .fixed 300, 0⟩

theorem twelve_later : ∀ x ∈ (history Demo.cfg Demo.w0 twelve).drop 3,
    x.2 ≠ .termsAccepted 0 ∧ ∀ r, x.2 ≠ .contractStarted 0 r := by
  intro x hx
  rw [show (history Demo.cfg Demo.w0 twelve).drop 3 =
    [(5, .periodStarted 0), (10, .periodStarted 0), (15, .contractEnded 0)] from rfl] at hx
  simp only [List.mem_cons, List.not_mem_nil, or_false] at hx
  rcases hx with rfl | rfl | rfl <;> simp

-- two further charges after the start
example := C105 (k := twelveContract (some 0) (some 2)) (u := twelveTerms) (s := 0)
  (h1 := (history Demo.cfg Demo.w0 twelve).take 3) (h2 := (history Demo.cfg Demo.w0 twelve).drop 3)
  (h3 := []) (n := 0) Demo.cfg_ok Demo.genesis twelve (by decide) rfl rfl rfl rfl
  twelve_later (i := 1) (by decide)

-- all charges after the first
example := C105_start (k := twelveContract none none)
  (u := twelveTerms) (h1 := (history Demo.cfg Demo.w0 twelve).take 2) (h2 := (history Demo.cfg Demo.w0 twelve).drop 3)
  (h3 := []) (b := 0) (n := 0) (r := 2)
  Demo.cfg_ok Demo.genesis twelve (by decide) rfl rfl rfl twelve_later

/-- a contract for ten blocks, taken at once -/
abbrev tenBlocks : List Op :=
  [Demo.mint1, Demo.by_ 1 (.rent (.create 0 (.fixed 10) (.auto none) true (.tokens 100) .none .none)),
    Demo.by_ 2 (.rent (.rent 0 0))] ++ rentBlocks 12

-- it is paid for once
example := C105_once (k := ⟨none, 1, none, .fixed 10, .auto none, true, .tokens 100, .none, .none, 0⟩) (dur := 10)
  (h1 := (history Demo.cfg Demo.w0 tenBlocks).take 2) (h2 := [(10, .contractEnded 0)]) (h3 := []) (b := 0) (n := 0)
  (r := 2) Demo.cfg_ok Demo.genesis tenBlocks (by decide) rfl rfl rfl (by simp)
