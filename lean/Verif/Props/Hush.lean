import Verif.Proofs.Hush
import Verif.Props.Cash
/-
C137: what the auction hook pays without saying so.
-/
open Spec
variable {c : Cfg} {w w' : World} {a : AccountId}

/-- the highest bids of all auctions whose payout fails along a history -/
def Spec.failedBids (c : Cfg) (w : World) : List Op → Balance
  | [] => 0
  | o :: t => unpaid w (step c w o) + failedBids c (step c w o) t

/-- C137: along every history without operations of `Elsewhere`, whatever fails in it, the balances are what the events
say plus a list of payments that no event announces.  All of these come from the auction pallet's account, and together they
are at most the highest bids of the auctions whose payout failed.  What goes to the collector of fees is all announced. -/
theorem C137 (hc : c.Ok) (hr : Reach c w) (l : List Op) (hl : ∀ o ∈ l, o.Ok c) (he : ∀ o ∈ l, ¬ Elsewhere o) :
    let p := ledger c (tariff w) (truth w) (history c w l)
    ∃ s : List Payment, (∀ q ∈ s, q.payer = c.aucPot ∧ q.payee ≠ none) ∧
      (s.map (·.amount)).sum ≤ failedBids c w l ∧
      (∀ x, x ≠ c.aucPot → x ≠ c.rentPot →
        (run c w l).bal.freeOf x + outgo x p = w.bal.freeOf x + income x p + income x s) ∧
      (run c w l).bal.collected = w.bal.collected + toCollector p := by
  suffices h : Hushed c w.bal (run c w l).bal (ledger c (tariff w) (truth w) (history c w l)) (failedBids c w l) by
    obtain ⟨s, h1, h2, h3⟩ := h
    refine ⟨s, h1, h2, fun x hx hx' => ?_, ?_⟩
    · have e := h3.free x hx hx'
      have e0 : outgo x s = 0 := by
        unfold outgo
        rw [List.filter_eq_nil_iff.2 fun q hq => by simpa [(h1 q hq).1] using Ne.symm hx]
        rfl
      simp only [outgo, income, List.filter_append, List.map_append, List.sum_append] at e e0 ⊢
      omega
    · have e := h3.collected
      have e0 : toCollector s = 0 := by
        unfold toCollector
        rw [List.filter_eq_nil_iff.2 fun q hq => by simpa using (h1 q hq).2]
        rfl
      simp only [toCollector, List.filter_append, List.map_append, List.sum_append] at e e0 ⊢
      omega
  induction l generalizing w with
  | nil => exact .of (.nil _)
  | cons o t ih =>
    have ho := hl o (by simp)
    have h1 := step_hushed hc hr o (he o (by simp))
    have h2 := ih (hr.step o ho) (fun y hy => hl y (by simp [hy])) (fun y hy => he y (by simp [hy]))
    simp only [history, run, failedBids]
    rw [ledger_append, books_map, ← step_seen hc hr o ho, List.foldl_map, step_tariff]
    exact h1.append h2

/-- so each account has at least what the events say, and at most the failed bids more -/
theorem C137_account (hc : c.Ok) (hr : Reach c w) (l : List Op) (hl : ∀ o ∈ l, o.Ok c) (he : ∀ o ∈ l, ¬ Elsewhere o)
    {x : AccountId} (hx : x ≠ c.aucPot) (hx' : x ≠ c.rentPot) :
    let p := ledger c (tariff w) (truth w) (history c w l)
    w.bal.freeOf x + income x p ≤ (run c w l).bal.freeOf x + outgo x p ∧
      (run c w l).bal.freeOf x + outgo x p ≤ w.bal.freeOf x + income x p + failedBids c w l := by
  obtain ⟨s, -, h2, h3, -⟩ := C137 hc hr l hl he
  have h3 := h3 x hx hx'
  have key : ∀ s : List Payment, income x s ≤ (s.map (·.amount)).sum := by
    intro s
    unfold income
    induction s with
    | nil => simp
    | cons q t ih => rw [List.filter_cons]; split <;> simp only [List.map_cons, List.sum_cons] <;> omega
  have := key s
  dsimp only at h3 ⊢
  omega

/-- in `doomed` a payout of 100 fails, after a payment of 95 that no event announces -/
example : (∀ o ∈ doomed ++ blocks 10, o.Ok Demo.cfg) ∧ (∀ o ∈ doomed ++ blocks 10, ¬ Elsewhere o) ∧
    failedBids Demo.cfg Demo.w0 (doomed ++ blocks 10) = 100 ∧
    let p := ledger Demo.cfg (tariff Demo.w0) (truth Demo.w0) (history Demo.cfg Demo.w0 (doomed ++ blocks 10))
    (Demo.at_ (doomed ++ blocks 10)).bal.freeOf 3 + outgo 3 p = Demo.w0.bal.freeOf 3 + income 3 p + 95 := by
  refine ⟨by decide, ?_, by decide +kernel, by decide +kernel⟩
  simp [doomed, blocks, Demo.mint1, Demo.by_, Elsewhere]
