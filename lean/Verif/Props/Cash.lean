import Verif.Proofs.Cash
import Verif.Props.Observer
/-
Events account for all tokens that the NFT, marketplace, auction, rent and transmission pallets move.
-/
open Spec

variable {c : Cfg} {w : World}

/-! ## C90 -/

/-- C90: in every operation other than those of `Elsewhere`, an account's balance changes by exactly what the events'
payments give it minus what they take, and the collector of fees gets exactly the payments to them.  The auction and the
rent pot, which may also lose dust, are left out; C20 and C28 are about them.  Missing: runs of the auction hook in which
a payout aborts. -/
theorem C90_partial (hc : c.Ok) (hr : Reach c w) (o : Op) (ho : ¬ Elsewhere o) (hcl : Clean c w o) :
    let l := ledger c (tariff w) (truth w) ((emit c w o).map fun e => (w.now, e))
    (∀ x, x ≠ c.aucPot → x ≠ c.rentPot →
      (step c w o).bal.freeOf x + outgo x l = w.bal.freeOf x + income x l) ∧
    (step c w o).bal.collected = w.bal.collected + toCollector l :=
  have h := step_paying hc hr o ho hcl
  ⟨h.free, h.collected⟩

/-- C90: the same for whole histories: an observer who knew the books, the tariff and the balances once knows all balances
later from the events alone. -/
theorem C90_run (hc : c.Ok) (hr : Reach c w) (l : List Op) (hl : ∀ o ∈ l, o.Ok c) (he : ∀ o ∈ l, ¬ Elsewhere o)
    (hcl : AllClean c w l) :
    let p := ledger c (tariff w) (truth w) (history c w l)
    (∀ x, x ≠ c.aucPot → x ≠ c.rentPot → (run c w l).bal.freeOf x + outgo x p = w.bal.freeOf x + income x p) ∧
    (run c w l).bal.collected = w.bal.collected + toCollector p := by
  suffices h : Paying c w.bal (run c w l).bal (ledger c (tariff w) (truth w) (history c w l)) from ⟨h.free, h.collected⟩
  induction l generalizing w with
  | nil => exact .nil _
  | cons o t ih =>
    have ho := hl o (by simp)
    have h1 := step_paying hc hr o (he o (by simp)) (hcl [] o t rfl)
    have h2 := ih (hr.step o ho) (fun y hy => hl y (by simp [hy])) (fun y hy => he y (by simp [hy])) (by
      intro l1 o' l2 e
      exact hcl (o :: l1) o' l2 (by rw [e]; rfl))
    simp only [history, run]
    rw [ledger_append, books_map, ← step_seen hc hr o ho, List.foldl_map, step_tariff]
    exact h1.append h2

theorem Spec.AllClean.cons {o : Op} {t : List Op} (h : Clean c w o) (h' : AllClean c (step c w o) t) :
    AllClean c w (o :: t) := by
  intro l1 o' l2 e
  cases l1 with
  | nil => cases e; exact h
  | cons y l1 => cases e; exact h' l1 o' l2 rfl

theorem Spec.AllClean.quiet {l t : List Op} (h : ∀ o ∈ l, o ≠ .hookAuc) (h' : AllClean c (run c w l) t) :
    AllClean c w (l ++ t) := by
  induction l generalizing w with
  | nil => exact h'
  | cons o l ih => exact .cons (fun e => absurd e (h o (by simp))) (ih (fun x hx => h x (by simp [hx])) h')

theorem Demo.busy_clean : AllClean Demo.cfg Demo.w0 Demo.busy := by
  have hook : Clean Demo.cfg (Demo.at_ (Demo.busy.take 19)) .hookAuc := by
    intro _ n ⟨b, hb⟩ _
    have e : (Demo.at_ (Demo.busy.take 19)).auc.deadlines = [(1, 6)] := by decide
    rw [e] at hb
    simp only [List.mem_singleton, Prod.mk.injEq] at hb
    rw [hb.1]
    decide
  rw [← List.take_append_drop 19 Demo.busy]
  refine .quiet (by simp [Demo.busy, Demo.ticks, Demo.mint1, Demo.by_]) ?_
  rw [show Demo.busy.drop 19 = [.hookAuc, .hookRent, .hookTr] from rfl]
  exact .cons hook (.quiet (l := [.hookRent, .hookTr]) (t := []) (by simp) (fun l1 o l2 e => by simp at e))

-- a run with a sale, an auction that is won, a rent and a transmission: what the events say about account 1, who sold
-- NFT 0 for 100 and NFT 1 for 70, has let NFT 2 for 10 and paid fees of 4 * 5 and 1
example :
    (∀ o ∈ Demo.busy, o.Ok Demo.cfg) ∧ (∀ o ∈ Demo.busy, ¬ Elsewhere o) ∧ AllClean Demo.cfg Demo.w0 Demo.busy ∧
    let p := ledger Demo.cfg (tariff Demo.w0) (truth Demo.w0) (history Demo.cfg Demo.w0 Demo.busy)
    (Demo.w0.bal.freeOf 1, income 1 p, outgo 1 p, (run Demo.cfg Demo.w0 Demo.busy).bal.freeOf 1) =
      (10000, 180, 21, 10159) := by
  refine ⟨by decide, ?_, Demo.busy_clean, by decide⟩
  simp [Demo.busy, Demo.mint1, Demo.by_, Demo.ticks, Elsewhere]

/-- C90: an aborted payout of the auction hook pays out without any event: the marketplace's owner gets a commission. -/
theorem C90_fails : ∃ w, Reach Demo.cfg w ∧ emit Demo.cfg w .hookAuc = [] ∧
    ∃ x, x ≠ Demo.cfg.aucPot ∧ x ≠ Demo.cfg.rentPot ∧ w.bal.freeOf x < (step Demo.cfg w .hookAuc).bal.freeOf x := by
  refine ⟨Demo.at_ (doomed ++ Demo.ticks 10), Demo.reach _ (by decide), by decide, 3, by decide, by decide, by decide⟩
