import Verif.Props.TuneSpec
import Verif.Props.Portion
import Verif.Props.Looser
/-
C146: the number of auctions and transmissions per block can be changed by upgrades.
-/
open Spec

namespace Tune
variable {c : Cfg} {w : World}

theorem dispatch_same (i j : Nat) (x : Call) (o : Origin) (w : World) :
    dispatch (tuned c i j) x o w = dispatch c x o w := by
  induction x generalizing o w with
  | mandate x ih => cases o <;> simp only [dispatch, ih] <;> rfl
  | root x =>
    cases o with
    | root =>
      cases x with
      | tee x => cases x <;> rfl
      | _ => rfl
    | _ => rfl
  | ext x => cases o <;> cases x <;> rfl
  | nft x => cases o <;> cases x <;> rfl
  | mkt x => cases o <;> cases x <;> rfl
  | auc x => cases o <;> cases x <;> rfl
  | rent x => cases o <;> cases x <;> rfl
  | tr x => cases o <;> cases x <;> rfl
  | tee x => cases o <;> cases x <;> rfl
  | br x => cases o <;> cases x <;> rfl
  | bal d v l => cases o <;> rfl

theorem finish_same (i j : Nat) (q : Queue) (w : World) (k : Nat) :
    RentM.finishLoop (tuned c i j) w q k = RentM.finishLoop c w q k := by
  induction q generalizing w k with
  | nil => rfl
  | cons x t ih =>
    obtain ⟨n, b⟩ := x
    have hs : RentM.handleFinished (tuned c i j) n w = RentM.handleFinished c n w := rfl
    simp only [RentM.finishLoop, hs, ih]

theorem sub_same (i j : Nat) (f : Nat) (w : World) (q : Queue) (k : Nat) :
    RentM.subLoop (tuned c i j) w q k f = RentM.subLoop c w q k f := by
  induction f generalizing w q k with
  | zero => rfl
  | succ f ih =>
    cases q with
    | nil => rfl
    | cons x t =>
      obtain ⟨n, b⟩ := x
      have hs : RentM.subOne (tuned c i j) w n t = RentM.subOne c w n t := rfl
      simp only [RentM.subLoop, hs, ih]

theorem rent_same (i j : Nat) (w : World) : RentM.hook (tuned c i j) w = RentM.hook c w := by
  simp only [RentM.hook, finish_same, sub_same]

/-- everything but two hooks is the same -/
theorem step_same (i j : Nat) (w : World) (o : Op) (h1 : o ≠ .hookAuc) (h2 : o ≠ .hookTr) :
    step (tuned c i j) w o = step c w o := by
  cases o with
  | call u x => simp only [step, dispatch_same]
  | hookAuc => exact absurd rfl h1
  | hookTr => exact absurd rfl h2
  | hookRent => exact rent_same i j w
  | _ => rfl

/-- settling up to `i` auctions is settling up to one `i` times -/
theorem auc_reach (i : Nat) (hi : 0 < i) {w : World} (hr : Reach (tuned c 1 1) w) :
    Reach (tuned c 1 1) (step (tuned c i 1) w .hookAuc) := by
  induction i with
  | zero => omega
  | succ i ih =>
    rcases Nat.eq_zero_or_pos i with rfl | h
    · exact hr.step .hookAuc trivial
    · have := C144_auctions h Nat.one_pos (tuned c i 1) w
      rw [← this]
      exact (ih h).step .hookAuc trivial

/-- transmitting up to `j` NFTs is transmitting up to one `j` times -/
theorem tr_reach (hc : c.Ok) (j : Nat) (hj : 0 < j) {w : World} (hr : Reach (tuned c 1 1) w) :
    Reach (tuned c 1 1) (step (tuned c 1 j) w .hookTr) := by
  have hc1 : (tuned c 1 1).Ok := ⟨hc.1, hc.2, hc.3, hc.4, hc.5, hc.6, hc.7, hc.8⟩
  induction j with
  | zero => omega
  | succ j ih =>
    rcases Nat.eq_zero_or_pos j with rfl | h
    · exact hr.step .hookTr trivial
    · have : step (tuned c 1 1) (step (tuned c 1 j) w .hookTr) .hookTr = step (tuned c 1 (j + 1)) w .hookTr :=
        Portion.tr (tuned c 1 1) j 1 h Nat.one_pos (Portion.ready hc1 hr) (Portion.ready hc1 (ih h))
      rw [← this]
      exact (ih h).step .hookTr trivial

theorem tuned_loose {c c' : Cfg} (h : Looser c c') (i j : Nat) : Looser (tuned c i j) (tuned c' i j) := by
  obtain ⟨⟩ := h
  constructor <;> first | assumption | rfl

/-- the hooks of the two pallets look only at the own number -/
theorem auc_own (w : World) : step c w .hookAuc = step (tuned c c.aucActions 1) w .hookAuc := by
  have : ∀ (q : Queue) (w : World) (k : Nat),
      AucM.hookLoop c w q k = AucM.hookLoop (tuned c c.aucActions 1) w q k := by
    intro q
    induction q with
    | nil => intros; rfl
    | cons x t ih =>
      intro w k
      obtain ⟨n, b⟩ := x
      have hs : AucM.settleOne (tuned c c.aucActions 1) w n = AucM.settleOne c w n := rfl
      simp only [AucM.hookLoop, hs, ih]
  simp only [step, AucM.hook, this]

theorem tr_own (w : World) : step c w .hookTr = step (tuned c 1 c.trActions) w .hookTr := by
  have : ∀ (q : Queue) (w : World) (k : Nat),
      TrM.hookLoop c w q k = TrM.hookLoop (tuned c 1 c.trActions) w q k := by
    intro q
    induction q with
    | nil => intros; rfl
    | cons x t ih =>
      intro w k
      obtain ⟨n, b⟩ := x
      simp only [TrM.hookLoop, ih]
  simp only [step, TrM.hook, this]

end Tune

variable {c : Cfg} {w : World}

/-- **C146**: a chain whose limits are raised and whose numbers of auctions and transmissions per block are changed in upgrades,
up or down and any number of times, is only ever in states that a chain with the latest limits and one auction and one
transmission at a time reaches without upgrade.  So every property proved here of reachable states also holds of it. -/
theorem C146_upgrade (hc : c.Ok) (h : Tuned c w) : Reach (tuned c 1 1) w := by
  induction h with
  | @init c w hg =>
    exact .init ⟨⟨hg.bal.1, hg.bal.2, hg.bal.3, hg.bal.4, hg.bal.5⟩, hg.nfts, hg.nft, hg.mkt, hg.auc, hg.rent, hg.tr, hg.tee,
      hg.br, hg.rew, hg.evs⟩
  | @step c w o _ h1 h2 ho ih =>
    by_cases ha : o = .hookAuc
    · subst ha
      rw [Tune.auc_own]
      exact Tune.auc_reach _ h1 (ih hc)
    · by_cases ht : o = .hookTr
      · subst ht
        rw [Tune.tr_own]
        exact Tune.tr_reach hc _ h2 (ih hc)
      · rw [← Tune.step_same 1 1 w o ha ht]
        exact (ih hc).step o (by cases o <;> exact ho)
  | @loosen c c' w _ hl ih =>
    have hcc := hl.ok.1 hc
    have hc1 : (tuned c 1 1).Ok := ⟨hcc.1, hcc.2, hcc.3, hcc.4, hcc.5, hcc.6, hcc.7, hcc.8⟩
    exact (ih hcc).loose (Tune.tuned_loose hl 1 1) hc1
  | @tune c w i j _ ih => exact ih ⟨hc.1, hc.2, hc.3, hc.4, hc.5, hc.6, hc.7, hc.8⟩

/-- an example: the NFT flags agree with the records (C07) also after such upgrades -/
theorem C146_flags (hc : c.Ok) (h : Tuned c w) {n : NFTId} {d : NFTData} (hd : w.nfts.get n = some d) :
    (d.st.listed = true ↔ (w.mkt.sales.get n ≠ none ∨ w.auc.auctions.get n ≠ none)) ∧
    (d.st.transmission = true ↔ w.tr.trans.get n ≠ none) :=
  let g := C07_flags (c := tuned c 1 1) ⟨hc.1, hc.2, hc.3, hc.4, hc.5, hc.6, hc.7, hc.8⟩ (C146_upgrade hc h) hd
  ⟨g.1, g.2.2.2.1⟩

/-- one auction ends with a limit of 1, then the limit is raised to 7 and the other one ends -/
abbrev tunedUp : World :=
  step (tuned Demo.cfg 7 2) (step (tuned Demo.cfg 1 5) (Demo.at_ twoDue) .hookAuc) .hookAuc

theorem Tuned.run {d : Cfg} {v : World} (l : List Op) (h1 : 0 < d.aucActions) (h2 : 0 < d.trActions) (h : Tuned d v)
    (hl : ∀ o ∈ l, o.Ok d) : Tuned d (run d v l) := by
  induction l generalizing v with
  | nil => exact h
  | cons o t ih => exact ih (.step o h h1 h2 (hl o (by simp))) fun o' ho => hl o' (by simp [ho])

theorem tunedUp_is : Tuned (tuned Demo.cfg 7 2) tunedUp :=
  .step .hookAuc (.tune (c := tuned Demo.cfg 1 5) 7 2 (.step .hookAuc
    (.tune 1 5 (Tuned.run twoDue (by decide) (by decide) (.init Demo.genesis) (by decide))) (by decide) (by decide) trivial))
    (by decide) (by decide) trivial

-- both auctions are over, and the state is one of a chain with a limit of 1
set_option maxRecDepth 20000 in
example : (step (tuned Demo.cfg 1 5) (Demo.at_ twoDue) .hookAuc).auc.auctions.get 1 ≠ none ∧
    tunedUp.auc.auctions.get 0 = none ∧ tunedUp.auc.auctions.get 1 = none := by decide +kernel

example : Reach (tuned Demo.cfg 1 1) tunedUp :=
  C146_upgrade (c := tuned Demo.cfg 7 2) (by constructor <;> decide) tunedUp_is
