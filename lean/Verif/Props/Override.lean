import Verif.Proofs.Override
import Verif.Props.Work
/-
Only the last setting counts.
-/
open Spec

variable {c : Cfg} {w : World}

/-! ## C124 -/

/-- an auction that is not awaiting its end -/
def Spec.NotOverdue (w : World) (x : Call) : Prop :=
  ∀ n v z, x = .auc (.addBid n v) → w.auc.auctions.get n = some z → w.now ≤ z.fin

theorem Spec.NotOverdue.step {o : Origin} {x y : Call} (ho : Op.Ok c (.call o x)) (hxy : Overrides x y) (h : NotOverdue w y) :
    NotOverdue (_root_.step c w (.call o x)) y := by
  intro n v z e hz
  subst e
  have hnow : (_root_.step c w (.call o x)).now = w.now := by
    rcases step_now (c := c) w (.call o x) with e | ⟨e, _⟩
    · exact e
    · cases e
  rw [hnow]
  rcases step_auc_case w (.call o x) ho with ⟨a, u, e, _, hd⟩ | ⟨e, _⟩ | e
  · cases e
    cases hxy with
    | bid hv =>
      generalize _root_.step c w _ = w' at hd hz
      cases hd with
      | @addBid _ _ z0 b dr l q hz0 =>
        have := h n v z0 rfl hz0
        simp only [FMap.get_insert, if_true, Option.some.injEq] at hz
        subst hz
        rw [AucM.extend_eq]
        split
        · exact Nat.le_trans this (Nat.le_add_right ..)
        · exact this
  · cases e
  · rw [e] at hz
    exact h n v z rfl hz

/-- C124: only the last setting counts.  Whatever calls of the same origin went before, accepted or not, a call that sets
the same things again has the same outcome as if they had not been made: the same refusal or, apart from the record of
events, the same state.  This covers bids: raising a bid in steps is bidding at once.  Missing: bids on an auction past its
end that has not been settled, see `C124_fails`. -/
theorem C124_partial (hc : c.Ok) (hr : Reach c w) (o : Origin) (y : Call) (hn : NotOverdue w y) (l : List Call)
    (ho : ∀ x ∈ l, Op.Ok c (.call o x)) (hl : ∀ x ∈ l, Overrides x y) :
    outcome (dispatch c y o (run c w (l.map (.call o)))) = outcome (dispatch c y o w) := by
  induction l generalizing w with
  | nil => rfl
  | cons x t ih =>
    have ho1 := ho x (by simp)
    have hx := hl x (by simp)
    have := ih (.step (.call o x) hr ho1) (hn.step ho1 hx) (fun z hz => ho z (by simp [hz])) (fun z hz => hl z (by simp [hz]))
    refine this.trans ?_
    simp only [step]
    cases hd : dispatch c x o w with
    | error e => rfl
    | ok w1 =>
      refine override hc hr hx ?_ hd
      intro n v z e hz
      subst e
      cases hx with
      | bid _ => exact hn _ _ _ rfl hz

/-- an auction with a first bid -/
abbrev bidding : List Op :=
  [Demo.mint1, Demo.by_ 1 (.mkt (.create .pub)), Demo.by_ 1 (.auc (.create 0 0 1 8 100 none))] ++ Demo.ticks 4 ++
    [Demo.by_ 2 (.auc (.addBid 0 200))]

-- a bid of 500 after bids of 250 and 400, and one of 240, which is too low by then
example : outcome (dispatch Demo.cfg (.auc (.addBid 0 500)) (.signed 3)
      (run Demo.cfg (Demo.at_ bidding) ([.auc (.addBid 0 250), .auc (.addBid 0 400), .auc (.addBid 0 240)].map (.call (.signed 3))))) =
    outcome (dispatch Demo.cfg (.auc (.addBid 0 500)) (.signed 3) (Demo.at_ bidding)) :=
  C124_partial (c := Demo.cfg) Demo.cfg_ok (Demo.reach _ (by decide)) (.signed 3) (.auc (.addBid 0 500))
    (by
      intro n v z e hz
      cases e
      have : ((Demo.at_ bidding).auc.auctions.get 0).map (·.fin) = some 9 := by decide
      rw [hz] at this
      simp only [Option.map_some, Option.some.injEq] at this
      rw [this]
      decide) _
    (by decide) (by intro x hx; simp only [List.mem_cons, List.not_mem_nil, or_false] at hx; rcases hx with rfl | rfl | rfl <;> exact .bid (by omega))

-- the bids count: in the meantime the account has paid, and the last call is accepted
example : (run Demo.cfg (Demo.at_ bidding) ([.auc (.addBid 0 250), .auc (.addBid 0 400), .auc (.addBid 0 240)].map (.call (.signed 3)))).bal.freeOf 3 =
    9600 := by decide

example : (step Demo.cfg (Demo.at_ bidding) (Demo.by_ 3 (.auc (.addBid 0 500)))).bal.freeOf 3 = 9500 := by decide

-- settings of a marketplace
example : outcome (dispatch Demo.cfg (.mkt (.setConfig 0 (.set (.flat 7)) .noop .noop .noop (.set [1]))) (.signed 1)
      (run Demo.cfg (Demo.at_ bidding) ([.mkt (.setConfig 0 (.set (.flat 9)) .noop .noop .noop .noop),
        .mkt (.setConfig 0 .remove .noop .noop .noop (.set [3]))].map (.call (.signed 1))))) =
    outcome (dispatch Demo.cfg (.mkt (.setConfig 0 (.set (.flat 7)) .noop .noop .noop (.set [1]))) (.signed 1)
      (Demo.at_ bidding)) :=
  C124_partial (c := Demo.cfg) Demo.cfg_ok (Demo.reach _ (by decide)) _ _ (by intro n v z e; cases e) _ (by decide)
    (by
      intro x hx
      simp only [List.mem_cons, List.not_mem_nil, or_false] at hx
      rcases hx with rfl | rfl <;> exact .mktConfig trivial trivial trivial trivial trivial)

/-- three auctions that end in the same block of a chain that settles one auction per block: two blocks later the third one
is past its end and not settled -/
abbrev overdue : List Op :=
  [Demo.mint1, Demo.mint1, Demo.mint1, Demo.by_ 1 (.mkt (.create .pub)), Demo.by_ 1 (.auc (.create 0 0 1 8 100 none)),
    Demo.by_ 1 (.auc (.create 1 0 1 8 100 none)), Demo.by_ 1 (.auc (.create 2 0 1 8 100 none))] ++
    (List.replicate 9 [Op.tick, Op.hookAuc]).flatten

/-- C124, the missing part: a bid on an auction past its end moves the end to a grace period after the old end, the next
bid to a grace period after the present block.  Bidding in two steps keeps the auction open for longer than bidding at
once. -/
theorem C124_fails : ∃ w, Reach Demo.slow w ∧ (w.auc.auctions.get 2).map (·.fin) = some 8 ∧ w.now = 9 ∧
    ((run Demo.slow w [Demo.by_ 3 (.auc (.addBid 2 500))]).auc.auctions.get 2).map (·.fin) = some 13 ∧
    ((run Demo.slow w [Demo.by_ 3 (.auc (.addBid 2 200)), Demo.by_ 3 (.auc (.addBid 2 500))]).auc.auctions.get 2).map (·.fin) =
      some 14 :=
  ⟨run Demo.slow Demo.w0 overdue, (Reach.init Demo.slow_genesis).run _ (by decide), by decide, by decide, by decide,
    by decide⟩

/-- C124: the conditions of `Overrides` are needed.  A change of the configuration leaves a field that it does not mention
as the change before has set it, and terms that are declared final cannot be replaced. -/
theorem C124_needs : ∃ w, Reach Demo.cfg w ∧
    ((step Demo.cfg w (Demo.by_ 1 (.mkt (.setConfig 0 .noop .noop .noop .noop (.set [1]))))).mkt.mkts.get 0).map (·.commission) =
      some none ∧
    ((run Demo.cfg w [Demo.by_ 1 (.mkt (.setConfig 0 (.set (.flat 9)) .noop .noop .noop .noop)),
      Demo.by_ 1 (.mkt (.setConfig 0 .noop .noop .noop .noop (.set [1])))]).mkt.mkts.get 0).map (·.commission) =
      some (some (.flat 9)) ∧
    ((step Demo.cfg w (Demo.by_ 1 (.rent (.changeTerms 0 70 6 none true)))).rent.contracts.get 0).map (·.rentFee) =
      some (.tokens 70) ∧
    ((run Demo.cfg w [Demo.by_ 1 (.rent (.changeTerms 0 60 6 none false)),
      Demo.by_ 1 (.rent (.changeTerms 0 70 6 none true))]).rent.contracts.get 0).map (·.rentFee) = some (.tokens 60) :=
  ⟨Demo.at_ [Demo.mint1, Demo.by_ 1 (.mkt (.create .pub)),
    Demo.by_ 1 (.rent (.create 0 (.sub 6 (some 50) true) (.auto none) true (.tokens 50) .none .none))],
    Demo.reach _ (by decide), by decide, by decide, by decide, by decide⟩
