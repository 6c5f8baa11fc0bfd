import Verif.Proofs.RewardMono
import Verif.Props.Operate
/-
C111: what reports of metrics servers do to rewards.
-/
namespace Spec

/-- the five values a report consists of -/
def values : List (Params → Nat) := [Params.p1, Params.p2, Params.p3, Params.p4, Params.p5]

/-- each value of each report of the first list is reached by some report of the second -/
def Better (l1 l2 : List Report) : Prop := ∀ g ∈ values, ∀ r ∈ l1, ∃ r' ∈ l2, g r.params ≤ g r'.params

/-- the same world with other reports -/
def withReports (w : World) (m : FMap (Era × AccountId) (List Report)) : World :=
  { w with tee := { w.tee with reports := m } }

end Spec

open Spec
variable {c : Cfg} {w w' v v1 v2 : World} {a op : AccountId} {E : Era} {m : FMap (Era × AccountId) (List Report)}

/-- the amount a claim pays is announced -/
theorem claim_evs (h : dispatch c (.tee (.claim E)) (.signed a) w = .ok v) :
    v.evs = .rewardClaimed E a (TeeM.reward w.tee E a) :: w.evs := by
  simp only [dispatch, signedCall, TeeM.call, TeeM.claim] at h; inv_ok at h
  obtain ⟨_, _, _, b, _, _, _, _, _, _, _, h1, rfl⟩ := h
  rfl

/-- **C111, the part that holds.**  Of two worlds that differ only in reports, the one with the better reports on an
operator pays it at least as much, provided there is a report at all. -/
theorem C111_partial {l1 l2 : List Report} (h1 : w.tee.reports.get (E, a) = some l1) (h2 : m.get (E, a) = some l2)
    (hb : Better l1 l2) (d1 : dispatch c (.tee (.claim E)) (.signed a) w = .ok v1)
    (d2 : dispatch c (.tee (.claim E)) (.signed a) (withReports w m) = .ok v2) :
    ∃ x1 x2, v1.evs = .rewardClaimed E a x1 :: w.evs ∧ v2.evs = .rewardClaimed E a x2 :: w.evs ∧ x1 ≤ x2 := by
  refine ⟨_, _, claim_evs d1, claim_evs (w := withReports w m) d2, ?_⟩
  unfold TeeM.reward
  simp only [withReports, h1, h2]
  exact fracMul_mono (by omega) (perbillOf_mono (TeeM.weighted_mono fun g hg =>
    TeeM.highest_mono hg fun r hr => hb g hg r hr))

/-- An operator nobody reported on is paid at least as much as with any reports. -/
theorem C111_none (h2 : m.get (E, a) = none) (d1 : dispatch c (.tee (.claim E)) (.signed a) w = .ok v1)
    (d2 : dispatch c (.tee (.claim E)) (.signed a) (withReports w m) = .ok v2) :
    ∃ x1 x2, v1.evs = .rewardClaimed E a x1 :: w.evs ∧ v2.evs = .rewardClaimed E a x2 :: w.evs ∧ x1 ≤ x2 := by
  refine ⟨_, _, claim_evs d1, claim_evs (w := withReports w m) d2, ?_⟩
  unfold TeeM.reward
  simp only [withReports, h2]
  show _ ≤ TeeM.share w.tee
  split
  · exact perbillMul_le (perbillOf_le _ _) _
  · exact Nat.le_refl _

/-- Reports on other operators, or for other eras, do not matter: the claim has the same outcome. -/
theorem C111_own (h : m.get (E, a) = w.tee.reports.get (E, a)) :
    dispatch c (.tee (.claim E)) (.signed a) (withReports w m) =
      (dispatch c (.tee (.claim E)) (.signed a) w).map (withReports · m) := by
  have e : TeeM.reward (withReports w m).tee E a = TeeM.reward w.tee E a := by
    unfold TeeM.reward
    simp only [withReports, h]
    rfl
  simp only [dispatch, signedCall, TeeM.call, TeeM.claim, e]
  have key : ∀ {α : Type} (x : Except Err α) {f g : α → Except Err World},
      (∀ y, f y = (g y).map (withReports · m)) → (x >>= f) = (x >>= g).map (withReports · m) := by
    intro α x f g hfg
    cases x with
    | error e => rfl
    | ok y => exact hfg y
  repeat refine key _ fun _ => ?_
  rfl

/-- A report that is accepted and not worse than an earlier one by the same submitter makes no record worse, for any
operator and any era. -/
theorem C111_submit (hr : Reach c w) {s : AccountId} {r : Report}
    (h : dispatch c (.tee (.submitReport op r)) (.signed s) w = .ok w')
    (hsame : ∀ A l, w.active = some A → w.tee.reports.get (A - 1, op) = some l → ∀ x ∈ l, x.by_ = r.by_ →
      ∀ g ∈ values, g x.params ≤ g r.params)
    {k : Era × AccountId} {l : List Report} (hk : w.tee.reports.get k = some l) :
    ∃ l', w'.tee.reports.get k = some l' ∧ Better l l' := by
  simp only [dispatch, signedCall, TeeM.call, TeeM.submitReport] at h; inv_ok at h
  obtain ⟨_, _, A, l2, _, _, _, h4, h5, rfl⟩ := h
  show ∃ l', (w.tee.reports.insert (A - 1, op) l2).get k = some l' ∧ _
  rw [FMap.get_insert]
  split
  · next e =>
    subst e
    refine ⟨l2, rfl, fun g hg x hx => ?_⟩
    rw [hk] at h5
    have h6 := (TeeM.addReport_spec (hr.oneEach _ _ l hk) h5).2
    by_cases hxb : x.by_ = r.by_
    · exact ⟨r, (h6 r).2 (.inl rfl), hsame A l h4 hk x hx hxb g hg⟩
    · exact ⟨x, (h6 x).2 (.inr ⟨hx, hxb⟩), Nat.le_refl _⟩
  · exact ⟨l, hk, fun g _ x hx => ⟨x, hx, Nat.le_refl _⟩⟩

namespace Demo
/-- the worlds in which operator 8 claims for era 5: server 7 reports nothing, or the values `v` -/
abbrev measured (v : Option Nat) : List Op :=
  enclaves ++ [.era 6] ++ (v.toList.map fun v => by_ 7 (.tee (.submitReport 8 ⟨⟨v, v, v, v, v⟩, 7⟩))) ++ [.era 8]

/-- what operator 8 then gets -/
abbrev gets (v : Option Nat) : List (AccountId × Balance) := paid 5 (at_ (measured v ++ [by_ 8 (.tee (.claim 5))])).evs
end Demo

/-- Better reports are rewarded, up to the full share, if there is a report. -/
example : Reach Demo.cfg (Demo.at_ (Demo.measured (some 30))) ∧ Demo.gets (some 30) = [(8, 15)] ∧
    Demo.gets (some 50) = [(8, 25)] ∧ Demo.gets (some 100) = [(8, 50)] ∧ Demo.gets (some 200) = [(8, 50)] :=
  ⟨Demo.reach _ (by decide), by decide, by decide, by decide, by decide⟩

/-- The hypotheses of `C111_submit` are met: a second submitter reports. -/
example : ∃ w', dispatch Demo.cfg (.tee (.submitReport 8 ⟨⟨90, 0, 0, 0, 0⟩, 3⟩)) (.signed 7) (Demo.at_ Demo.report) = .ok w' ∧
    w'.tee.reports.get (5, 8) = some [⟨⟨50, 50, 50, 50, 50⟩, 7⟩, ⟨⟨90, 0, 0, 0, 0⟩, 3⟩] := ⟨_, rfl, by decide⟩

/-- **A first report never helps.**  The same operator gets the full share of 50 if nobody reports on it, and less if
somebody does, however good the values are, unless they are perfect. -/
theorem C111_fails : ∃ c w r w' w1 w2, Reach c w ∧ dispatch c (.tee (.submitReport 8 r)) (.signed 7) w = .ok w' ∧
    w.tee.reports.get (5, 8) = none ∧ w'.tee.reports.get (5, 8) = some [r] ∧ (∀ g ∈ values, g r.params = 99) ∧
    dispatch c (.tee (.claim 5)) (.signed 8) (step c w (.era 8)) = .ok w1 ∧
    dispatch c (.tee (.claim 5)) (.signed 8) (step c w' (.era 8)) = .ok w2 ∧
    w1.bal.freeOf 8 = w.bal.freeOf 8 + 50 ∧ w2.bal.freeOf 8 = w.bal.freeOf 8 + 49 :=
  ⟨Demo.cfg, Demo.at_ (Demo.enclaves ++ [.era 6]), ⟨⟨99, 99, 99, 99, 99⟩, 7⟩, _, _, _, Demo.reach _ (by decide), rfl,
    by decide, by decide, by decide, rfl, rfl, by decide, by decide⟩

-- reports of 30 and of 50
example := C111_partial (c := Demo.cfg) (w := Demo.at_ (Demo.measured (some 30))) (E := 5) (a := 8)
  (m := (Demo.at_ (Demo.measured (some 50))).tee.reports) (l1 := [⟨⟨30, 30, 30, 30, 30⟩, 7⟩])
  (l2 := [⟨⟨50, 50, 50, 50, 50⟩, 7⟩]) rfl rfl (by unfold Better; decide) (v1 := _) rfl (v2 := _) rfl

-- a report of 30 and none
example := C111_none (c := Demo.cfg) (w := Demo.at_ (Demo.measured (some 30))) (E := 5) (a := 8) (m := .empty) rfl
  (v1 := _) rfl (v2 := _) rfl

-- the report about another operator is dropped
example := C111_own (c := Demo.cfg) (w := Demo.at_ (Demo.measured (some 30))) (E := 5) (a := 9) (m := .empty) rfl

-- a second report, with higher values, by the same server
example := C111_submit (c := Demo.cfg) (op := 8) (s := 7) (r := ⟨⟨90, 80, 70, 60, 50⟩, 7⟩)
  (Demo.reach Demo.report (by decide)) (w' := _) rfl (by
    intro A l hA hl
    rw [show (Demo.at_ Demo.report).active = some 6 from rfl] at hA
    cases hA
    rw [show (Demo.at_ Demo.report).tee.reports.get (6 - 1, 8) = some [⟨⟨50, 50, 50, 50, 50⟩, 7⟩] from rfl] at hl
    cases hl
    decide) (k := (5, 8)) (l := [⟨⟨50, 50, 50, 50, 50⟩, 7⟩]) rfl
