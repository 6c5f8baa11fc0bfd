import Mathlib.Data.List.Induction
import Verif.Props.Demo
import Verif.Proofs.Priv
import Verif.Proofs.Events
/-
Properties C57 and C58: transaction fees and era payouts.
-/
variable {c : Cfg} {w w' w0 : World} {a : AccountId}
set_option maxRecDepth 10000

/- Specification -/
namespace Spec

/-- the transaction fees that were charged -/
def charged : List Ev → Balance
  | [] => 0
  | .feesTaken f :: l => f + charged l
  | _ :: l => charged l

/-- what was taken from the reward pot for era payouts -/
def extras : List Ev → Balance
  | [] => 0
  | .eraPaid _ x :: l => x + extras l
  | _ :: l => extras l

/-- the sum of the payouts which the staking pallet was told to make -/
def payouts (c : Cfg) (w : World) : List Op → Balance
  | [] => 0
  | .eraPayout :: l => (RewM.eraPayout c w).2 + payouts c (step c w .eraPayout) l
  | o :: l => payouts c (step c w o) l

end Spec

/-- only these operations concern rewards -/
theorem step_rew (w : World) (o : Op) (ho : o.Ok c) :
    (∃ p f t au, o = .txFee p f t au ∧ step c w o = w) ∨
    (∃ p f t au b, o = .txFee p f t au ∧ w.bal.withdraw c.ed p (f + t) .keepAlive = .ok b ∧
      step c w o = { w with
        bal := RewM.tipTo c (b.burn (f + t)) t au
        rew := { w.rew with acc := min (w.rew.acc + f) U128MAX }
        evs := .feesTaken f :: w.evs }) ∨
    (∃ x, o = .eraPayout ∧ (step c w o).evs = .eraPaid w.rew.acc x :: w.evs ∧ (step c w o).rew.acc = 0 ∧
      (RewM.eraPayout c w).2 = (w.rew.acc + x) % (U128MAX + 1)) ∨
    (o ≠ .eraPayout ∧ (step c w o).rew.acc = w.rew.acc ∧
      Spec.charged (step c w o).evs = Spec.charged w.evs ∧ Spec.extras (step c w o).evs = Spec.extras w.evs) := by
  by_cases h1 : ∃ p f t au, o = .txFee p f t au
  · obtain ⟨p, f, t, au, rfl⟩ := h1
    simp only [step]
    cases h : RewM.txFee c w p f t au with
    | error e => exact .inl ⟨_, _, _, _, rfl, rfl⟩
    | ok w' =>
      simp only [RewM.txFee] at h; inv_ok at h
      obtain ⟨b, h1, rfl⟩ := h
      exact .inr (.inl ⟨_, _, _, _, b, rfl, h1, rfl⟩)
  by_cases h2 : o = .eraPayout
  · subst h2
    exact .inr (.inr (.inl ⟨_, rfl, rfl, rfl, rfl⟩))
  refine .inr (.inr (.inr ⟨h2, ?_, ?_⟩))
  · have hs := step_side w o ho
    generalize step c w o = w' at hs ⊢
    cases hs with
    | tee ha h => rw [TeeM.call_frame h]
    | br ha h => rw [BrM.call_frame h]
    | teeRoot hg hx h hl => have := TeeM.root_frame h; rw [this]
    | root hg hx hr h e1 e2 e3 => dsimp only; rw [e3]
    | ext hg hx h hl => have := BrM.ext_frame h; rw [this]
    | hookTee => rw [TeeM.hook_frame]
    | txFee hp h => exact absurd ⟨_, _, _, _, rfl⟩ h1
    | eraPayout => exact absurd rfl h2
    | other e1 e2 e3 => rw [e3]
    | _ => rfl
  · obtain ⟨l, e, hl⟩ := step_evs (c := c) w o
    rw [e]
    clear e
    induction l with
    | nil => exact ⟨rfl, rfl⟩
    | cons x l ih =>
      have hx := hl x (by simp)
      have ih := ih (fun e he => hl e (by simp [he]))
      cases x <;> simp only [List.cons_append, Spec.charged, Spec.extras] <;> try exact ih
      · simp only [Ev.By] at hx; obtain ⟨p, t, au, e⟩ := hx; exact absurd ⟨_, _, _, _, e⟩ h1
      · simp only [Ev.By] at hx; exact absurd hx h2

theorem payouts_append (w : World) (l l' : List Op) :
    Spec.payouts c w (l ++ l') = Spec.payouts c w l + Spec.payouts c (run c w l) l' := by
  induction l generalizing w with
  | nil => simp [Spec.payouts, run]
  | cons o l ih =>
    cases o <;> simp only [List.cons_append, Spec.payouts, run, ih] <;> omega

/-! ## C57 -/

/-- C57: charging a transaction takes fee and tip from the payer, records the fee, and burns it. -/
theorem C57_charge {p f t au} (h : RewM.txFee c w p f t au = .ok w') (hau : au ≠ some p) :
    w'.bal.freeOf p + f + t = w.bal.freeOf p ∧ w'.rew.acc = min (w.rew.acc + f) U128MAX ∧
    w'.evs = .feesTaken f :: w.evs ∧ w'.rew.extra = w.rew.extra := by
  simp only [RewM.txFee] at h; inv_ok at h
  obtain ⟨b, h1, rfl⟩ := h
  refine ⟨?_, rfl, rfl, rfl⟩
  have hle := Bal.withdraw_le h1
  have hf : b.freeOf p + (f + t) = w.bal.freeOf p := by
    rcases Bal.withdraw_ok h1 with ⟨e, rfl⟩ | ⟨h2, h3, h4, rfl⟩
    · omega
    · rw [Bal.freeOf_settle]
      have : ¬ (w.bal.freeOf p - (f + t) < c.ed) := by intro hlt; have := h4.2 hlt; simp at this
      simp only [if_true, this, if_false]; omega
  have ht : (RewM.tipTo c (b.burn (f + t)) t au).freeOf p = b.freeOf p := by
    cases au with
    | none => rfl
    | some x =>
      have hx : p ≠ x := by rintro rfl; exact hau rfl
      exact (Bal.mint_free _ _ _ _).trans (by simp only [hx, if_false]; rfl)
  show (RewM.tipTo c (b.burn (f + t)) t au).freeOf p + f + t = _
  omega

/-- C57: as long as fees and extra rewards stay below the largest balance, all payouts together, with what is recorded
for the next one, are the fees charged and the extra rewards taken from the pot: nothing is paid twice or lost. -/
theorem C57_total (hg : Genesis c w0) (l : List Op) (hl : ∀ o ∈ l, o.Ok c)
    (hs : Spec.charged (run c w0 l).evs + Spec.extras (run c w0 l).evs ≤ U128MAX) :
    Spec.payouts c w0 l + (run c w0 l).rew.acc =
      Spec.charged (run c w0 l).evs + Spec.extras (run c w0 l).evs := by
  induction l using List.reverseRecOn with
  | nil => simp [run, Spec.payouts, hg.evs, hg.rew, Spec.charged, Spec.extras]
  | append_singleton l o ih =>
    have ho := hl o (by simp)
    have ih := ih (fun o ho => hl o (by simp [ho]))
    rw [payouts_append]
    have e : run c w0 (l ++ [o]) = step c (run c w0 l) o := by rw [run_append]; rfl
    rw [e] at hs ⊢
    generalize run c w0 l = w at *
    rcases step_rew w o ho with ⟨p, f, t, au, rfl, e⟩ | ⟨p, f, t, au, b, rfl, hb, e⟩ | ⟨x, rfl, e1, e2, e3⟩ |
      ⟨h1, h2, h3, h4⟩
    · rw [e] at hs ⊢; simp only [Spec.payouts]; exact ih hs
    · rw [e] at hs ⊢
      simp only [Spec.payouts, Spec.charged, Spec.extras] at hs ⊢
      have := ih (by omega)
      omega
    · rw [e1] at hs
      rw [e1, e2]
      simp only [Spec.payouts, Spec.charged, Spec.extras] at hs ⊢
      have := ih (by omega)
      rw [e3, Nat.mod_eq_of_lt (by omega)]
      omega
    · rw [h3, h4] at hs
      rw [h2, h3, h4]
      have := ih hs
      have hp : Spec.payouts c w [o] = 0 := by
        cases o <;> simp only [Spec.payouts] <;> exact absurd rfl h1
      omega

-- fees of 30 and 12 are charged, paid with 100 from the pot; then 5 are charged
example : let l : List Op := [.txFee 1 30 2 (some 2), .txFee 3 12 0 none, .eraPayout, .txFee 1 5 0 none]
    Spec.payouts Demo.cfg Demo.w0 l = 142 ∧ (Demo.at_ l).rew.acc = 5 ∧ Spec.charged (Demo.at_ l).evs = 47 ∧
      Spec.extras (Demo.at_ l).evs = 100 ∧ (Demo.at_ l).bal.freeOf 1 = 9963 ∧ (Demo.at_ l).bal.freeOf 2 = 10002 := by
  decide

/-! ## C58 -/

/-- C58: an era payout pays the recorded fees and, from the pot, the configured extra reward or what the pot holds; this
is taken from the pot and burned, with a rest below the existential deposit. -/
theorem C58 (hr : Reach c w) :
    let w' := step c w .eraPayout
    let x := min (w.bal.freeOf c.rewPot) w.rew.extra
    w'.evs = .eraPaid w.rew.acc x :: w.evs ∧ w'.rew = { w.rew with acc := 0 } ∧
    (RewM.eraPayout c w).2 = (w.rew.acc + x) % 2 ^ 128 ∧
    (∀ a, a ≠ c.rewPot → w'.bal.freeOf a = w.bal.freeOf a) ∧ w'.bal.collected = w.bal.collected ∧
    ∃ dust, (dust = 0 ∨ dust < c.ed ∧ w'.bal.freeOf c.rewPot = 0) ∧
      w'.bal.freeOf c.rewPot + x + dust = w.bal.freeOf c.rewPot ∧
      w'.bal.issuance + x + dust = w.bal.issuance := by
  intro w' x
  have hi := hr.micro.balInv
  have hsum := hi.wf.sum
  have htot := Bal.freeOf_le_total w.bal c.rewPot
  have hfr : w.bal.frozen c.rewPot = 0 := hi.pots _ (by simp [Cfg.pot])
  have hx : x ≤ w.bal.freeOf c.rewPot := Nat.min_le_left _ _
  have h2 : (2 : Nat) ^ 128 = U128MAX + 1 := rfl
  rw [h2]
  by_cases hz : x = 0
  · have hw : w.bal.withdraw c.ed c.rewPot x .allowDeath = .ok w.bal := by simp [Bal.withdraw, hz]
    have e : RewM.eraPayout c w = (((({ w with rew := { w.rew with acc := 0 } } : World).putBal
        (w.bal.burn x)).ev (.eraPaid w.rew.acc x)), (w.rew.acc + x) % (U128MAX + 1)) := by
      simp only [RewM.eraPayout]; rw [show min (w.bal.freeOf c.rewPot) w.rew.extra = x from rfl, hw]
    have e' : w' = ((({ w with rew := { w.rew with acc := 0 } } : World).putBal
        (w.bal.burn x)).ev (.eraPaid w.rew.acc x)) := by
      show (RewM.eraPayout c w).1 = _; rw [e]
    rw [e', e]
    refine ⟨rfl, rfl, rfl, fun _ _ => rfl, rfl, 0, .inl rfl, ?_, ?_⟩
    · show w.bal.freeOf c.rewPot + x + 0 = _; omega
    · show w.bal.issuance - x + x + 0 = _; omega
  · have hw : w.bal.withdraw c.ed c.rewPot x .allowDeath =
        .ok (w.bal.settle c.ed c.rewPot (w.bal.freeOf c.rewPot - x)) := by
      have hcl : Bal.canLeave c.ed w.bal c.rewPot (w.bal.freeOf c.rewPot - x) .allowDeath :=
        ⟨by omega, fun _ => ⟨rfl, hfr⟩⟩
      unfold Bal.withdraw
      simp only [hz, if_false, hx, hcl, require, if_true]
      rfl
    have e : RewM.eraPayout c w = (((({ w with rew := { w.rew with acc := 0 } } : World).putBal
        ((w.bal.settle c.ed c.rewPot (w.bal.freeOf c.rewPot - x)).burn x)).ev (.eraPaid w.rew.acc x)),
        (w.rew.acc + x) % (U128MAX + 1)) := by
      simp only [RewM.eraPayout]; rw [show min (w.bal.freeOf c.rewPot) w.rew.extra = x from rfl, hw]
    have e' : w' = ((({ w with rew := { w.rew with acc := 0 } } : World).putBal
        ((w.bal.settle c.ed c.rewPot (w.bal.freeOf c.rewPot - x)).burn x)).ev (.eraPaid w.rew.acc x)) := by
      show (RewM.eraPayout c w).1 = _; rw [e]
    rw [e', e]
    have hs := Bal.freeOf_settle (ed := c.ed) w.bal c.rewPot
    have hsi := Bal.settle_issuance (ed := c.ed) (b := w.bal) (a := c.rewPot) (v := w.bal.freeOf c.rewPot - x)
    have hsc := Bal.settle_collected (ed := c.ed) (b := w.bal) (a := c.rewPot) (v := w.bal.freeOf c.rewPot - x)
    refine ⟨rfl, rfl, rfl, fun a ha => ?_, hsc, Bal.dust c.ed (w.bal.freeOf c.rewPot - x), ?_, ?_, ?_⟩
    · exact (hs a _).trans (by simp [ha])
    · have hs := hs c.rewPot (w.bal.freeOf c.rewPot - x)
      unfold Bal.dust
      split
      · rename_i hlt
        exact .inr ⟨hlt, hs.trans (by simp [hlt])⟩
      · exact .inl rfl
    · have hs := hs c.rewPot (w.bal.freeOf c.rewPot - x)
      refine Eq.trans (congrArg (· + x + _) hs) ?_
      unfold Bal.dust
      simp only [if_true]; split <;> omega
    · refine Eq.trans (congrArg (· - x + x + _) hsi) ?_
      have : Bal.dust c.ed (w.bal.freeOf c.rewPot - x) ≤ w.bal.freeOf c.rewPot - x := by
        unfold Bal.dust; split <;> omega
      omega

example : Reach Demo.cfg (Demo.at_ [.txFee 1 30 2 (some 2)]) ∧ (Demo.at_ [.txFee 1 30 2 (some 2)]).rew.acc = 30 ∧
    (RewM.eraPayout Demo.cfg (Demo.at_ [.txFee 1 30 2 (some 2)])).2 = 130 :=
  ⟨Demo.reach _ (by decide), by decide, by decide⟩
-- the pot holds 1000; after 995 are paid the rest is dust
example : let w' := Demo.at_ [.call .ext (.ext (.setExtra 995)), .eraPayout]
    w'.bal.freeOf 104 = 0 ∧ w'.bal.issuance = 91000 ∧ w'.evs = [.eraPaid 0 995] := by decide
