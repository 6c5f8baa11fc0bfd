import Verif.Props.Network
import Verif.Props.Rewards
/-
Property C159: a network of chains loses no tokens.
-/
variable {c : Cfg} {w w' : World} {a : AccountId} {ι : Type} [DecidableEq ι]
set_option maxRecDepth 10000
open Spec

namespace Spec

/-- what accounts pay for transactions: fees and tips -/
def taken (l : List Op) : Balance := (l.map fun | .txFee _ f t _ => f + t | _ => 0).sum

end Spec

namespace Network

theorem extras_append (l l' : List Ev) : extras l' ≤ extras (l ++ l') := by
  induction l with
  | nil => exact Nat.le_refl _
  | cons e l ih => cases e <;> simp only [List.cons_append, extras] <;> omega

/-- a mint within the issuance loses less than the existential deposit -/
theorem mint_most {ed : Balance} {b : Bal} {y : AccountId} {v : Balance} (h0 : 0 < ed) (h : b.issuance + v ≤ U128MAX) :
    b.issuance + v < (b.mint ed y v).issuance + ed := by
  unfold Bal.mint
  simp only
  rw [Nat.min_eq_left (by omega)]
  split
  · rename_i h'
    rcases h' with h' | h' <;> omega
  · simp; omega

/-- what an operation takes away from the issuance -/
theorem loss_step (hc : c.Ok) (hr : Reach c w) (o : Op) (ho : o.Ok c)
    (hi : w.bal.issuance + released (step c w o).evs ≤ U128MAX + released w.evs) :
    w.bal.issuance + released (step c w o).evs + handedIn w.evs + extras w.evs ≤
      (step c w o).bal.issuance + released w.evs + handedIn (step c w o).evs + extras (step c w o).evs + taken [o] + c.ed := by
  have hx : extras w.evs ≤ extras (step c w o).evs := by
    obtain ⟨m, hm, _⟩ := step_evs (c := c) w o
    rw [hm]; exact extras_append _ _
  have hdust : ∀ {d b b'}, Spec.Dust c b b' d → d ≤ c.ed := by
    rintro d b b' (h | h)
    · omega
    · omega
  have hq : (step c w o).evs.filter Ev.bridge = w.evs.filter Ev.bridge →
      w.bal.issuance + released (step c w o).evs + handedIn w.evs + extras w.evs ≤
      (step c w o).bal.issuance + released w.evs + handedIn (step c w o).evs + extras (step c w o).evs + taken [o] + c.ed := by
    intro he
    have e1 : handedIn (step c w o).evs = handedIn w.evs := by
      unfold handedIn; rw [← filter_announced, he, filter_announced]
    have e2 : released (step c w o).evs = released w.evs := by
      unfold released; rw [← filter_approvals, he, filter_approvals]
    have key : w.bal.issuance + extras w.evs ≤ (step c w o).bal.issuance + extras (step c w o).evs + taken [o] + c.ed := by
      have hs := C61_change hc hr o ho
      unfold Spec.Supply at hs
      split at hs
      · rcases hs with hs | ⟨_, _, hs, _⟩ <;> omega
      · rename_i x v r d
        -- a deposit that is accepted is announced
        cases hd : dispatch c (.br (.deposit v r d)) (.signed x) w with
        | error e =>
          have : step c w (.call (.signed x) (.br (.deposit v r d))) = w := by simp only [step, hd, orSame]
          rw [this]; omega
        | ok v' =>
          exfalso
          have e3 : step c w (.call (.signed x) (.br (.deposit v r d))) = v' := by simp only [step, hd, orSame]
          obtain ⟨b1, b2, h1, h2, h3, h4, rfl⟩ := BrM.deposit_ok hd
          rw [e3] at he
          have := congrArg List.length he
          simp [World.ev, List.filter_cons, Ev.bridge] at this
      · rcases hs with hs | ⟨_, hs⟩
        · omega
        · simp only [taken, List.map_cons, List.map_nil, List.sum_cons, List.sum_nil]; omega
      · obtain ⟨d, h1, h2⟩ := hs
        have := hdust h1
        rw [(C58 hr).1]
        simp only [extras]
        omega
      · omega
      · obtain ⟨d, h1, h2⟩ := hs
        have := hdust h1
        omega
    omega
  have hs := step_br w o ho
  generalize step c w o = w' at *
  cases hs with
  | quiet e he => exact hq he
  | ext _ _ _ e he => exact hq he
  | @deposit a v r d n _ h1 h2 h3 e he =>
    obtain ⟨_, _, _, dust, hd, _, hi'⟩ := C55 hr (show dispatch c (.br (.deposit v r d)) (.signed a) w = .ok w' from h3)
    have hd' : dust ≤ c.ed := by rcases hd with h | h <;> omega
    have e1 : handedIn w'.evs = v + handedIn w.evs := by rw [he]; simp [handedIn, announced]
    have e2 : released w'.evs = released w.evs := by rw [he]; simp [released, approvals]
    omega
  | @vote a k t x _ g1 g2 g3 g4 e he hb =>
    have e1 : handedIn w'.evs = handedIn w.evs := by rw [he]; cases x.2 <;> simp [handedIn, announced]
    cases hx2 : x.2 with
    | false =>
      have e2 : released w'.evs = released w.evs := by rw [he, hx2]; simp [released, approvals]
      rw [hx2] at hb
      rw [hb]; simp; omega
    | true =>
      have e2 : released w'.evs = t.amount + released w.evs := by rw [he, hx2]; simp [released, approvals]
      rw [hx2] at hb
      have := mint_most (y := t.recipient) hc.ed (show w.bal.issuance + t.amount ≤ U128MAX by omega)
      rw [hb]
      simp only [if_true]
      omega

/-- a step hands in or releases, not both -/
theorem either (o : Op) (ho : o.Ok c) : released (step c w o).evs = released w.evs ∨ handedIn (step c w o).evs = handedIn w.evs := by
  have hs := step_br (c := c) w o ho
  generalize step c w o = w' at *
  cases hs with
  | quiet e he => right; unfold handedIn; rw [← filter_announced, he, filter_announced]
  | ext _ _ _ e he => right; unfold handedIn; rw [← filter_announced, he, filter_announced]
  | deposit h1 h2 h3 e he => left; rw [he]; simp [released, approvals]
  | @vote a k t x _ g1 g2 g3 g4 e he hb => right; rw [he]; cases x.2 <;> simp [handedIn, announced]

theorem loss_run (hc : c.Ok) (hr : Reach c w) : ∀ l : List Op, (∀ o ∈ l, o.Ok c) →
    (∀ l1 o l2, l = l1 ++ o :: l2 → (run c w l1).bal.issuance + released (step c (run c w l1) o).evs ≤ U128MAX + released (run c w l1).evs) →
    w.bal.issuance + released (run c w l).evs + handedIn w.evs + extras w.evs ≤
      (run c w l).bal.issuance + released w.evs + handedIn (run c w l).evs + extras (run c w l).evs + taken l + c.ed * l.length := by
  intro l
  induction l generalizing w with
  | nil => intro _ _; simp [run, taken]
  | cons o l ih =>
    intro hl hi
    have ho := hl o (List.mem_cons_self ..)
    have h1 := loss_step hc hr o ho (hi [] o l rfl)
    have h2 := ih (hr.step o ho) (fun o h => hl o (List.mem_cons_of_mem _ h)) (fun l1 o' l2 e => hi (o :: l1) o' l2 (by rw [e]; rfl))
    have e : taken (o :: l) = taken [o] + taken l := by simp [taken]
    have e' : c.ed * (o :: l).length = c.ed * l.length + c.ed := by rw [List.length_cons, Nat.mul_add]; omega
    rw [e, e']
    show w.bal.issuance + released (run c (step c w o) l).evs + handedIn w.evs + extras w.evs ≤ (run c (step c w o) l).bal.issuance +
      released w.evs + handedIn (run c (step c w o) l).evs + extras (run c (step c w o) l).evs + (taken [o] + taken l) + (c.ed * l.length + c.ed)
    omega

omit [DecidableEq ι] in
theorem proper_prefix {N : Spec.Network ι} {m l : List (ι × Op)} (hm : m <+: l) (h : N.Proper l) : N.Proper m :=
  ⟨h.genesis, fun x hx => h.keys x (hm.subset hx), h.ids⟩

theorem trusted_prefix {N : Spec.Network ι} {m l : List (ι × Op)} (hm : m <+: l) (h : N.Trusted l) : N.Trusted m := by
  intro j
  obtain ⟨D, h1, h2⟩ := h j
  obtain ⟨r, rfl⟩ := hm
  refine ⟨D, fun v hv l1 l2 k t e => h1 v hv l1 (l2 ++ r) k t (by rw [e]; simp), fun l1 h => h2 l1 (h.trans ⟨r, rfl⟩)⟩

/-- on a trusted network whose tokens fit 128 bits no approval exceeds the issuance -/
theorem fits [Fintype ι] {N : Spec.Network ι} {l : List (ι × Op)} (hc : ∀ i, (N.cfg i).Ok) (h : N.Proper l) (ht : N.Trusted l)
    (hb : ∑ i, (N.start i).bal.issuance + ∑ i, outside (share i l) ≤ U128MAX) {i : ι} {m r : List (ι × Op)} {o : Op}
    (e : l = m ++ (i, o) :: r) :
    (N.after m i).bal.issuance + released (step (N.cfg i) (N.after m i) o).evs ≤ U128MAX + released (N.after m i).evs := by
  have hp1 : m <+: l := ⟨_, e.symm⟩
  have hp2 : (m ++ [(i, o)]) <+: l := ⟨r, by rw [e]; simp⟩
  have h1 := proper_prefix hp1 h
  have h2 := proper_prefix hp2 h
  have ha : N.after (m ++ [(i, o)]) i = step (N.cfg i) (N.after m i) o := by
    unfold Spec.Network.after
    rw [share_append, share_cons, if_pos rfl, run_append]; rfl
  have hn : ∀ j, j ≠ i → N.after (m ++ [(i, o)]) j = N.after m j := by
    intro j hj
    unfold Spec.Network.after
    rw [share_append, share_cons, if_neg (Ne.symm hj)]
    simp [share]
  have hr : Reach (N.cfg i) (N.after m i) := (Reach.init (h.genesis i)).run _ (share_ok h1 i)
  have ho : o.Ok (N.cfg i) := h.keys (i, o) (by rw [e]; simp)
  have hmax := hr.micro.balInv.wf.max
  rcases either (c := N.cfg i) (w := N.after m i) o ho with g | g
  · rw [g]; omega
  · have p := C156_paid h2 (trusted_prefix hp2 ht)
    have s : ∀ j, (N.after m j).bal.issuance + handedIn (N.after m j).evs ≤
        (N.start j).bal.issuance + released (N.after m j).evs + outside (share j m) := by
      intro j
      have := supply_run (hc j) (.init (h.genesis j)) _ (share_ok h1 j)
      rw [(h.genesis j).evs] at this
      have e1 : handedIn [] = 0 := rfl
      have e2 : released [] = 0 := rfl
      unfold Spec.Network.after
      omega
    have s' := Finset.sum_le_sum (s := Finset.univ) fun j _ => s j
    simp only [Finset.sum_add_distrib] at s'
    have o' : ∑ j, outside (share j m) ≤ ∑ j, outside (share j l) := Finset.sum_le_sum fun j _ => by
      rw [e, share_append]; simp [outside]
    have q1 : ∑ j, handedIn (N.after (m ++ [(i, o)]) j).evs = ∑ j, handedIn (N.after m j).evs := Finset.sum_congr rfl fun j _ => by
      by_cases hj : j = i
      · subst hj; rw [ha, g]
      · rw [hn j hj]
    have q2 := Finset.add_sum_erase Finset.univ (fun j => released (N.after m j).evs) (Finset.mem_univ i)
    have q3 := Finset.add_sum_erase Finset.univ (fun j => released (N.after (m ++ [(i, o)]) j).evs) (Finset.mem_univ i)
    have q4 : ∑ j ∈ Finset.univ.erase i, released (N.after (m ++ [(i, o)]) j).evs = ∑ j ∈ Finset.univ.erase i, released (N.after m j).evs :=
      Finset.sum_congr rfl fun j hj => by rw [hn j (Finset.ne_of_mem_erase hj)]
    have q5 : (N.after m i).bal.issuance ≤ ∑ j, (N.after m j).bal.issuance :=
      Finset.single_le_sum (f := fun j => (N.after m j).bal.issuance) (fun _ _ => Nat.zero_le _) (Finset.mem_univ i)
    simp only [ha] at q3
    omega

end Network

/- C159 -/

/-- On a trusted network whose tokens fit 128 bits, all tokens there were at the start are still there, or on the way between two
chains, or were paid for transactions or taken from the reward pots for staking, or are the remainders, not above the existential deposit
of the chain, of single operations. -/
theorem C159 [Fintype ι] {N : Spec.Network ι} {l : List (ι × Op)} (hc : ∀ i, (N.cfg i).Ok) (h : N.Proper l) (ht : N.Trusted l)
    (hb : ∑ i, (N.start i).bal.issuance + ∑ i, outside (share i l) ≤ U128MAX) :
    ∑ i, (N.start i).bal.issuance ≤ ∑ i, (N.after l i).bal.issuance +
      (∑ i, handedIn (N.after l i).evs - ∑ i, released (N.after l i).evs) +
      ∑ i, extras (N.after l i).evs + ∑ i, taken (share i l) + ∑ i, (N.cfg i).ed * (share i l).length := by
  have p := C156_paid h ht
  have s : ∀ i, (N.start i).bal.issuance + released (N.after l i).evs ≤ (N.after l i).bal.issuance + handedIn (N.after l i).evs +
      extras (N.after l i).evs + taken (share i l) + (N.cfg i).ed * (share i l).length := by
    intro i
    have := Network.loss_run (hc i) (.init (h.genesis i)) _ (Network.share_ok h i) (fun l1 o l2 e => by
      obtain ⟨m, r, e1, e2⟩ := Network.share_split e
      have := Network.fits hc h ht hb e1
      unfold Spec.Network.after at this
      rwa [e2] at this)
    rw [(h.genesis i).evs] at this
    have e1 : handedIn [] = 0 := rfl
    have e2 : released [] = 0 := rfl
    have e3 : extras [] = 0 := rfl
    unfold Spec.Network.after
    omega
  have s' := Finset.sum_le_sum (s := Finset.univ) fun i _ => s i
  simp only [Finset.sum_add_distrib] at s'
  omega

example := C159 (N := Demo.two) (fun i => by cases i <;> exact ⟨Demo.cfg_ok.ed, Demo.cfg_ok.bid, Demo.cfg_ok.ar, Demo.cfg_ok.at_,
    Demo.cfg_ok.aw, Demo.cfg_ok.rt, Demo.cfg_ok.rw, Demo.cfg_ok.tw⟩) Demo.two_proper Demo.two_trusted (by decide)
