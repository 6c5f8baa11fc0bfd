import Mathlib.Algebra.BigOperators.Group.List.Basic
import Mathlib.Algebra.Order.BigOperators.Group.Finset
import Mathlib.Data.Fintype.BigOperators
import Verif.Props.NetworkSpec
import Verif.Props.Supply
import Verif.Props.Config
import Mathlib.Data.List.Infix
/-
Property C156: a network of chains creates no tokens.
-/
variable {c : Cfg} {w w' : World} {a : AccountId} {ι : Type} [DecidableEq ι]
set_option maxRecDepth 10000
open Spec

namespace Network

/- the history of a chain within that of the network -/

theorem share_append (i : ι) (l l' : List (ι × Op)) : share i (l ++ l') = share i l ++ share i l' := List.filterMap_append

theorem share_cons (i : ι) (x : ι × Op) (l : List (ι × Op)) :
    share i (x :: l) = if x.1 = i then x.2 :: share i l else share i l := by
  unfold share
  rw [List.filterMap_cons]
  split <;> rename_i h <;> split at h <;> simp_all

theorem share_split {i : ι} {o : Op} {b : List Op} : ∀ {l : List (ι × Op)} {a : List Op}, share i l = a ++ o :: b →
    ∃ l1 l2, l = l1 ++ (i, o) :: l2 ∧ share i l1 = a := by
  intro l
  induction l with
  | nil => intro a h; cases a <;> cases h
  | cons x l ih =>
    intro a h
    rw [share_cons] at h
    split at h
    · rename_i hx
      cases a with
      | nil =>
        simp at h
        exact ⟨[], l, by rw [← hx, ← h.1]; rfl, rfl⟩
      | cons y a =>
        simp at h
        obtain ⟨l1, l2, rfl, h2⟩ := ih h.2
        exact ⟨x :: l1, l2, rfl, by rw [share_cons, if_pos hx, h2, h.1]⟩
    · rename_i hx
      obtain ⟨l1, l2, rfl, h2⟩ := ih h
      exact ⟨x :: l1, l2, rfl, by rw [share_cons, if_neg hx, h2]⟩

theorem share_ok {N : Spec.Network ι} {l} (h : N.Proper l) (i : ι) : ∀ o ∈ share i l, o.Ok (N.cfg i) := by
  intro o ho
  unfold share at ho
  obtain ⟨x, hx, e⟩ := List.mem_filterMap.1 ho
  split at e
  · rename_i hi
    cases e
    rw [← hi]; exact h.keys x hx
  · cases e

/-- what was announced stays announced -/
theorem evs_mono {N : Spec.Network ι} {l1 l : List (ι × Op)} (h : l1 <+: l) {i : ι} {e : Ev} (he : e ∈ (N.after l1 i).evs) :
    e ∈ (N.after l i).evs := by
  obtain ⟨l2, rfl⟩ := h
  unfold Spec.Network.after at *
  rw [share_append, run_append]
  obtain ⟨m, hm⟩ := run_evs (c := N.cfg i) (run (N.cfg i) (N.start i) (share i l1)) (share i l2)
  rw [hm]
  exact List.mem_append_right _ he

/-- an event has been emitted by an operation -/
theorem emitted {e : Ev} (h0 : w.evs = []) : ∀ l : List Op, e ∈ (run c w l).evs → ∃ l1 o l2, l = l1 ++ o :: l2 ∧ emits c (run c w l1) o e := by
  intro l
  induction l using List.reverseRecOn with
  | nil => intro h; rw [show run c w [] = w from rfl, h0] at h; cases h
  | append_singleton l o ih =>
    intro h
    rw [run_snoc] at h
    obtain ⟨m, hm, _⟩ := step_evs (c := c) (run c w l) o
    rw [hm] at h
    rcases List.mem_append.1 h with h | h
    · exact ⟨l, o, [], rfl, m, hm, h⟩
    · obtain ⟨l1, o', l2, rfl, h'⟩ := ih h
      exact ⟨l1, o', l2 ++ [o], by simp, h'⟩

end Network

/- C156 -/

/-- Every transfer that is approved on a chain of the network is owed: another chain has announced the deposit of exactly this amount,
for exactly this recipient, to this chain, under this nonce. -/
theorem C156_owed {N : Spec.Network ι} {l : List (ι × Op)} (h : N.Proper l) (ht : N.Trusted l) {j : ι} {k : ChainId} {t : Transfer}
    (ha : .approved k t ∈ (N.after l j).evs) : N.Owed l j k t := by
  obtain ⟨D, hD, hT⟩ := ht j
  obtain ⟨l1, o, l2, e, he⟩ := Network.emitted (h.genesis j).evs _ ha
  have hok := Network.share_ok h j
  obtain ⟨vs, b, h1, h2, h3⟩ := C52 (h.genesis j) l1 o (fun x hx => hok x (by
    rw [e]; rcases List.mem_append.1 hx with hx | hx
    · exact List.mem_append_left _ hx
    · simp at hx; subst hx; simp)) k t he
  obtain ⟨m1, m2, e1, e2⟩ := Network.share_split e
  have hlt : D.length < (run (N.cfg j) (N.start j) l1).br.threshold := by
    have := hT m1 ⟨(j, o) :: m2, e1.symm⟩
    unfold Spec.Network.after at this
    rwa [e2] at this
  obtain ⟨v, hv, hvD⟩ : ∃ v ∈ vs, v ∉ D := by
    by_contra hn
    push Not at hn
    have := (List.subperm_of_subset h1 hn).length_le
    omega
  obtain ⟨p1, p2, e3, _⟩ := h3 v hv
  have e4 : share j l = p1 ++ .call (.signed v) (.br (.vote k t)) :: (p2 ++ l2) := by
    rw [e, show l1 ++ o :: l2 = (l1 ++ [o]) ++ l2 by simp, e3]; simp
  obtain ⟨q1, q2, e5, _⟩ := Network.share_split e4
  obtain ⟨i, r, g1, g2, g3⟩ := hD v hvD q1 q2 k t e5
  exact ⟨i, r, g1, Network.evs_mono ⟨_, e5.symm⟩ g2, g3⟩

namespace Network

theorem mem_approvals {l : List Ev} {k : ChainId} {t : Transfer} : (k, t) ∈ approvals l ↔ .approved k t ∈ l := by
  unfold approvals
  rw [List.mem_filterMap]
  constructor
  · rintro ⟨e, he, h⟩
    cases e <;> simp at h
    obtain ⟨rfl, rfl⟩ := h
    exact he
  · exact fun h => ⟨_, h, rfl⟩

theorem mem_announced {l : List Ev} {k : ChainId} {n r v} : (k, n, r, v) ∈ announced l ↔ .deposited k n r v ∈ l := by
  unfold announced
  rw [List.mem_filterMap]
  constructor
  · rintro ⟨e, he, h⟩
    cases e <;> simp at h
    obtain ⟨rfl, rfl, rfl, rfl⟩ := h
    exact he
  · exact fun h => ⟨_, h, rfl⟩

theorem approvals_nodup (h : Reach c w) : (approvals w.evs).Nodup := by
  rw [List.nodup_iff_count_le_one]
  rintro ⟨k, t⟩
  have := C51_once h k t
  have e : ∀ l : List Ev, (approvals l).count (k, t) = l.count (.approved k t) := by
    intro l
    induction l with
    | nil => rfl
    | cons x l ih =>
      unfold approvals at *
      cases x <;> simp [List.count_cons, ih]
  rw [e]; exact this

/-- sums over lists split by a key -/
theorem sum_split {α : Type} [Fintype ι] (f : α → Nat) (g : α → ι → Bool) :
    ∀ l : List α, (∀ x ∈ l, ∃ i, g x i = true) → (l.map f).sum ≤ ∑ i, ((l.filter (g · i)).map f).sum := by
  intro l
  induction l with
  | nil => intro; simp
  | cons x l ih =>
    intro h
    obtain ⟨i, hi⟩ := h x (List.mem_cons_self ..)
    have h1 := ih (fun y hy => h y (List.mem_cons_of_mem _ hy))
    have h2 : ∀ j, ((l.filter (g · j)).map f).sum + (if j = i then f x else 0) ≤ (((x :: l).filter (g · j)).map f).sum := by
      intro j
      by_cases hj : g x j = true
      · simp only [List.filter_cons, hj, if_true, List.map_cons, List.sum_cons]; split <;> omega
      · have : j ≠ i := fun e => hj (e ▸ hi)
        simp only [List.filter_cons, hj, this]; simp
    calc ((x :: l).map f).sum = (l.map f).sum + f x := by simp [Nat.add_comm]
      _ ≤ (∑ j, ((l.filter (g · j)).map f).sum) + f x := Nat.add_le_add_right h1 _
      _ = ∑ j, (((l.filter (g · j)).map f).sum + if j = i then f x else 0) := by simp [Finset.sum_add_distrib]
      _ ≤ _ := Finset.sum_le_sum fun j _ => h2 j

/-- … and the parts together are at most the whole when the keys exclude each other -/
theorem sum_join {α : Type} [Fintype ι] (f : α → Nat) (g : α → ι → Bool) (hg : ∀ x i j, g x i = true → g x j = true → i = j) :
    ∀ l : List α, ∑ i, ((l.filter (g · i)).map f).sum ≤ (l.map f).sum := by
  intro l
  induction l with
  | nil => simp
  | cons x l ih =>
    have h2 : ∀ j, (((x :: l).filter (g · j)).map f).sum = ((l.filter (g · j)).map f).sum + if g x j = true then f x else 0 := by
      intro j
      by_cases hj : g x j = true
      · simp [hj, Nat.add_comm]
      · simp [hj]
    simp only [h2, Finset.sum_add_distrib, List.map_cons, List.sum_cons]
    have : (∑ j, if g x j = true then f x else 0) ≤ f x := by
      by_cases h : ∃ i, g x i = true
      · obtain ⟨i, hi⟩ := h
        have : ∀ j, (if g x j = true then f x else 0) = if j = i then f x else 0 := by
          intro j
          by_cases hj : g x j = true
          · rw [if_pos hj, if_pos (hg x j i hj hi)]
          · rw [if_neg hj, if_neg (fun e : j = i => hj (e ▸ hi))]
        simp [this]
      · push Not at h
        simp [h]
    omega

end Network

/-- All transfers paid out by all chains of the network together are not more than all deposits handed in on them. -/
theorem C156_paid [Fintype ι] {N : Spec.Network ι} {l : List (ι × Op)} (h : N.Proper l) (ht : N.Trusted l) :
    ∑ j, released (N.after l j).evs ≤ ∑ i, handedIn (N.after l i).evs := by
  let from_ : ι → ChainId × Transfer → Bool := fun i x => decide (x.1 = (N.cfg i).chain)
  let to_ : ι → ChainId × Nat × Data × Balance → Bool := fun j x => decide (x.1 = (N.cfg j).chain)
  have hr : ∀ j, Reach (N.cfg j) (N.after l j) := fun j => (Reach.init (h.genesis j)).run _ (Network.share_ok h j)
  -- between two chains
  have pair : ∀ i j, (((approvals (N.after l j).evs).filter (from_ i)).map (·.2.amount)).sum ≤
      (((announced (N.after l i).evs).filter (to_ j)).map (·.2.2.2)).sum := by
    intro i j
    have hs : ((approvals (N.after l j).evs).filter (from_ i)) ⊆
        ((announced (N.after l i).evs).filter (to_ j)).map fun x => ((N.cfg i).chain, (⟨x.2.1, N.read x.2.2.1, x.2.2.2⟩ : Transfer)) := by
      rintro ⟨k, t⟩ hx
      rw [List.mem_filter] at hx
      obtain ⟨h1, h2⟩ := hx
      simp only [from_, decide_eq_true_eq] at h2
      obtain ⟨i', r, g1, g2, g3⟩ := C156_owed h ht (Network.mem_approvals.1 h1)
      have : i' = i := h.ids _ _ (g1.trans h2)
      subst this
      refine List.mem_map.2 ⟨((N.cfg j).chain, t.nonce, r, t.amount), List.mem_filter.2 ⟨Network.mem_announced.2 g2, by simp [to_]⟩, ?_⟩
      simp [g3, h2]
    have hp := List.subperm_of_subset ((Network.approvals_nodup (hr j)).filter _) hs
    obtain ⟨l', hl', hs'⟩ := hp
    have e1 := (hl'.map (fun x : ChainId × Transfer => x.2.amount)).sum_eq
    have e2 := (hs'.map (fun x : ChainId × Transfer => x.2.amount)).sum_le_sum (fun _ _ => Nat.zero_le _)
    rw [← e1]
    refine Nat.le_trans e2 (Nat.le_of_eq ?_)
    rw [List.map_map]; rfl
  calc ∑ j, released (N.after l j).evs
      ≤ ∑ j, ∑ i, (((approvals (N.after l j).evs).filter (from_ i)).map (·.2.amount)).sum :=
        Finset.sum_le_sum fun j _ => Network.sum_split _ (fun x i => from_ i x) _ (fun x hx => by
          obtain ⟨i, r, g, _⟩ := C156_owed h ht (Network.mem_approvals.1 (show (x.1, x.2) ∈ _ from hx))
          exact ⟨i, by simp [from_, g]⟩)
    _ ≤ ∑ j, ∑ i, (((announced (N.after l i).evs).filter (to_ j)).map (·.2.2.2)).sum :=
        Finset.sum_le_sum fun j _ => Finset.sum_le_sum fun i _ => pair i j
    _ = ∑ i, ∑ j, (((announced (N.after l i).evs).filter (to_ j)).map (·.2.2.2)).sum := Finset.sum_comm
    _ ≤ _ := Finset.sum_le_sum fun i _ => Network.sum_join _ (fun x j => to_ j x) (fun x i j h1 h2 => by
        simp only [to_, decide_eq_true_eq] at h1 h2
        exact h.ids _ _ (h1.symm.trans h2)) _

namespace Network

theorem filter_approvals (l : List Ev) : approvals (l.filter Ev.bridge) = approvals l := by
  induction l with
  | nil => rfl
  | cons x l ih => unfold approvals at *; cases x <;> simp [List.filter_cons, Ev.bridge, ih]

theorem filter_announced (l : List Ev) : announced (l.filter Ev.bridge) = announced l := by
  induction l with
  | nil => rfl
  | cons x l ih => unfold announced at *; cases x <;> simp [List.filter_cons, Ev.bridge, ih]

/-- what an operation adds to the issuance is covered by approvals and mints of pallets outside -/
theorem supply_step (hc : c.Ok) (hr : Reach c w) (o : Op) (ho : o.Ok c) :
    (step c w o).bal.issuance + handedIn (step c w o).evs + released w.evs ≤
      w.bal.issuance + handedIn w.evs + released (step c w o).evs + outside [o] := by
  have hq : (step c w o).evs.filter Ev.bridge = w.evs.filter Ev.bridge →
      (step c w o).bal.issuance + handedIn (step c w o).evs + released w.evs ≤
        w.bal.issuance + handedIn w.evs + released (step c w o).evs + outside [o] := by
    intro he
    have e1 : handedIn (step c w o).evs = handedIn w.evs := by
      unfold handedIn; rw [← filter_announced, he, filter_announced]
    have e2 : released (step c w o).evs = released w.evs := by
      unfold released; rw [← filter_approvals, he, filter_approvals]
    have hm : ∀ k t, .approved k t ∈ (step c w o).evs → .approved k t ∈ w.evs := fun k t => (mem_bridge rfl he).1
    have hs := C61_change hc hr o ho
    have key : (step c w o).bal.issuance ≤ w.bal.issuance + outside [o] := by
      unfold Spec.Supply at hs
      split at hs
      · rcases hs with hs | ⟨h1, h2, _⟩
        · omega
        · exact absurd (hm _ _ h2) h1
      · rcases hs with hs | ⟨d, _, hs⟩ <;> omega
      · rcases hs with hs | hs <;> omega
      · obtain ⟨d, _, hs⟩ := hs; omega
      · simp only [outside, List.map_cons, List.map_nil, List.sum_cons, List.sum_nil]; omega
      · obtain ⟨d, _, hs⟩ := hs; omega
    omega
  have hs := step_br w o ho
  generalize step c w o = w' at *
  cases hs with
  | quiet e he => exact hq he
  | ext _ _ _ e he => exact hq he
  | @deposit a v r d n _ h1 h2 h3 e he =>
    obtain ⟨_, _, _, dust, _, _, hi⟩ := C55 hr (show dispatch c (.br (.deposit v r d)) (.signed a) w = .ok w' from h3)
    rw [he]
    have e1 : handedIn (.deposited d n r v :: w.evs) = v + handedIn w.evs := by simp [handedIn, announced]
    have e2 : released (.deposited d n r v :: w.evs) = released w.evs := by simp [released, approvals]
    rw [e1, e2]
    omega
  | @vote a k t x _ g1 g2 g3 g4 e he hb =>
    rw [he, hb]
    cases x.2 with
    | false =>
      simp [handedIn, released, announced, approvals]
    | true =>
      have := (Bal.mint_issuance (ed := c.ed) w.bal t.recipient t.amount).2.1
      simp [handedIn, released, announced, approvals]
      omega

theorem supply_run (hc : c.Ok) (hr : Reach c w) : ∀ l : List Op, (∀ o ∈ l, o.Ok c) →
    (run c w l).bal.issuance + handedIn (run c w l).evs + released w.evs ≤
      w.bal.issuance + handedIn w.evs + released (run c w l).evs + outside l := by
  intro l
  induction l generalizing w with
  | nil => intro _; simp [run, outside]
  | cons o l ih =>
    intro hl
    have ho := hl o (List.mem_cons_self ..)
    have h1 := supply_step hc hr o ho
    have h2 := ih (hr.step o ho) (fun o h => hl o (List.mem_cons_of_mem _ h))
    have e : outside (o :: l) = outside [o] + outside l := by simp [outside]
    rw [e]
    show (run c (step c w o) l).bal.issuance + handedIn (run c (step c w o) l).evs + released w.evs ≤ w.bal.issuance + handedIn w.evs +
      released (run c (step c w o) l).evs + (outside [o] + outside l)
    omega

end Network

/-- All tokens of all chains of the network together are never more than there were at the start, apart from what pallets outside mint. -/
theorem C156 [Fintype ι] {N : Spec.Network ι} {l : List (ι × Op)} (hc : ∀ i, (N.cfg i).Ok) (h : N.Proper l) (ht : N.Trusted l) :
    ∑ i, (N.after l i).bal.issuance ≤ ∑ i, (N.start i).bal.issuance + ∑ i, outside (share i l) := by
  have h1 := C156_paid h ht
  have h2 : ∀ i, (N.after l i).bal.issuance + handedIn (N.after l i).evs ≤
      (N.start i).bal.issuance + released (N.after l i).evs + outside (share i l) := by
    intro i
    have := Network.supply_run (hc i) (.init (h.genesis i)) _ (Network.share_ok h i)
    rw [(h.genesis i).evs] at this
    have e1 : handedIn [] = 0 := rfl
    have e2 : released [] = 0 := rfl
    unfold Spec.Network.after
    omega
  have h3 := Finset.sum_le_sum (s := Finset.univ) fun i _ => h2 i
  simp only [Finset.sum_add_distrib] at h3
  omega

namespace Demo

/-- two chains, with the ids 0 and 1; accounts are written as one byte -/
def two : Spec.Network Bool := ⟨fun b => if b then { cfg with chain := 1 } else cfg, fun _ => w0, fun r => r.headD 0⟩

/-- account 5 sends 700 tokens to account 7 on the other chain; relayers 1 and 2 vote for that, relayer 3 for something else -/
def crossing : List (Bool × Op) :=
  [(false, .call .root (.ext (.addChain 1))), (true, .call .root (.ext (.addChain 0))),
   (true, .call .root (.ext (.setRelayers [1, 2, 3]))), (false, by_ 5 (.br (.deposit 700 [7] 1))),
   (true, by_ 1 (.br (.vote 0 ⟨1, 7, 700⟩))), (true, by_ 3 (.br (.vote 0 ⟨9, 3, 5000⟩))), (true, by_ 2 (.br (.vote 0 ⟨1, 7, 700⟩)))]

theorem two_proper : two.Proper crossing where
  genesis i := by cases i <;> exact genesis_of rfl
  keys := by decide
  ids := by decide

theorem two_trusted : two.Trusted crossing := by
  intro j
  refine ⟨[3], fun v hv l1 l2 k t e => ?_, fun l1 h => ?_⟩
  · have e1 : l1 = crossing.take l1.length := by rw [e]; simp
    have e2 : crossing[l1.length]? = some (j, .call (.signed v) (.br (.vote k t))) := by rw [e]; simp
    have e3 : l1.length < 7 := by
      have := congrArg List.length e
      simp [crossing] at this
      omega
    generalize l1.length = n at e1 e2 e3
    subst e1
    have : n = 0 ∨ n = 1 ∨ n = 2 ∨ n = 3 ∨ n = 4 ∨ n = 5 ∨ n = 6 := by omega
    rcases this with rfl | rfl | rfl | rfl | rfl | rfl | rfl <;> simp [crossing, by_] at e2
    · obtain ⟨rfl, rfl, rfl, rfl⟩ := e2
      exact ⟨false, [7], rfl, by decide, rfl⟩
    · exact absurd e2.2.1.symm (by simpa using hv)
    · obtain ⟨rfl, rfl, rfl, rfl⟩ := e2
      exact ⟨false, [7], rfl, by decide, rfl⟩
  · have key : ∀ l1 ∈ List.inits crossing, ∀ j, [3].length < (two.after l1 j).br.threshold := by decide
    exact key l1 ((List.mem_inits _ _).2 h) j

end Demo

-- the transfer of 700 tokens is paid, the other one is not
example : (.approved 0 ⟨1, 7, 700⟩ ∈ (Demo.two.after Demo.crossing true).evs) ∧
    Demo.two.Owed Demo.crossing true 0 ⟨1, 7, 700⟩ ∧
    (∑ j, released (Demo.two.after Demo.crossing j).evs) ≤ ∑ i, handedIn (Demo.two.after Demo.crossing i).evs :=
  ⟨by decide, C156_owed Demo.two_proper Demo.two_trusted (by decide), C156_paid Demo.two_proper Demo.two_trusted⟩

example := C156 (N := Demo.two) (fun i => by cases i <;> exact ⟨Demo.cfg_ok.ed, Demo.cfg_ok.bid, Demo.cfg_ok.ar, Demo.cfg_ok.at_,
    Demo.cfg_ok.aw, Demo.cfg_ok.rt, Demo.cfg_ok.rw, Demo.cfg_ok.tw⟩) Demo.two_proper Demo.two_trusted
