import Verif.Props.BallotSpec
import Verif.Proofs.Override
import Verif.Props.Exit
/-
Lemmas for C127.
-/
open Spec

variable {c : Cfg} {w w' : World} {a : AccountId}

theorem FMap.erase_insert_self {K V : Type} [DecidableEq K] (m : FMap K V) (k : K) (v : V) : (m.insert k v).erase k = m.erase k := by
  simp [FMap.insert, FMap.erase, FMap.del, FMap.del_del]

namespace Ballots

variable {β : Type} [DecidableEq β]

/-- who is counted, of those who come in this order: those not counted before, as long as there is room -/
def enter (old : List β) (N : Nat) (m : List β) (s : β) : List β := if s ∉ old ∧ s ∉ m ∧ m.length < N then m ++ [s] else m

/-- nobody or somebody comes -/
def enterOpt (old : List β) (N : Nat) (m : List β) : Option β → List β
  | some s => enter old N m s
  | none => m

/-- the same without end -/
def note (old : List β) (m : List β) (s : β) : List β := if s ∉ old ∧ s ∉ m then m ++ [s] else m

theorem enter_take (old : List β) (N : Nat) (m : List β) (s : β) : enter old N (m.take N) s = (note old m s).take N := by
  unfold enter note
  by_cases hl : m.length < N
  · rw [List.take_of_length_le (by omega)]
    by_cases h : s ∉ old ∧ s ∉ m
    · rw [if_pos ⟨h.1, h.2, hl⟩, if_pos h, List.take_of_length_le (by simp; omega)]
    · rw [if_neg (fun x => h ⟨x.1, x.2.1⟩), if_neg h, List.take_of_length_le (by omega)]
  · rw [if_neg (by simp; omega)]
    split
    · rw [List.take_append_of_le_length (by omega)]
    · rfl

theorem fold_take (old : List β) (N : Nat) (l : List β) (m : List β) :
    l.foldl (enter old N) (m.take N) = (l.foldl (note old) m).take N := by
  induction l generalizing m with
  | nil => rfl
  | cons s t ih => simp only [List.foldl_cons, enter_take, ih]

theorem note_mem (old : List β) (l m : List β) (x : β) :
    x ∈ l.foldl (note old) m ↔ x ∈ m ∨ (x ∈ l ∧ x ∉ old) := by
  induction l generalizing m with
  | nil => simp
  | cons s t ih =>
    rw [List.foldl_cons, ih]
    unfold note
    split
    · rename_i h
      simp only [List.mem_append, List.mem_cons, List.not_mem_nil, or_false]
      constructor
      · rintro ((h1 | rfl) | h1)
        · exact .inl h1
        · exact .inr ⟨.inl rfl, h.1⟩
        · exact .inr ⟨.inr h1.1, h1.2⟩
      · rintro (h1 | ⟨rfl | h1, h2⟩)
        · exact .inl (.inl h1)
        · exact .inl (.inr rfl)
        · exact .inr ⟨h1, h2⟩
    · rename_i h
      simp only [List.mem_cons]
      constructor
      · rintro (h1 | h1)
        · exact .inl h1
        · exact .inr ⟨.inr h1.1, h1.2⟩
      · rintro (h1 | ⟨rfl | h1, h2⟩)
        · exact .inl h1
        · by_cases h3 : x ∈ m
          · exact .inl h3
          · exact absurd ⟨h2, h3⟩ h
        · exact .inr ⟨h1, h2⟩

theorem note_nodup (old : List β) (l m : List β) (h : m.Nodup) : (l.foldl (note old) m).Nodup := by
  induction l generalizing m with
  | nil => exact h
  | cons s t ih =>
    rw [List.foldl_cons]
    apply ih
    unfold note
    split
    · rename_i hs
      rw [List.nodup_append]
      refine ⟨h, by simp, ?_⟩
      intro x hx y hy
      simp only [List.mem_singleton] at hy
      rintro rfl; subst hy
      exact hs.2 hx
    · exact h

/-- how many are counted depends on who comes, not on the order or on who comes twice -/
theorem enter_length (old : List β) (N : Nat) {l l' : List β} (h : ∀ x, x ∈ l ↔ x ∈ l') :
    (l.foldl (enter old N) []).length = (l'.foldl (enter old N) []).length := by
  have e1 := fold_take old N l []
  have e2 := fold_take old N l' []
  rw [List.take_nil] at e1 e2
  rw [e1, e2, List.length_take, List.length_take]
  have : (l.foldl (note old) []).Perm (l'.foldl (note old) []) := by
    rw [List.perm_ext_iff_of_nodup (note_nodup old l [] List.nodup_nil) (note_nodup old l' [] List.nodup_nil)]
    intro x
    rw [note_mem, note_mem, h]
  rw [this.length_eq]

/-- a state described by who was counted -/
theorem held {b : Ballot} {id : AccountId → Option β} {old : List β} {N : Nat} {form : List β → World → Prop}
    {ok : AccountId → Prop} (h1 : ∀ m v a, ok a → form m v → m.length ≤ N → form (enterOpt old N m (id a)) (step c v (.call (.signed a) b.vote)))
    (h0 : form [] w) (l : List AccountId) (hl : ∀ a ∈ l, ok a) :
    form ((l.filterMap id).foldl (enter old N) []) (b.held c w l) := by
  have key : ∀ (l : List AccountId) (m : List β) (v : World), (∀ a ∈ l, ok a) → form m v → m.length ≤ N →
      form ((l.filterMap id).foldl (enter old N) m) (run c v (l.map fun a => .call (.signed a) b.vote)) := by
    intro l
    induction l with
    | nil => intro m v _ h _; exact h
    | cons a t ih =>
      intro m v hl h hm
      have h2 := h1 m v a (hl a (by simp)) h hm
      have ih := fun m v => ih m v fun x hx => hl x (by simp [hx])
      show form _ (run c (step c v (.call (.signed a) b.vote)) _)
      cases e : id a with
      | none =>
        rw [e] at h2
        rw [List.filterMap_cons_none e]
        exact ih _ _ h2 hm
      | some s =>
        rw [e] at h2
        rw [List.filterMap_cons_some e]
        refine ih _ _ h2 ?_
        dsimp only [enter]
        split
        · simp; omega
        · exact hm
  exact key l [] w hl h0 (Nat.zero_le _)

theorem ids_mem {id : AccountId → Option β} {l l' : List AccountId} (h : ∀ a, a ∈ l ↔ a ∈ l') (x : β) :
    x ∈ l.filterMap id ↔ x ∈ l'.filterMap id := by
  simp only [List.mem_filterMap, h]

/-- two ways to vote agree -/
def Agree (b : Ballot) (v v' : World) : Prop := b.others v = b.others v' ∧ b.count v = b.count v'

theorem agree {b : Ballot} {id : AccountId → Option β} {old : List β} {N : Nat} {form : List β → World → Prop}
    {ok : AccountId → Prop} (h1 : ∀ m v a, ok a → form m v → m.length ≤ N → form (enterOpt old N m (id a)) (step c v (.call (.signed a) b.vote)))
    (h0 : form [] w) (h2 : ∀ m m' v v', form m v → form m' v' → m.length = m'.length → Agree b v v')
    {l l' : List AccountId} (h : ∀ a, a ∈ l ↔ a ∈ l') (hl : ∀ a ∈ l, ok a) : Agree b (b.held c w l) (b.held c w l') :=
  h2 _ _ _ _ (held h1 h0 l hl) (held h1 h0 l' fun a ha => hl a ((h a).2 ha)) (enter_length old N (ids_mem h))

theorem idle {b : Ballot} (l : List AccountId) (h : ∀ a ∈ l, step c w (.call (.signed a) b.vote) = w) : b.held c w l = w := by
  induction l with
  | nil => rfl
  | cons a t ih =>
    show run c (step c w (.call (.signed a) b.vote)) _ = w
    rw [h a (by simp)]; exact ih fun x hx => h x (by simp [hx])

theorem idle_agree {b : Ballot} {l l' : List AccountId} (hm : ∀ a, a ∈ l ↔ a ∈ l')
    (h : ∀ a ∈ l, step c w (.call (.signed a) b.vote) = w) : Agree b (b.held c w l) (b.held c w l') := by
  rw [idle l h, idle l' fun a ha => h a ((hm a).2 ha)]; exact ⟨rfl, rfl⟩

theorem step_refused {v : World} {o : Origin} {x : Call} {e : Err} (h : dispatch c x o v = .error e) : step c v (.call o x) = v := by
  simp [step, h, orSame]

end Ballots
open Ballots

/-! ## transfers -/

namespace BrM

/-- the record of a transfer after `m` have voted on top of `old` -/
def rec' (thr : Nat) (old : List AccountId) (e : Block) (m : List AccountId) : Proposal :=
  { votes := old ++ m, expiry := e, approved := decide (thr ≤ (old ++ m).length) }

/-- the state after `m` have voted -/
def Form (c : Cfg) (w : World) (k : ChainId) (t : Transfer) (old : List AccountId) (e : Block) (m : List AccountId) (v : World) : Prop :=
  (m = [] ∧ v = { w with evs := v.evs }) ∨
  (m ≠ [] ∧ v = { w with
    br := { w.br with votes := w.br.votes.insert (k, t) (rec' w.br.threshold old e m) }
    bal := if w.br.threshold ≤ (old ++ m).length then w.bal.mint c.ed t.recipient t.amount else w.bal
    evs := v.evs })

theorem step_voted {k t x} {F : FMap (ChainId × Transfer) Proposal} {E : List Ev} (hr : a ∈ w.br.relayers) (hk : allowed w k)
    (hi : ∀ x, F.insert (k, t) x = w.br.votes.insert (k, t) x)
    (hx : vote c w a (F.get (k, t)) = .ok x) :
    ∃ E', step c { w with br := { w.br with votes := F }, evs := E } (.call (.signed a) (.br (.vote k t))) =
      { w with br := { w.br with votes := w.br.votes.insert (k, t) x.1 },
               bal := if x.2 = true then w.bal.mint c.ed t.recipient t.amount else w.bal, evs := E' } := by
  have hx' : vote c { w with br := { w.br with votes := F }, evs := E } a (F.get (k, t)) = .ok x := by
    rw [← hx]; cases F.get (k, t) <;> rfl
  have hk' : allowed { w with br := { w.br with votes := F }, evs := E } k := hk
  have e1 : dispatch c (.br (.vote k t)) (.signed a) { w with br := { w.br with votes := F }, evs := E } = .ok
      (payout c (({ w with br := { w.br with votes := w.br.votes.insert (k, t) x.1 }, evs := E } : World).ev (.voted k t a)) k t x.2) := by
    eval_ok [call, voteFor, hr, hk', hx', hi]
  simp only [step, e1, orSame]
  cases x.2 with
  | true => exact ⟨_, rfl⟩
  | false => exact ⟨_, rfl⟩

theorem step_unvoted {k t} {v : World} (h : a ∉ v.br.relayers ∨ ¬ allowed v k ∨ ∃ e, vote c v a (v.br.votes.get (k, t)) = .error e) :
    step c v (.call (.signed a) (.br (.vote k t))) = v := by
  have : ∃ e, dispatch c (.br (.vote k t)) (.signed a) v = .error e := by
    simp only [dispatch, signedCall, call, voteFor]
    by_cases h1 : a ∈ v.br.relayers
    · by_cases h2 : allowed v k
      · rcases h with h | h | ⟨e, h⟩
        · exact absurd h1 h
        · exact absurd h2 h
        · exact ⟨e, by simp [require, h1, h2, h, bind, Except.bind]⟩
      · exact ⟨_, by simp only [require, h1, h2, if_true, if_false, bind, Except.bind]; rfl⟩
    · exact ⟨_, by simp only [require, h1, if_false, bind, Except.bind]; rfl⟩
  obtain ⟨e, he⟩ := this
  exact step_refused he

theorem form_agree {k t old e} {m m' v v'} (h : Form c w k t old e m v) (h' : Form c w k t old e m' v') (hl : m.length = m'.length) :
    Agree (.transfer k t) v v' := by
  rcases h with ⟨h1, h2⟩ | ⟨h1, h2⟩ <;> rcases h' with ⟨h3, h4⟩ | ⟨h3, h4⟩
  · rw [h2, h4]; exact ⟨rfl, rfl⟩
  · subst h1; exact absurd (List.length_eq_zero_iff.1 hl.symm) h3
  · subst h3; exact absurd (List.length_eq_zero_iff.1 hl) h1
  · rw [h2, h4]
    refine ⟨?_, ?_⟩
    · simp only [Ballot.others, List.length_append, hl, FMap.erase_insert_self]
    · simp [Ballot.count, rec', hl]

/-- the number of votes a transfer can still get -/
def room (c : Cfg) (w : World) (old : List AccountId) (e : Block) : Nat :=
  if e ≤ w.now then min c.relayerLimit 1
  else min (c.relayerLimit - old.length) (max 1 (w.br.threshold - old.length))

/-- the record at first: there is none, or one that is open -/
def Open (c : Cfg) (w : World) (cur : Option Proposal) (old : List AccountId) (e : Block) : Prop :=
  (cur = none ∧ old = [] ∧ e = w.now + c.proposalLife) ∨ (cur = some ⟨old, e, false⟩ ∧ ¬ e ≤ w.now)

theorem vote_first {cur old e} (h : Open c w cur old e) : vote c w a cur =
    if a ∉ old ∧ 0 < room c w old e then .ok (complete w.br.threshold { votes := old ++ [a], expiry := e, approved := false })
    else vote c w a cur := by
  split
  · rename_i hx
    obtain ⟨h1, h2⟩ := hx
    unfold room at h2
    rcases h with ⟨rfl, rfl, rfl⟩ | ⟨rfl, h⟩
    · have : 1 ≤ c.relayerLimit := by split at h2 <;> simp at h2 <;> omega
      simp [vote, require, this, bind, Except.bind, pure, Except.pure]
    · rw [if_neg h] at h2
      have : old.length < c.relayerLimit := by omega
      simp [vote, require, this, h, h1, bind, Except.bind, pure, Except.pure]
  · rfl

theorem vote_first_no {cur old e} (h : Open c w cur old e) (hn : ¬ (a ∉ old ∧ 0 < room c w old e)) : ∃ x, vote c w a cur = .error x := by
  unfold room at hn
  rcases h with ⟨rfl, rfl, rfl⟩ | ⟨rfl, h⟩
  · have : ¬ 1 ≤ c.relayerLimit := by
      intro hl; apply hn; refine ⟨by simp, ?_⟩
      split <;> simp <;> omega
    exact ⟨_, by simp only [vote, require, this, if_false, bind, Except.bind]; rfl⟩
  · rw [if_neg h] at hn
    by_cases h1 : a ∈ old
    · exact ⟨_, by simp only [vote, require, h, h1, not_true, not_false_eq_true, if_true, if_false, bind, Except.bind]; rfl⟩
    · have : ¬ old.length < c.relayerLimit := by
        intro hl; apply hn; exact ⟨h1, by omega⟩
      exact ⟨_, by simp only [vote, require, h, h1, this, not_false_eq_true, if_true, if_false, bind, Except.bind]; rfl⟩

theorem vote_later {old e m} (hm : m ≠ []) (h : a ∉ old) (h' : a ∉ m) (hl : m.length < room c w old e) :
    vote c w a (some (rec' w.br.threshold old e m)) =
      .ok (complete w.br.threshold { votes := old ++ (m ++ [a]), expiry := e, approved := false }) := by
  have hp : 0 < m.length := List.length_pos_iff.2 hm
  unfold room at hl
  split at hl
  · omega
  · rename_i he
    have h1 : ¬ w.br.threshold ≤ old.length + m.length := by omega
    have h2 : old.length + m.length < c.relayerLimit := by omega
    simp [vote, rec', require, h, h', h1, h2, he, bind, Except.bind, pure, Except.pure]

theorem vote_later_no {old e m} (hm : m ≠ []) (hN : m.length ≤ room c w old e)
    (h : ¬ (a ∉ old ∧ a ∉ m ∧ m.length < room c w old e)) : ∃ x, vote c w a (some (rec' w.br.threshold old e m)) = .error x := by
  have hp : 0 < m.length := List.length_pos_iff.2 hm
  have key : vote c w a (some (rec' w.br.threshold old e m)) ≠
      .ok (complete w.br.threshold { rec' w.br.threshold old e m with votes := old ++ m ++ [a] }) := by
    intro hv
    simp only [vote, rec'] at hv
    inv_ok at hv
    obtain ⟨h1, h2, h3, h4, -⟩ := hv
    try replace h1 := Exec.require_ok.1 h1
    try replace h4 := Exec.require_ok.1 h4
    replace h2 := Exec.require_ok.1 h2
    replace h3 := Exec.require_ok.1 h3
    simp only [List.mem_append, not_or, decide_eq_false_iff_not, List.length_append] at h1 h3 h4
    apply h
    refine ⟨h3.1, h3.2, ?_⟩
    unfold room at hN ⊢
    rw [if_neg h2] at hN ⊢
    omega
  cases hv : vote c w a (some (rec' w.br.threshold old e m)) with
  | error x => exact ⟨x, rfl⟩
  | ok x =>
    exfalso; apply key
    rw [hv]
    simp only [vote] at hv
    inv_ok at hv
    obtain ⟨-, -, -, -, hv⟩ := hv
    rw [← hv]; rfl

/-- the next vote -/
theorem form_step {k t old e} (hk : allowed w k) (ho : Open c w (w.br.votes.get (k, t)) old e)
    {m v a} (hf : Form c w k t old e m v) (hm : m.length ≤ room c w old e) :
    Form c w k t old e (enterOpt old (room c w old e) m (if a ∈ w.br.relayers then some a else none)) (step c v (.call (.signed a) (.br (.vote k t)))) := by
  by_cases hr : a ∈ w.br.relayers
  · rw [if_pos hr]
    dsimp only [enterOpt, enter]
    rcases hf with ⟨h1, h2⟩ | ⟨h1, h2⟩
    · subst h1
      generalize v.evs = E at h2
      by_cases hx : a ∉ old ∧ 0 < room c w old e
      · have hv := vote_first (a := a) ho
        rw [if_pos hx] at hv
        obtain ⟨E', h3⟩ := step_voted (E := E) hr hk (fun _ => rfl) hv
        subst h2
        rw [if_pos ⟨hx.1, by simp, hx.2⟩]
        right
        refine ⟨by simp, ?_⟩
        rw [show step c { w with evs := E } _ = _ from h3]
        by_cases hh : w.br.threshold ≤ (old ++ [a]).length
        · simp only [complete, List.nil_append, rec', if_pos hh, hh, decide_true, if_true]
        · simp only [complete, List.nil_append, rec', if_neg hh, hh, decide_false, if_false, Bool.false_eq_true]
      · rw [if_neg (fun h => hx ⟨h.1, h.2.2⟩)]
        left
        subst h2
        rw [step_unvoted (.inr (.inr (vote_first_no (w := { w with evs := E }) ho hx)))]
        exact ⟨rfl, rfl⟩
    · by_cases hx : a ∉ old ∧ a ∉ m ∧ m.length < room c w old e
      · rw [if_pos hx]
        right
        refine ⟨by simp, ?_⟩
        have hd : ¬ w.br.threshold ≤ (old ++ m).length := by
          have hp : 0 < m.length := List.length_pos_iff.2 h1
          have h3 := hx.2.2
          unfold room at h3
          simp only [List.length_append]
          split at h3 <;> omega
        rw [if_neg hd] at h2
        generalize v.evs = E at h2
        have hv : vote c w a ((w.br.votes.insert (k, t) (rec' w.br.threshold old e m)).get (k, t)) =
            .ok (complete w.br.threshold { votes := old ++ (m ++ [a]), expiry := e, approved := false }) := by
          rw [FMap.get_insert_self]; exact vote_later h1 hx.1 hx.2.1 hx.2.2
        obtain ⟨E', h3⟩ := step_voted (E := E) hr hk (fun _ => by simp) hv
        subst h2
        rw [h3]
        by_cases hh : w.br.threshold ≤ (old ++ (m ++ [a])).length
        · simp only [complete, rec', if_pos hh, hh, decide_true, if_true]
        · simp only [complete, rec', if_neg hh, hh, decide_false, if_false, Bool.false_eq_true]
      · rw [if_neg hx]
        right
        refine ⟨h1, ?_⟩
        obtain ⟨x, hv⟩ := vote_later_no h1 hm hx
        rw [step_unvoted]
        · exact h2
        · right; right
          refine ⟨x, ?_⟩
          rw [h2]
          simp only [FMap.get_insert_self]
          exact hv
  · rw [if_neg hr]
    have : step c v (.call (.signed a) (.br (.vote k t))) = v := by
      apply step_unvoted
      left
      rcases hf with ⟨h1, h2⟩ | ⟨h1, h2⟩ <;> rw [h2] <;> exact hr
    rw [this]; exact hf

theorem transfer_agree {k t} {l l' : List AccountId} (h : ∀ a, a ∈ l ↔ a ∈ l') :
    Agree (.transfer k t) ((Ballot.transfer k t).held c w l) ((Ballot.transfer k t).held c w l') := by
  by_cases hk : allowed w k
  · by_cases hd : ∃ old e, Open c w (w.br.votes.get (k, t)) old e
    · obtain ⟨old, e, ho⟩ := hd
      exact agree (c := c) (b := .transfer k t) (id := fun a => if a ∈ w.br.relayers then some a else none) (old := old)
        (N := room c w old e) (form := Form c w k t old e) (ok := fun _ => True)
        (fun m v a _ hf hm => form_step hk ho hf hm) (.inl ⟨rfl, rfl⟩) (fun _ _ _ _ => form_agree) h (fun _ _ => trivial)
    · have hz : ∀ a, step c w (.call (.signed a) (Ballot.transfer k t).vote) = w := by
        intro a
        refine step_unvoted (.inr (.inr ?_))
        cases hp : w.br.votes.get (k, t) with
        | none => exact absurd ⟨[], _, .inl ⟨hp, rfl, rfl⟩⟩ hd
        | some p =>
          by_cases h1 : p.approved = false
          · by_cases h2 : p.expiry ≤ w.now
            · exact ⟨_, by simp only [vote, require, h1, h2, not_true, if_true, if_false, bind, Except.bind]; rfl⟩
            · refine absurd ⟨p.votes, p.expiry, .inr ⟨?_, h2⟩⟩ hd
              rw [hp, ← h1]
          · exact ⟨_, by simp only [vote, require, h1, if_false, bind, Except.bind]; rfl⟩
      exact idle_agree h fun a _ => hz a
  · have hz : ∀ a, step c w (.call (.signed a) (Ballot.transfer k t).vote) = w :=
      fun a => step_unvoted (.inr (.inl hk))
    exact idle_agree h fun a _ => hz a

end BrM

/-! ## transmissions -/

namespace TrM

/-- what happens when there are enough consents -/
def decision (c : Cfg) (w : World) (n : NFTId) (p : Protocol) : Except Err World :=
  match endBlock p with
  | some e =>
    if e ≤ w.now then transmit { w with tr := { w.tr with consents := w.tr.consents.erase n } } n
    else do
      let q ← enqueue c w.tr.queue n (some e)
      pure { w with tr := { w.tr with queue := q, consents := w.tr.consents.erase n } }
  | none => transmit { w with tr := { w.tr with consents := w.tr.consents.erase n } } n

theorem decision_base {n p} {F : FMap NFTId (List AccountId)} {E : List Ev} (hF : F.erase n = w.tr.consents.erase n) :
    decision c { w with tr := { w.tr with consents := F }, evs := E } n p = (decision c w n p).map fun D => { D with evs := E } := by
  have ht : transmit { w with tr := { w.tr with consents := F.erase n }, evs := E } n =
      (transmit { w with tr := { w.tr with consents := w.tr.consents.erase n } } n).map fun D => { D with evs := E } := by
    rw [hF]
    simp only [transmit]
    cases w.tr.trans.get n with
    | none => rfl
    | some t => cases w.nfts.get n <;> rfl
  unfold decision
  cases endBlock p with
  | none => exact ht
  | some e =>
    dsimp only
    split
    · exact ht
    · cases enqueue c w.tr.queue n (some e) with
      | error x => rfl
      | ok q => simp only [bind, Except.bind, pure, Except.pure, Except.map, hF]

theorem effect_eq {n p thr l} : consentEffect c w n p thr l a =
    if l.length < thr then
      .ok (({ w with tr := { w.tr with consents := w.tr.consents.insert n l } } : World).ev (.consentAdded n a))
    else (decision c w n p).map fun D =>
      if endBlock p = none ∨ (∃ e ∈ endBlock p, e ≤ w.now) then (D.ev (.consentAdded n a)).ev (.transmitted n)
      else D.ev (.consentAdded n a) := by
  unfold consentEffect decision
  split
  · rfl
  · cases endBlock p with
    | none =>
      dsimp only
      cases transmit _ n <;> simp [bind, Except.bind, pure, Except.pure, Except.map]
    | some e =>
      dsimp only
      by_cases he : e ≤ w.now
      · rw [if_pos he, if_pos he]
        cases transmit _ n <;> simp [bind, Except.bind, pure, Except.pure, Except.map, he]
      · rw [if_neg he, if_neg he]
        cases enqueue c w.tr.queue n (some e) <;> simp [bind, Except.bind, pure, Except.pure, Except.map, he, World.ev]

/-- the effect leaves a state that is known up to events -/
theorem effect_many {n p thr l} {F : FMap NFTId (List AccountId)} {E : List Ev} (hF : F.erase n = w.tr.consents.erase n)
    (hl : ¬ l.length < thr) {D : World} (hD : decision c w n p = .ok D) :
    ∃ E', consentEffect c { w with tr := { w.tr with consents := F }, evs := E } n p thr l a = .ok { D with evs := E' } := by
  rw [effect_eq, if_neg hl, decision_base hF, hD]
  dsimp only [Except.map]
  split <;> exact ⟨_, rfl⟩

theorem effect_fails {n p thr l} {F : FMap NFTId (List AccountId)} {E : List Ev} (hF : F.erase n = w.tr.consents.erase n)
    (hl : ¬ l.length < thr) {x : Err} (hD : decision c w n p = .error x) :
    consentEffect c { w with tr := { w.tr with consents := F }, evs := E } n p thr l a = .error x := by
  rw [effect_eq, if_neg hl, decision_base hF, hD]
  rfl

/-- consents to the transmission of the NFT are taken -/
structure Waits (w : World) (n : NFTId) (t : Transmission) (x : List AccountId × Nat) : Prop where
  nft : ∃ d, w.nfts.get n = some d ∧ d.st.transmission = true
  trans : w.tr.trans.get n = some t
  data : consentData t.protocol = some x
  open_ : kind t.protocol = .onConsentAtBlock → w.tr.queue.find n = none

theorem consent_eq {n t x} (h : Waits w n t x) {F : FMap NFTId (List AccountId)} {E : List Ev} :
    addConsent c { w with tr := { w.tr with consents := F }, evs := E } a n =
      if a ∈ x.1 ∧ a ∉ (F.get n).getD [] ∧ ((F.get n).getD []).length < c.trConsents then
        consentEffect c { w with tr := { w.tr with consents := F }, evs := E } n t.protocol x.2 ((F.get n).getD [] ++ [a]) a
      else addConsent c { w with tr := { w.tr with consents := F }, evs := E } a n := by
  obtain ⟨⟨d, h1, h2⟩, h3, h4, h5⟩ := h
  split
  · rename_i hx
    simp only [addConsent, h1, h2, h3, h4, getOr, require, hx, bind, Except.bind, if_true, not_false_eq_true]
    rw [if_pos h5]
  · rfl

theorem consent_no {n t x} (h : Waits w n t x) {F : FMap NFTId (List AccountId)} {E : List Ev}
    (hx : ¬ (a ∈ x.1 ∧ a ∉ (F.get n).getD [] ∧ ((F.get n).getD []).length < c.trConsents)) :
    ∃ e, addConsent c { w with tr := { w.tr with consents := F }, evs := E } a n = .error e := by
  cases hv : addConsent c { w with tr := { w.tr with consents := F }, evs := E } a n with
  | error e => exact ⟨e, rfl⟩
  | ok v =>
    exfalso
    obtain ⟨⟨d, h1, h2⟩, h3, h4, h5⟩ := h
    simp only [addConsent] at hv
    inv_ok at hv
    obtain ⟨d', t', x', _, _, e3, e4, _, g1, g2, g3, _⟩ := hv
    rw [h3] at e3; cases e3
    rw [h4] at e4; cases e4
    exact hx ⟨g1, g2, g3⟩

/-- the state after `m` have consented -/
def Form (c : Cfg) (w : World) (n : NFTId) (p : Protocol) (thr : Nat) (old m : List AccountId) (v : World) : Prop :=
  (m = [] ∧ v = { w with evs := v.evs }) ∨
  (m ≠ [] ∧ (old ++ m).length < thr ∧ v = { w with tr := { w.tr with consents := w.tr.consents.insert n (old ++ m) }, evs := v.evs }) ∨
  (m ≠ [] ∧ ¬ (old ++ m).length < thr ∧ ∃ D, decision c w n p = .ok D ∧ v = { D with evs := v.evs })

/-- the number of consents that can still be given -/
def room (c : Cfg) (w : World) (n : NFTId) (p : Protocol) (thr : Nat) (old : List AccountId) : Nat :=
  min (c.trConsents - old.length) (max 1 (thr - old.length) - (if (decision c w n p).isOk then 0 else 1))

theorem form_agree {n p thr old} {m m' v v'} (h : Form c w n p thr old m v) (h' : Form c w n p thr old m' v')
    (hl : m.length = m'.length) : Agree (.transmission n) v v' := by
  have hne : m = [] ↔ m' = [] := by rw [← List.length_eq_zero_iff, hl, List.length_eq_zero_iff]
  have hll : (old ++ m).length = (old ++ m').length := by simp [hl]
  rcases h with ⟨h1, h2⟩ | ⟨h1, h1', h2⟩ | ⟨h1, h1', D, hD, h2⟩ <;>
    rcases h' with ⟨h3, h4⟩ | ⟨h3, h3', h4⟩ | ⟨h3, h3', D', hD', h4⟩
  · rw [h2, h4]; exact ⟨rfl, rfl⟩
  · exact absurd (hne.1 h1) h3
  · exact absurd (hne.1 h1) h3
  · exact absurd (hne.2 h3) h1
  · rw [h2, h4]
    refine ⟨?_, ?_⟩
    · simp only [Ballot.others, FMap.erase_insert_self]
    · simp [Ballot.count, hl]
  · exact absurd (hll ▸ h1') h3'
  · exact absurd (hne.2 h3) h1
  · exact absurd (hll ▸ h3') h1'
  · rw [hD] at hD'; cases hD'
    rw [h2, h4]; exact ⟨rfl, rfl⟩

theorem ins_found {n : NFTId} {b : Block} {q : Queue} : (Queue.ins n b q).find n ≠ none := by
  induction q with
  | nil => simp [Queue.ins, Queue.find]
  | cons x t ih =>
    obtain ⟨m, y⟩ := x
    simp only [Queue.ins]
    split
    · simp [Queue.find]
    · simp only [Queue.find]
      split
      · simp
      · exact ih

/-- after the decision no consents are taken -/
theorem decided {n t x} (h : Waits w n t x) {D : World} (hD : decision c w n t.protocol = .ok D) {E : List Ev} :
    ∃ e, addConsent c { D with evs := E } a n = .error e := by
  cases hv : addConsent c { D with evs := E } a n with
  | error e => exact ⟨e, rfl⟩
  | ok v =>
    exfalso
    obtain ⟨⟨d, h1, h2⟩, h3, h4, h5⟩ := h
    have tr : ∀ F, transmit { w with tr := { w.tr with consents := F } } n = .ok D → D.tr.trans.get n = none := by
      intro F h
      simp only [transmit] at h
      inv_ok at h
      obtain ⟨_, _, _, _, rfl⟩ := h
      simp [World.putNft]
    simp only [addConsent] at hv
    inv_ok at hv
    obtain ⟨d', t', x', _, _, e3, e4, g0, g1, g2, g3, _⟩ := hv
    unfold decision at hD
    cases hp : t.protocol with
    | atBlock b => rw [hp] at h4; cases h4
    | atBlockWithReset b => rw [hp] at h4; cases h4
    | onConsent l k =>
      rw [hp] at hD
      have := tr _ hD
      rw [this] at e3; cases e3
    | onConsentAtBlock l k b =>
      rw [hp] at hD
      simp only [endBlock] at hD
      split at hD
      · have := tr _ hD
        rw [this] at e3; cases e3
      · inv_ok at hD
        obtain ⟨q, hq, rfl⟩ := hD
        simp only [enqueue] at hq
        inv_ok at hq
        obtain ⟨_, hq⟩ := hq
        rw [h3] at e3; cases e3
        rw [hp] at g0
        have hf : q.find n = none := g0 rfl
        simp only [Queue.insert] at hq
        split at hq
        · cases hq; exact ins_found hf
        · cases hq

theorem form_step {n t x} (h : Waits w n t x) {m v a}
    (hf : Form c w n t.protocol x.2 ((w.tr.consents.get n).getD []) m v)
    (hm : m.length ≤ room c w n t.protocol x.2 ((w.tr.consents.get n).getD [])) :
    Form c w n t.protocol x.2 ((w.tr.consents.get n).getD [])
      (enterOpt ((w.tr.consents.get n).getD []) (room c w n t.protocol x.2 ((w.tr.consents.get n).getD [])) m
        (if a ∈ x.1 then some a else none)) (step c v (.call (.signed a) (.tr (.addConsent n)))) := by
  generalize ho : (w.tr.consents.get n).getD [] = old at hf hm ⊢
  have hdis : ∀ v, dispatch c (.tr (.addConsent n)) (.signed a) v = addConsent c v a n := fun _ => rfl
  -- refusals
  have hno : (∃ e, addConsent c v a n = .error e) → (a ∈ x.1 → ¬ (a ∉ old ∧ a ∉ m ∧ m.length < room c w n t.protocol x.2 old)) →
      Form c w n t.protocol x.2 old (enterOpt old (room c w n t.protocol x.2 old) m (if a ∈ x.1 then some a else none))
        (step c v (.call (.signed a) (.tr (.addConsent n)))) := by
    rintro ⟨e, he⟩ hx
    rw [step_refused ((hdis v).trans he)]
    split
    · rename_i hx'
      simp only [enterOpt, enter]
      rw [if_neg (hx hx')]; exact hf
    · exact hf
  have open_ : ∀ (F : FMap NFTId (List AccountId)), (∀ l, F.insert n l = w.tr.consents.insert n l) →
      F.erase n = w.tr.consents.erase n → (F.get n).getD [] = old ++ m → (m = [] ∨ (old ++ m).length < x.2) →
      v = { w with tr := { w.tr with consents := F }, evs := v.evs } →
      Form c w n t.protocol x.2 old (enterOpt old (room c w n t.protocol x.2 old) m (if a ∈ x.1 then some a else none))
        (step c v (.call (.signed a) (.tr (.addConsent n)))) := by
    intro F hi he hg hu hv
    generalize v.evs = E at hv
    subst hv
    by_cases hx : a ∈ x.1 ∧ a ∉ (F.get n).getD [] ∧ ((F.get n).getD []).length < c.trConsents
    · have e1 := consent_eq (c := c) (a := a) h (F := F) (E := E)
      rw [if_pos hx, hg] at e1
      rw [hg] at hx
      obtain ⟨x1, x2, x3⟩ := hx
      simp only [List.mem_append, not_or, List.length_append] at x2 x3
      rw [if_pos x1]
      by_cases hl : (old ++ m ++ [a]).length < x.2
      · have hr : m.length < room c w n t.protocol x.2 old := by
          unfold room
          simp only [List.length_append, List.length_singleton] at hl
          split <;> omega
        simp only [enterOpt, enter]
        rw [if_pos ⟨x2.1, x2.2, hr⟩]
        right; left
        refine ⟨by simp, by rw [← List.append_assoc]; exact hl, ?_⟩
        rw [effect_eq, if_pos hl] at e1
        simp only [step, hdis, e1, orSame, hi, List.append_assoc]
        rfl
      · cases hD : decision c w n t.protocol with
        | error z =>
          have e2 := effect_fails (a := a) (E := E) he hl hD
          rw [if_pos x1] at hno
          refine hno ⟨z, e1.trans e2⟩ fun _ hz => ?_
          have := hz.2.2
          unfold room at this
          simp only [hD, List.length_append, List.length_singleton, Except.isOk, Except.toBool] at this hl
          rcases hu with rfl | hu
          · simp at this hl; omega
          · simp only [List.length_append] at hu
            simp at this; omega
        | ok D =>
          obtain ⟨E', e2⟩ := effect_many (a := a) (E := E) he hl hD
          have hr : m.length < room c w n t.protocol x.2 old := by
            unfold room
            simp only [hD, Except.isOk, Except.toBool, if_true]
            rcases hu with rfl | hu
            · simp at x3 ⊢; omega
            · simp only [List.length_append] at hu; omega
          simp only [enterOpt, enter]
          rw [if_pos ⟨x2.1, x2.2, hr⟩]
          right; right
          refine ⟨by simp, by rw [← List.append_assoc]; exact hl, D, hD, ?_⟩
          simp only [step, hdis, e1.trans e2, orSame]
    · obtain ⟨e, e1⟩ := consent_no (c := c) (a := a) h (F := F) (E := E) hx
      rw [hg] at hx
      refine hno ⟨e, e1⟩ fun h1 h2 => hx ⟨h1, ?_, ?_⟩
      · simp only [List.mem_append, not_or]; exact ⟨h2.1, h2.2.1⟩
      · have := h2.2.2
        unfold room at this
        simp only [List.length_append]
        omega
  rcases hf with ⟨h1, h2⟩ | ⟨h1, h1', h2⟩ | ⟨h1, h1', D, hD, h2⟩
  · subst h1
    exact open_ w.tr.consents (fun _ => rfl) rfl (by rw [ho]; simp) (.inl rfl) h2
  · exact open_ (w.tr.consents.insert n (old ++ m)) (fun _ => by simp) (FMap.erase_insert_self ..) (by simp) (.inr h1') h2
  · refine hno ?_ fun _ hz => ?_
    · rw [h2]; exact decided h hD
    · have := hz.2.2
      have hp : 0 < m.length := List.length_pos_iff.2 h1
      unfold room at this
      simp only [List.length_append] at h1'
      omega

theorem transmission_agree {n} {l l' : List AccountId} (h : ∀ a, a ∈ l ↔ a ∈ l') :
    Agree (.transmission n) ((Ballot.transmission n).held c w l) ((Ballot.transmission n).held c w l') := by
  by_cases hw : ∃ t x, Waits w n t x
  · obtain ⟨t, x, hw⟩ := hw
    exact agree (c := c) (b := .transmission n) (id := fun a => if a ∈ x.1 then some a else none)
      (old := (w.tr.consents.get n).getD []) (N := room c w n t.protocol x.2 ((w.tr.consents.get n).getD []))
      (form := Form c w n t.protocol x.2 ((w.tr.consents.get n).getD [])) (ok := fun _ => True)
      (fun m v a _ hf hm => form_step hw hf hm) (.inl ⟨rfl, rfl⟩) (fun _ _ _ _ => form_agree) h (fun _ _ => trivial)
  · have hz : ∀ a, step c w (.call (.signed a) (Ballot.transmission n).vote) = w := by
      intro a
      cases hv : addConsent c w a n with
      | error e => exact step_refused (show dispatch c (.tr (.addConsent n)) (.signed a) w = .error e from hv)
      | ok v =>
        exfalso
        simp only [addConsent] at hv
        inv_ok at hv
        obtain ⟨d', t', x', g1, g2, e3, e4, g0, _⟩ := hv
        exact hw ⟨t', x', ⟨d', g1, g2⟩, e3, e4, g0⟩
    exact idle_agree h fun a _ => hz a

end TrM

/-! ## shards of secret -/

namespace NftM.SecretVote

/-- the state after the shards `m` were taken -/
def Form (c : Cfg) (w : World) (n : NFTId) (d : NFTData) (kk : ClusterId) (old m : List (ClusterId × AccountId)) (v : World) : Prop :=
  (∀ s ∈ m, s.1 = kk) ∧
  ((m = [] ∧ v = w) ∨
   (m ≠ [] ∧ (old ++ m).length < c.shards ∧
      v = { w with nfts := w.nfts.insert n d, nft := { w.nft with secretShards := w.nft.secretShards.insert n (old ++ m) } }) ∨
   (m ≠ [] ∧ ¬ (old ++ m).length < c.shards ∧
      v = { w with nfts := w.nfts.insert n { d with st := { d.st with syncSecret := false } },
                   nft := { w.nft with secretShards := w.nft.secretShards.erase n } }))

theorem form_agree {n d kk old} {m m' v v'} (h : Form c w n d kk old m v) (h' : Form c w n d kk old m' v')
    (hl : m.length = m'.length) : Agree (.secret n) v v' := by
  have hne : m = [] ↔ m' = [] := by rw [← List.length_eq_zero_iff, hl, List.length_eq_zero_iff]
  have hll : (old ++ m).length = (old ++ m').length := by simp [hl]
  rcases h with ⟨_, ⟨h1, h2⟩ | ⟨h1, h1', h2⟩ | ⟨h1, h1', h2⟩⟩ <;>
    rcases h' with ⟨_, ⟨h3, h4⟩ | ⟨h3, h3', h4⟩ | ⟨h3, h3', h4⟩⟩
  · rw [h2, h4]; exact ⟨rfl, rfl⟩
  · exact absurd (hne.1 h1) h3
  · exact absurd (hne.1 h1) h3
  · exact absurd (hne.2 h3) h1
  · rw [h2, h4]
    refine ⟨?_, ?_⟩
    · simp only [Ballot.others, FMap.erase_insert_self]
    · simp [Ballot.count, hl]
  · exact absurd (hll ▸ h1') h3'
  · exact absurd (hne.2 h3) h1
  · exact absurd (hll ▸ h3') h1'
  · rw [h2, h4]; exact ⟨rfl, rfl⟩

theorem form_step {n d kk} (hd : w.nfts.get n = some d) (hk : d.st.secret = true) (hs : d.st.syncSecret = true)
    (h0 : w.nft.secretShards.get n ≠ some []) (hh : ∀ s ∈ ((w.nft.secretShards.get n).getD []).head?, s.1 = kk) {m v a}
    (ha : ∀ s, ensureEnclave w a = some s → s.1 = kk)
    (hf : Form c w n d kk ((w.nft.secretShards.get n).getD []) m v) (hm : m.length ≤ c.shards - ((w.nft.secretShards.get n).getD []).length) :
    Form c w n d kk ((w.nft.secretShards.get n).getD [])
      (enterOpt ((w.nft.secretShards.get n).getD []) (c.shards - ((w.nft.secretShards.get n).getD []).length) m (ensureEnclave w a))
      (step c v (.call (.signed a) (.nft (.addSecretShard n)))) := by
  generalize ho : (w.nft.secretShards.get n).getD [] = old at hf hm hh ⊢
  have hdis : ∀ v, dispatch c (.nft (.addSecretShard n)) (.signed a) v = addSecretShard c v a n := fun _ => rfl
  obtain ⟨hkk, hf'⟩ := hf
  have hen : ensureEnclave v a = ensureEnclave w a := by
    rcases hf' with ⟨h1, h2⟩ | ⟨h1, h1', h2⟩ | ⟨h1, h1', h2⟩ <;> rw [h2] <;> rfl
  cases hE : ensureEnclave w a with
  | none =>
    have : ∃ e, addSecretShard c v a n = .error e := ⟨_, by simp only [addSecretShard, hen, hE, getOr, bind, Except.bind]; rfl⟩
    obtain ⟨e, he⟩ := this
    rw [step_refused ((hdis v).trans he)]
    exact ⟨hkk, hf'⟩
  | some s =>
    have hsk := ha s hE
    have hno : (∃ e, addSecretShard c v a n = .error e) → ¬ (s ∉ old ∧ s ∉ m ∧ m.length < c.shards - old.length) →
        Form c w n d kk old (enterOpt old (c.shards - old.length) m (some s)) (step c v (.call (.signed a) (.nft (.addSecretShard n)))) := by
      rintro ⟨e, he⟩ hx
      rw [step_refused ((hdis v).trans he)]
      simp only [enterOpt, enter]
      rw [if_neg hx]; exact ⟨hkk, hf'⟩
    have open_ : ∀ (F : FMap NFTId (List (ClusterId × AccountId))) (G : FMap NFTId NFTData), G.get n = some d →
        (∀ x, G.insert n x = w.nfts.insert n x) → (∀ l, F.insert n l = w.nft.secretShards.insert n l) →
        F.erase n = w.nft.secretShards.erase n → (F.get n).getD [] = old ++ m → F.get n ≠ some [] →
        (m = [] ∨ (old ++ m).length < c.shards) → v = { w with nfts := G, nft := { w.nft with secretShards := F } } →
        Form c w n d kk old (enterOpt old (c.shards - old.length) m (some s)) (step c v (.call (.signed a) (.nft (.addSecretShard n)))) := by
      intro F G hG hi hi2 he hg hg0 hu hv
      have hp : pushShard c (F.get n) s =
          if s ∉ old ∧ s ∉ m ∧ m.length < c.shards - old.length then
            .ok (if (old ++ m ++ [s]).length = c.shards then none else some (old ++ m ++ [s]))
          else pushShard c (F.get n) s := by
        split
        · rename_i hx
          obtain ⟨x1, x2, x3⟩ := hx
          cases hF : F.get n with
          | none =>
            rw [hF] at hg
            have e0 : old ++ m = [] := hg.symm
            have e1 : 0 < c.shards := by omega
            rw [e0]
            simp [pushShard, require, e1, bind, Except.bind, pure, Except.pure]
          | some l =>
            rw [hF] at hg
            have e0 : l = old ++ m := hg
            subst e0
            cases hhd : (old ++ m).head? with
            | none =>
              rw [List.head?_eq_none_iff] at hhd
              exact absurd (hF.trans (by rw [hhd])) hg0
            | some h =>
              have : s.1 = h.1 := by
                rw [hsk]
                cases hol : old with
                | nil =>
                  rw [hol] at hhd
                  exact (hkk h (List.mem_of_mem_head? hhd)).symm
                | cons y r =>
                  rw [hol] at hhd
                  exact (hh h (by rw [hol]; exact hhd)).symm
              have l1 : (old ++ m).length < c.shards := by simp only [List.length_append]; omega
              have l2 : s ∉ old ++ m := by simp only [List.mem_append, not_or]; exact ⟨x1, x2⟩
              simp only [pushShard, hhd, expectSome, require, this, l1, l2, not_false_eq_true, if_true, bind, Except.bind, pure, Except.pure]
        · rfl
      by_cases hx : s ∉ old ∧ s ∉ m ∧ m.length < c.shards - old.length
      · rw [if_pos hx] at hp
        have e1 : addSecretShard c v a n = .ok { w with
            nfts := w.nfts.insert n { d with st := { d.st with syncSecret := !decide ((old ++ m ++ [s]).length = c.shards) } },
            nft := { w.nft with secretShards := FMap.set w.nft.secretShards n (if (old ++ m ++ [s]).length = c.shards then none else some (old ++ m ++ [s])) } } := by
          subst hv
          have hen' : ensureEnclave ({ w with nfts := G, nft := { w.nft with secretShards := F } } : World) a = some s := hen.trans hE
          simp only [addSecretShard, hen', hG, hk, hs, hp, getOr, require, mapErr, if_true, bind, Except.bind, pure, Except.pure, World.putNft, hi]
          by_cases hl : (old ++ m ++ [s]).length = c.shards
          · simp only [hl, if_true, FMap.set, he, Option.isSome_none, decide_true, Bool.not_true]
          · simp only [hl, if_false, FMap.set, hi2, Option.isSome_some, decide_false, Bool.not_false]
        simp only [enterOpt, enter]
        rw [if_pos hx]
        simp only [step, hdis, e1, orSame]
        refine ⟨?_, .inr ?_⟩
        · intro y hy
          rcases List.mem_append.1 hy with hy | hy
          · exact hkk y hy
          · simp only [List.mem_singleton] at hy; rw [hy]; exact hsk
        · have hlen : (old ++ m ++ [s]).length ≤ c.shards := by
            simp only [List.length_append, List.length_singleton]; omega
          have hd' : ({ d with st := { d.st with syncSecret := true } } : NFTData) = d := by rw [← hs]
          by_cases hl : (old ++ m ++ [s]).length = c.shards
          · right
            refine ⟨by simp, by rw [← List.append_assoc]; omega, ?_⟩
            simp only [hl, if_true, FMap.set, decide_true, Bool.not_true]
          · left
            refine ⟨by simp, by rw [← List.append_assoc]; omega, ?_⟩
            simp only [hl, if_false, FMap.set, decide_false, Bool.not_false, hd', ← List.append_assoc]
      · refine hno ?_ hx
        cases hv' : addSecretShard c v a n with
        | error e => exact ⟨e, rfl⟩
        | ok v' =>
          exfalso; apply hx
          subst hv
          have hen' : ensureEnclave ({ w with nfts := G, nft := { w.nft with secretShards := F } } : World) a = some s := hen.trans hE
          simp only [addSecretShard, hen', hG, hk, hs, getOr, require, if_true, bind, Except.bind] at hv'
          have hpo : ∃ y, pushShard c (F.get n) s = .ok y := by
            cases hps : pushShard c (F.get n) s with
            | ok y => exact ⟨y, rfl⟩
            | error e => rw [hps] at hv'; cases e <;> cases hv'
          obtain ⟨y, hy⟩ := hpo
          cases hF : F.get n with
          | none =>
            rw [hF] at hg hy
            have e0 : old ++ m = [] := hg.symm
            simp only [List.append_eq_nil_iff] at e0
            simp only [pushShard] at hy
            inv_ok at hy
            rw [e0.1, e0.2]
            refine ⟨by simp, by simp, ?_⟩
            simp only [List.length_nil]
            have := hy.1
            omega
          | some l =>
            rw [hF] at hg hy
            have e0 : l = old ++ m := hg
            subst e0
            simp only [pushShard] at hy
            inv_ok at hy
            obtain ⟨_, _, _, g1, g2, _⟩ := hy
            simp only [List.mem_append, not_or, List.length_append] at g1 g2
            exact ⟨g2.1, g2.2, by omega⟩
    have hf2 := hf'
    rcases hf' with ⟨h1, h2⟩ | ⟨h1, h1', h2⟩ | ⟨h1, h1', h2⟩
    · subst h1
      exact open_ w.nft.secretShards w.nfts hd (fun _ => rfl) (fun _ => rfl) rfl (by rw [ho]; simp) h0 (.inl rfl) h2
    · exact open_ (w.nft.secretShards.insert n (old ++ m)) (w.nfts.insert n d) (by simp) (fun _ => by simp) (fun _ => by simp)
        (FMap.erase_insert_self ..) (by simp) (by simp; intro _ h; exact absurd h h1) (.inr h1') h2
    · refine hno ?_ fun hz => ?_
      · refine ⟨.e "NFTAlreadySynced", ?_⟩
        have hen' := hen.trans hE
        have hg : v.nfts.get n = some { d with st := { d.st with syncSecret := false } } := by rw [h2]; simp
        simp only [addSecretShard, hen', hg, hk, getOr, require, if_true, if_false, bind, Except.bind, Bool.false_eq_true]
      · have := hz.2.2
        have hp : 0 < m.length := List.length_pos_iff.2 h1
        simp only [List.length_append] at h1'
        omega

theorem agree {n} {l l' : List AccountId} (h : ∀ a, a ∈ l ↔ a ∈ l') (hl : OneCluster w l) :
    Agree (.secret n) ((Ballot.secret n).held c w l) ((Ballot.secret n).held c w l') := by
  have refused : ∀ a, (∀ v, addSecretShard c w a n ≠ .ok v) → step c w (.call (.signed a) (Ballot.secret n).vote) = w := by
    intro a hv
    cases he : addSecretShard c w a n with
    | error e => exact step_refused (show dispatch c (.nft (.addSecretShard n)) (.signed a) w = .error e from he)
    | ok v => exact absurd he (hv v)
  have same : ∀ a ∈ l, ∀ b ∈ l, ∀ s s', ensureEnclave w a = some s → ensureEnclave w b = some s' → s.1 = s'.1 := by
    intro a ha b hb s s' e1 e2
    simp only [ensureEnclave, Option.bind_eq_bind, Option.bind_eq_some_iff, Option.pure_def, Option.some.injEq] at e1 e2
    obtain ⟨p, p1, k, p2, rfl⟩ := e1
    obtain ⟨q, q1, k', q2, rfl⟩ := e2
    exact hl a ha b hb p q k k' p1 q1 p2 q2
  by_cases hex : ∃ a ∈ l, ∃ s, ensureEnclave w a = some s
  · obtain ⟨b, hb, s0, hs0⟩ := hex
    by_cases hw : ∃ d, w.nfts.get n = some d ∧ d.st.secret = true ∧ d.st.syncSecret = true ∧ w.nft.secretShards.get n ≠ some [] ∧
        ∀ s ∈ ((w.nft.secretShards.get n).getD []).head?, s.1 = s0.1
    · obtain ⟨d, h1, h2, h3, h4, h5⟩ := hw
      exact Ballots.agree (c := c) (b := .secret n) (id := ensureEnclave w) (old := (w.nft.secretShards.get n).getD [])
        (N := c.shards - ((w.nft.secretShards.get n).getD []).length) (form := Form c w n d s0.1 ((w.nft.secretShards.get n).getD []))
        (ok := fun a => ∀ s, ensureEnclave w a = some s → s.1 = s0.1)
        (fun m v a ha hf hm => form_step h1 h2 h3 h4 h5 ha hf hm) ⟨by simp, .inl ⟨rfl, rfl⟩⟩ (fun _ _ _ _ => form_agree) h
        (fun a ha s hs => same a ha b hb s s0 hs hs0)
    · refine idle_agree h fun a ha => refused a fun v hv => hw ?_
      simp only [addSecretShard] at hv
      inv_ok at hv
      obtain ⟨s, d, l0, hs, hd, g1, g2, hp, _⟩ := hv
      refine ⟨d, hd, g1, g2, ?_, ?_⟩
      · intro h0
        rw [h0] at hp
        simp [pushShard, expectSome, bind, Except.bind] at hp
      · intro y hy
        cases hc : w.nft.secretShards.get n with
        | none => rw [hc] at hy; cases hy
        | some r =>
          rw [hc] at hy hp
          have hy' : r.head? = some y := hy
          simp only [pushShard] at hp
          inv_ok at hp
          obtain ⟨z, hz, e1, _⟩ := hp
          rw [hy', Option.some.injEq] at hz
          rw [← same a ha b hb s s0 hs hs0, e1, hz]
  · refine idle_agree h fun a ha => refused a fun v hv => hex ?_
    simp only [addSecretShard] at hv
    inv_ok at hv
    obtain ⟨s, d, l0, hs, hd, g1, g2, hp, _⟩ := hv
    exact ⟨a, ha, s, hs⟩

end NftM.SecretVote

/-! ## shards of capsule -/

namespace NftM.CapsuleVote

/-- the state after the shards `m` were taken -/
def Form (c : Cfg) (w : World) (n : NFTId) (d : NFTData) (kk : ClusterId) (old m : List (ClusterId × AccountId)) (v : World) : Prop :=
  (∀ s ∈ m, s.1 = kk) ∧
  ((m = [] ∧ v = w) ∨
   (m ≠ [] ∧ (old ++ m).length < c.shards ∧
      v = { w with nfts := w.nfts.insert n d, nft := { w.nft with capsuleShards := w.nft.capsuleShards.insert n (old ++ m) } }) ∨
   (m ≠ [] ∧ ¬ (old ++ m).length < c.shards ∧
      v = { w with nfts := w.nfts.insert n { d with st := { d.st with syncCapsule := false } },
                   nft := { w.nft with capsuleShards := w.nft.capsuleShards.erase n } }))

theorem form_agree {n d kk old} {m m' v v'} (h : Form c w n d kk old m v) (h' : Form c w n d kk old m' v')
    (hl : m.length = m'.length) : Agree (.capsule n) v v' := by
  have hne : m = [] ↔ m' = [] := by rw [← List.length_eq_zero_iff, hl, List.length_eq_zero_iff]
  have hll : (old ++ m).length = (old ++ m').length := by simp [hl]
  rcases h with ⟨_, ⟨h1, h2⟩ | ⟨h1, h1', h2⟩ | ⟨h1, h1', h2⟩⟩ <;>
    rcases h' with ⟨_, ⟨h3, h4⟩ | ⟨h3, h3', h4⟩ | ⟨h3, h3', h4⟩⟩
  · rw [h2, h4]; exact ⟨rfl, rfl⟩
  · exact absurd (hne.1 h1) h3
  · exact absurd (hne.1 h1) h3
  · exact absurd (hne.2 h3) h1
  · rw [h2, h4]
    refine ⟨?_, ?_⟩
    · simp only [Ballot.others, FMap.erase_insert_self]
    · simp [Ballot.count, hl]
  · exact absurd (hll ▸ h1') h3'
  · exact absurd (hne.2 h3) h1
  · exact absurd (hll ▸ h3') h1'
  · rw [h2, h4]; exact ⟨rfl, rfl⟩

theorem form_step {n d kk} (hd : w.nfts.get n = some d) (hk : d.st.capsule = true) (hs : d.st.syncCapsule = true)
    (h0 : w.nft.capsuleShards.get n ≠ some []) (hh : ∀ s ∈ ((w.nft.capsuleShards.get n).getD []).head?, s.1 = kk) {m v a}
    (ha : ∀ s, ensureEnclave w a = some s → s.1 = kk)
    (hf : Form c w n d kk ((w.nft.capsuleShards.get n).getD []) m v) (hm : m.length ≤ c.shards - ((w.nft.capsuleShards.get n).getD []).length) :
    Form c w n d kk ((w.nft.capsuleShards.get n).getD [])
      (enterOpt ((w.nft.capsuleShards.get n).getD []) (c.shards - ((w.nft.capsuleShards.get n).getD []).length) m (ensureEnclave w a))
      (step c v (.call (.signed a) (.nft (.addCapsuleShard n)))) := by
  generalize ho : (w.nft.capsuleShards.get n).getD [] = old at hf hm hh ⊢
  have hdis : ∀ v, dispatch c (.nft (.addCapsuleShard n)) (.signed a) v = addCapsuleShard c v a n := fun _ => rfl
  obtain ⟨hkk, hf'⟩ := hf
  have hen : ensureEnclave v a = ensureEnclave w a := by
    rcases hf' with ⟨h1, h2⟩ | ⟨h1, h1', h2⟩ | ⟨h1, h1', h2⟩ <;> rw [h2] <;> rfl
  cases hE : ensureEnclave w a with
  | none =>
    have : ∃ e, addCapsuleShard c v a n = .error e := ⟨_, by simp only [addCapsuleShard, hen, hE, getOr, bind, Except.bind]; rfl⟩
    obtain ⟨e, he⟩ := this
    rw [step_refused ((hdis v).trans he)]
    exact ⟨hkk, hf'⟩
  | some s =>
    have hsk := ha s hE
    have hno : (∃ e, addCapsuleShard c v a n = .error e) → ¬ (s ∉ old ∧ s ∉ m ∧ m.length < c.shards - old.length) →
        Form c w n d kk old (enterOpt old (c.shards - old.length) m (some s)) (step c v (.call (.signed a) (.nft (.addCapsuleShard n)))) := by
      rintro ⟨e, he⟩ hx
      rw [step_refused ((hdis v).trans he)]
      simp only [enterOpt, enter]
      rw [if_neg hx]; exact ⟨hkk, hf'⟩
    have open_ : ∀ (F : FMap NFTId (List (ClusterId × AccountId))) (G : FMap NFTId NFTData), G.get n = some d →
        (∀ x, G.insert n x = w.nfts.insert n x) → (∀ l, F.insert n l = w.nft.capsuleShards.insert n l) →
        F.erase n = w.nft.capsuleShards.erase n → (F.get n).getD [] = old ++ m → F.get n ≠ some [] →
        (m = [] ∨ (old ++ m).length < c.shards) → v = { w with nfts := G, nft := { w.nft with capsuleShards := F } } →
        Form c w n d kk old (enterOpt old (c.shards - old.length) m (some s)) (step c v (.call (.signed a) (.nft (.addCapsuleShard n)))) := by
      intro F G hG hi hi2 he hg hg0 hu hv
      have hp : pushShard c (F.get n) s =
          if s ∉ old ∧ s ∉ m ∧ m.length < c.shards - old.length then
            .ok (if (old ++ m ++ [s]).length = c.shards then none else some (old ++ m ++ [s]))
          else pushShard c (F.get n) s := by
        split
        · rename_i hx
          obtain ⟨x1, x2, x3⟩ := hx
          cases hF : F.get n with
          | none =>
            rw [hF] at hg
            have e0 : old ++ m = [] := hg.symm
            have e1 : 0 < c.shards := by omega
            rw [e0]
            simp [pushShard, require, e1, bind, Except.bind, pure, Except.pure]
          | some l =>
            rw [hF] at hg
            have e0 : l = old ++ m := hg
            subst e0
            cases hhd : (old ++ m).head? with
            | none =>
              rw [List.head?_eq_none_iff] at hhd
              exact absurd (hF.trans (by rw [hhd])) hg0
            | some h =>
              have : s.1 = h.1 := by
                rw [hsk]
                cases hol : old with
                | nil =>
                  rw [hol] at hhd
                  exact (hkk h (List.mem_of_mem_head? hhd)).symm
                | cons y r =>
                  rw [hol] at hhd
                  exact (hh h (by rw [hol]; exact hhd)).symm
              have l1 : (old ++ m).length < c.shards := by simp only [List.length_append]; omega
              have l2 : s ∉ old ++ m := by simp only [List.mem_append, not_or]; exact ⟨x1, x2⟩
              simp only [pushShard, hhd, expectSome, require, this, l1, l2, not_false_eq_true, if_true, bind, Except.bind, pure, Except.pure]
        · rfl
      by_cases hx : s ∉ old ∧ s ∉ m ∧ m.length < c.shards - old.length
      · rw [if_pos hx] at hp
        have e1 : addCapsuleShard c v a n = .ok { w with
            nfts := w.nfts.insert n { d with st := { d.st with syncCapsule := !decide ((old ++ m ++ [s]).length = c.shards) } },
            nft := { w.nft with capsuleShards := FMap.set w.nft.capsuleShards n (if (old ++ m ++ [s]).length = c.shards then none else some (old ++ m ++ [s])) } } := by
          subst hv
          have hen' : ensureEnclave ({ w with nfts := G, nft := { w.nft with capsuleShards := F } } : World) a = some s := hen.trans hE
          simp only [addCapsuleShard, hen', hG, hk, hs, hp, getOr, require, mapErr, if_true, bind, Except.bind, pure, Except.pure, World.putNft, hi]
          by_cases hl : (old ++ m ++ [s]).length = c.shards
          · simp only [hl, if_true, FMap.set, he, Option.isSome_none, decide_true, Bool.not_true]
          · simp only [hl, if_false, FMap.set, hi2, Option.isSome_some, decide_false, Bool.not_false]
        simp only [enterOpt, enter]
        rw [if_pos hx]
        simp only [step, hdis, e1, orSame]
        refine ⟨?_, .inr ?_⟩
        · intro y hy
          rcases List.mem_append.1 hy with hy | hy
          · exact hkk y hy
          · simp only [List.mem_singleton] at hy; rw [hy]; exact hsk
        · have hlen : (old ++ m ++ [s]).length ≤ c.shards := by
            simp only [List.length_append, List.length_singleton]; omega
          have hd' : ({ d with st := { d.st with syncCapsule := true } } : NFTData) = d := by rw [← hs]
          by_cases hl : (old ++ m ++ [s]).length = c.shards
          · right
            refine ⟨by simp, by rw [← List.append_assoc]; omega, ?_⟩
            simp only [hl, if_true, FMap.set, decide_true, Bool.not_true]
          · left
            refine ⟨by simp, by rw [← List.append_assoc]; omega, ?_⟩
            simp only [hl, if_false, FMap.set, decide_false, Bool.not_false, hd', ← List.append_assoc]
      · refine hno ?_ hx
        cases hv' : addCapsuleShard c v a n with
        | error e => exact ⟨e, rfl⟩
        | ok v' =>
          exfalso; apply hx
          subst hv
          have hen' : ensureEnclave ({ w with nfts := G, nft := { w.nft with capsuleShards := F } } : World) a = some s := hen.trans hE
          simp only [addCapsuleShard, hen', hG, hk, hs, getOr, require, if_true, bind, Except.bind] at hv'
          have hpo : ∃ y, pushShard c (F.get n) s = .ok y := by
            cases hps : pushShard c (F.get n) s with
            | ok y => exact ⟨y, rfl⟩
            | error e => rw [hps] at hv'; cases e <;> cases hv'
          obtain ⟨y, hy⟩ := hpo
          cases hF : F.get n with
          | none =>
            rw [hF] at hg hy
            have e0 : old ++ m = [] := hg.symm
            simp only [List.append_eq_nil_iff] at e0
            simp only [pushShard] at hy
            inv_ok at hy
            rw [e0.1, e0.2]
            refine ⟨by simp, by simp, ?_⟩
            simp only [List.length_nil]
            have := hy.1
            omega
          | some l =>
            rw [hF] at hg hy
            have e0 : l = old ++ m := hg
            subst e0
            simp only [pushShard] at hy
            inv_ok at hy
            obtain ⟨_, _, _, g1, g2, _⟩ := hy
            simp only [List.mem_append, not_or, List.length_append] at g1 g2
            exact ⟨g2.1, g2.2, by omega⟩
    have hf2 := hf'
    rcases hf' with ⟨h1, h2⟩ | ⟨h1, h1', h2⟩ | ⟨h1, h1', h2⟩
    · subst h1
      exact open_ w.nft.capsuleShards w.nfts hd (fun _ => rfl) (fun _ => rfl) rfl (by rw [ho]; simp) h0 (.inl rfl) h2
    · exact open_ (w.nft.capsuleShards.insert n (old ++ m)) (w.nfts.insert n d) (by simp) (fun _ => by simp) (fun _ => by simp)
        (FMap.erase_insert_self ..) (by simp) (by simp; intro _ h; exact absurd h h1) (.inr h1') h2
    · refine hno ?_ fun hz => ?_
      · refine ⟨.e "NFTAlreadySynced", ?_⟩
        have hen' := hen.trans hE
        have hg : v.nfts.get n = some { d with st := { d.st with syncCapsule := false } } := by rw [h2]; simp
        simp only [addCapsuleShard, hen', hg, hk, getOr, require, if_true, if_false, bind, Except.bind, Bool.false_eq_true]
      · have := hz.2.2
        have hp : 0 < m.length := List.length_pos_iff.2 h1
        simp only [List.length_append] at h1'
        omega

theorem agree {n} {l l' : List AccountId} (h : ∀ a, a ∈ l ↔ a ∈ l') (hl : OneCluster w l) :
    Agree (.capsule n) ((Ballot.capsule n).held c w l) ((Ballot.capsule n).held c w l') := by
  have refused : ∀ a, (∀ v, addCapsuleShard c w a n ≠ .ok v) → step c w (.call (.signed a) (Ballot.capsule n).vote) = w := by
    intro a hv
    cases he : addCapsuleShard c w a n with
    | error e => exact step_refused (show dispatch c (.nft (.addCapsuleShard n)) (.signed a) w = .error e from he)
    | ok v => exact absurd he (hv v)
  have same : ∀ a ∈ l, ∀ b ∈ l, ∀ s s', ensureEnclave w a = some s → ensureEnclave w b = some s' → s.1 = s'.1 := by
    intro a ha b hb s s' e1 e2
    simp only [ensureEnclave, Option.bind_eq_bind, Option.bind_eq_some_iff, Option.pure_def, Option.some.injEq] at e1 e2
    obtain ⟨p, p1, k, p2, rfl⟩ := e1
    obtain ⟨q, q1, k', q2, rfl⟩ := e2
    exact hl a ha b hb p q k k' p1 q1 p2 q2
  by_cases hex : ∃ a ∈ l, ∃ s, ensureEnclave w a = some s
  · obtain ⟨b, hb, s0, hs0⟩ := hex
    by_cases hw : ∃ d, w.nfts.get n = some d ∧ d.st.capsule = true ∧ d.st.syncCapsule = true ∧ w.nft.capsuleShards.get n ≠ some [] ∧
        ∀ s ∈ ((w.nft.capsuleShards.get n).getD []).head?, s.1 = s0.1
    · obtain ⟨d, h1, h2, h3, h4, h5⟩ := hw
      exact Ballots.agree (c := c) (b := .capsule n) (id := ensureEnclave w) (old := (w.nft.capsuleShards.get n).getD [])
        (N := c.shards - ((w.nft.capsuleShards.get n).getD []).length) (form := Form c w n d s0.1 ((w.nft.capsuleShards.get n).getD []))
        (ok := fun a => ∀ s, ensureEnclave w a = some s → s.1 = s0.1)
        (fun m v a ha hf hm => form_step h1 h2 h3 h4 h5 ha hf hm) ⟨by simp, .inl ⟨rfl, rfl⟩⟩ (fun _ _ _ _ => form_agree) h
        (fun a ha s hs => same a ha b hb s s0 hs hs0)
    · refine idle_agree h fun a ha => refused a fun v hv => hw ?_
      simp only [addCapsuleShard] at hv
      inv_ok at hv
      obtain ⟨s, d, l0, hs, hd, g1, g2, hp, _⟩ := hv
      refine ⟨d, hd, g1, g2, ?_, ?_⟩
      · intro h0
        rw [h0] at hp
        simp [pushShard, expectSome, bind, Except.bind, mapErr] at hp
      · intro y hy
        cases hc : w.nft.capsuleShards.get n with
        | none => rw [hc] at hy; cases hy
        | some r =>
          rw [hc] at hy hp
          have hy' : r.head? = some y := hy
          simp only [pushShard] at hp
          inv_ok at hp
          obtain ⟨z, hz, e1, _⟩ := hp
          rw [hy', Option.some.injEq] at hz
          rw [← same a ha b hb s s0 hs hs0, e1, hz]
  · refine idle_agree h fun a ha => refused a fun v hv => hex ?_
    simp only [addCapsuleShard] at hv
    inv_ok at hv
    obtain ⟨s, d, l0, hs, hd, g1, g2, hp, _⟩ := hv
    exact ⟨a, ha, s, hs⟩

end NftM.CapsuleVote
