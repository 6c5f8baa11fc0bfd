import Mathlib.Data.List.Induction
import Verif.Proofs.BrActs
import Verif.Proofs.Hist
/-
Invariants of the bridge and of its history.
-/
variable {c : Cfg} {w w' : World} {a : AccountId}

theorem evs_bridge {e : Ev} (he : e.bridge = true)
    (h : w'.evs.filter Ev.bridge = w.evs.filter Ev.bridge) : w'.evs.count e = w.evs.count e := by
  rw [← List.count_filter (p := Ev.bridge) he, h, List.count_filter he]

theorem mem_bridge {e : Ev} (he : e.bridge = true)
    (h : w'.evs.filter Ev.bridge = w.evs.filter Ev.bridge) : e ∈ w'.evs ↔ e ∈ w.evs := by
  have := evs_bridge he h
  rw [← List.count_pos_iff, ← List.count_pos_iff, this]

theorem BrM.ext_votes {r} (h : BrM.ext c w r = .ok w') : w'.br.votes = w.br.votes := by
  cases r <;> simp only [ext, setThreshold, addChain, setRelayers, setNonce, setFee] at h <;>
    inv_ok at h
  case setThreshold => obtain ⟨_, rfl⟩ := h; rfl
  case addChain => obtain ⟨_, _, rfl⟩ := h; rfl
  case setNonce => obtain ⟨_, _, _, _, rfl⟩ := h; rfl
  all_goals subst h; rfl

/-- an approved transfer is marked, and announced once -/
structure BInv (w : World) : Prop where
  once : ∀ k t, w.evs.count (.approved k t) ≤ 1
  mark : ∀ k t, .approved k t ∈ w.evs → ∃ p, w.br.votes.get (k, t) = some p ∧ p.approved = true

theorem BInv.quiet (h : BInv w) (e : w'.br.votes = w.br.votes)
    (he : ∀ k t, w'.evs.count (.approved k t) = w.evs.count (.approved k t)) : BInv w' := by
  refine ⟨fun k t => ?_, fun k t hm => ?_⟩
  · rw [he]; exact h.once k t
  · rw [e]; refine h.mark k t ?_
    rw [← List.count_pos_iff, ← he, List.count_pos_iff]; exact hm

theorem Reach.binv (h : Reach c w) : BInv w := by
  induction h with
  | init h => exact ⟨by simp [h.evs], by simp [h.evs]⟩
  | @step w o hr ho ih =>
    have hs := step_br w o ho
    generalize _root_.step c w o = w' at hs ⊢
    cases hs with
    | quiet e he => exact ih.quiet (by rw [e]) (fun k t => evs_bridge rfl he)
    | ext hg hx h e he =>
      exact ih.quiet (by rw [e]; exact BrM.ext_votes h) (fun k t => evs_bridge rfl he)
    | deposit h1 hn h2 e he => exact ih.quiet (by rw [e]) (by simp [he])
    | @vote a k t x _ h1 h2 h3 h4 e he hb =>
      obtain ⟨g1, g2, g3⟩ := BrM.vote_ok h3
      have hno : .approved k t ∉ w.evs := by
        intro hm
        obtain ⟨p, hp, ha⟩ := ih.mark k t hm
        rcases g3 with ⟨hn, _⟩ | ⟨q, hq, hqa, _⟩
        · rw [hp] at hn; simp at hn
        · rw [hp] at hq; simp at hq; subst hq; simp [ha] at hqa
      refine ⟨fun k' t' => ?_, fun k' t' hm => ?_⟩
      · rw [he]
        by_cases hk : (k', t') = (k, t)
        · simp only [Prod.mk.injEq] at hk
          obtain ⟨rfl, rfl⟩ := hk
          have := List.count_eq_zero.2 hno
          cases x.2 <;> simp [this]
        · have := ih.once k' t'
          have hk' : ¬ (k = k' ∧ t = t') := by rintro ⟨rfl, rfl⟩; exact hk rfl
          cases x.2 <;> simp [List.count_cons, this, hk']
      · rw [e]
        simp only [FMap.get_insert]
        by_cases hk : (k', t') = (k, t)
        · simp only [hk, if_true]
          refine ⟨_, rfl, ?_⟩
          rw [g1]
          simp only [Prod.mk.injEq] at hk
          obtain ⟨rfl, rfl⟩ := hk
          rw [he] at hm
          cases hx : x.2
          · simp [hx, hno] at hm
          · rfl
        · simp only [hk, if_false]
          refine ih.mark k' t' ?_
          have hk' : ¬ (k' = k ∧ t' = t) := by rintro ⟨rfl, rfl⟩; exact hk rfl
          rw [he] at hm
          cases hx : x.2 <;> simpa [hx, hk'] using hm

/-! ## votes -/

/-- `v` voted for the transfer in one of the operations, as a relayer, in the voting period that
starts at block `b` -/
def VotedIn (c : Cfg) (w0 : World) (l : List Op) (k : ChainId) (t : Transfer) (b : Block)
    (v : AccountId) : Prop :=
  ∃ l1 l2, l = l1 ++ .call (.signed v) (.br (.vote k t)) :: l2 ∧ v ∈ (run c w0 l1).br.relayers ∧
    (∃ m, (step c (run c w0 l1) (.call (.signed v) (.br (.vote k t)))).evs =
      m ++ .voted k t v :: (run c w0 l1).evs) ∧
    b ≤ (run c w0 l1).now ∧ ((run c w0 l1).now = b ∨ (run c w0 l1).now < b + c.proposalLife)

theorem VotedIn.append {w0 l k t b v} (h : VotedIn c w0 l k t b v) (l' : List Op) :
    VotedIn c w0 (l ++ l') k t b v := by
  obtain ⟨l1, l2, rfl, h⟩ := h
  exact ⟨l1, l2 ++ l', by simp, h⟩

/-- the votes of a stored proposal were cast -/
def VInv (c : Cfg) (w0 : World) (l : List Op) : Prop :=
  ∀ k t p, (run c w0 l).br.votes.get (k, t) = some p → p.votes.Nodup ∧
    ∃ b, p.expiry = b + c.proposalLife ∧ b ≤ (run c w0 l).now ∧ ∀ v ∈ p.votes, VotedIn c w0 l k t b v

theorem run_snoc (w0 : World) (l : List Op) (o : Op) :
    run c w0 (l ++ [o]) = step c (run c w0 l) o := by rw [run_append]; rfl

theorem vinv {w0 : World} (hg : Genesis c w0) (l : List Op) (hl : ∀ o ∈ l, o.Ok c) :
    VInv c w0 l := by
  induction l using List.reverseRecOn with
  | nil =>
    intro k t p h
    have : w0.br.votes = .empty := hg.br.2
    simp [run, this] at h
  | append_singleton l o ih =>
    have ih := ih (fun o ho => hl o (by simp [ho]))
    have ho := hl o (by simp)
    intro k t p hp
    rw [run_snoc] at hp ⊢
    have hs := step_br (run c w0 l) o ho
    have hnow := step_now_le (c := c) (run c w0 l) o
    have old : (run c w0 l).br.votes.get (k, t) = some p → p.votes.Nodup ∧
      ∃ b, p.expiry = b + c.proposalLife ∧ b ≤ (step c (run c w0 l) o).now ∧
        ∀ v ∈ p.votes, VotedIn c w0 (l ++ [o]) k t b v := by
      intro hp
      obtain ⟨h1, b, h2, h3, h4⟩ := ih k t p hp
      exact ⟨h1, b, h2, by omega, fun v hv => (h4 v hv).append _⟩
    generalize hw' : step c (run c w0 l) o = w' at hs hnow hp old ⊢
    cases hs with
    | quiet e he => exact old (by rw [← e]; exact hp)
    | ext hg hx h e he => exact old (by rw [← BrM.ext_votes h, ← e]; exact hp)
    | deposit h1 hn h2 e he => rw [e] at hp; exact old hp
    | @vote a k' t' x _ h1 h2 h3 h4 e he hb =>
      rw [e] at hp
      simp only [FMap.get_insert] at hp
      by_cases hk : (k, t) = (k', t')
      · simp only [hk, if_true, Option.some.injEq] at hp
        subst hp
        simp only [Prod.mk.injEq] at hk
        obtain ⟨rfl, rfl⟩ := hk
        obtain ⟨g1, g2, g3⟩ := BrM.vote_ok h3
        have hv : ∀ b, b ≤ (run c w0 l).now →
            ((run c w0 l).now = b ∨ (run c w0 l).now < b + c.proposalLife) →
            VotedIn c w0 (l ++ [.call (.signed a) (.br (.vote k t))]) k t b a :=
          fun b hb hb' => ⟨l, [], rfl, h1, ⟨_, by rw [hw']; exact he⟩, hb, hb'⟩
        rcases g3 with ⟨_, hx, hx'⟩ | ⟨q, hq, _, hna, hlt, hx, hx'⟩
        · refine ⟨by simp [hx], _, hx', hnow, ?_⟩
          intro v hv'
          rw [hx, List.mem_singleton] at hv'
          subst hv'
          exact hv _ (by omega) (.inl rfl)
        · obtain ⟨i1, b, i2, i3, i4⟩ := ih k t q hq
          refine ⟨?_, b, by rw [hx', i2], by omega, ?_⟩
          · rw [hx, List.nodup_append]
            refine ⟨i1, by simp, ?_⟩
            intro v hv' u hu
            rw [List.mem_singleton] at hu
            rintro rfl
            exact hna (hu ▸ hv')
          · intro v hv'
            rw [hx, List.mem_append, List.mem_singleton] at hv'
            rcases hv' with hv' | rfl
            · exact (i4 v hv').append _
            · exact hv b i3 (.inr (by omega))
      · simp only [hk, if_false] at hp
        exact old hp

/-! ## events stay -/

theorem run_evs (w : World) (l : List Op) : ∃ m, (run c w l).evs = m ++ w.evs := by
  induction l generalizing w with
  | nil => exact ⟨[], rfl⟩
  | cons o l ih =>
    obtain ⟨m, e, _⟩ := step_evs (c := c) w o
    obtain ⟨m', e'⟩ := ih (step c w o)
    exact ⟨m' ++ m, by rw [show run c w (o :: l) = run c (step c w o) l from rfl, e', e,
      List.append_assoc]⟩

theorem VotedIn.mem {w0 l k t b v} (h : VotedIn c w0 l k t b v) :
    .voted k t v ∈ (run c w0 l).evs := by
  obtain ⟨l1, l2, rfl, _, ⟨m, e⟩, _⟩ := h
  rw [run_append, show ∀ w (o : Op) l, run c w (o :: l) = run c (step c w o) l from
    fun _ _ _ => rfl]
  obtain ⟨m', e'⟩ := run_evs (c := c) (step c (run c w0 l1) (.call (.signed v) (.br (.vote k t)))) l2
  rw [e', e]; simp

/-! ## approved proposals have a quorum -/

theorem quorum {w0 : World} {m : Nat} (hg : Genesis c w0) (l : List Op) (hl : ∀ o ∈ l, o.Ok c)
    (hm : ∀ l1 l2, l = l1 ++ l2 → m ≤ (run c w0 l1).br.threshold) (k : ChainId) (t : Transfer)
    (p : Proposal) (hp : (run c w0 l).br.votes.get (k, t) = some p) (ha : p.approved = true) :
    m ≤ p.votes.length := by
  induction l using List.reverseRecOn generalizing p with
  | nil =>
    have : w0.br.votes = .empty := hg.br.2
    simp [run, this] at hp
  | append_singleton l o ih =>
    have ih := ih (fun o ho => hl o (by simp [ho]))
      (fun l1 l2 e => hm l1 (l2 ++ [o]) (by simp [e]))
    have hm' := hm l [o] rfl
    have ho := hl o (by simp)
    rw [run_snoc] at hp
    have hs := step_br (run c w0 l) o ho
    generalize step c (run c w0 l) o = w' at hs hp
    cases hs with
    | quiet e he => exact ih p (by rw [← e]; exact hp) ha
    | ext hg hx h e he => exact ih p (by rw [← BrM.ext_votes h, ← e]; exact hp) ha
    | deposit h1 hn h2 e he => rw [e] at hp; exact ih p hp ha
    | @vote a k' t' x _ h1 h2 h3 h4 e he hb =>
      rw [e] at hp
      simp only [FMap.get_insert] at hp
      by_cases hk : (k, t) = (k', t')
      · simp only [hk, if_true, Option.some.injEq] at hp
        subst hp
        obtain ⟨g1, g2, g3⟩ := BrM.vote_ok h3
        have := g2.1 (by rw [← g1, ha])
        omega
      · simp only [hk, if_false] at hp
        exact ih p hp ha

/-! ## chains -/

/-- root or the committee whitelists a chain -/
def AddsChain (k : ChainId) (o : Op) : Prop :=
  ∃ g x, o = .call g x ∧ (∀ a, g ≠ .signed a) ∧ x.core = .ext (.addChain k)

theorem BrM.ext_nonce {r} (h : BrM.ext c w r = .ok w') (k : ChainId) :
    (r = .addChain k ∧ k ≠ c.chain ∧ w.br.nonces.get k = none ∧ w'.br.nonces.get k = some 0) ∨
    (∃ n n', r = .setNonce k n ∧ w.br.nonces.get k = some n' ∧ n' < n ∧ n ≤ U64MAX ∧
      w'.br.nonces.get k = some n) ∨ w'.br.nonces.get k = w.br.nonces.get k := by
  cases r <;> simp only [ext, setThreshold, addChain, setRelayers, setNonce, setFee] at h <;>
    inv_ok at h
  case setThreshold => obtain ⟨_, rfl⟩ := h; exact .inr (.inr rfl)
  case addChain k' =>
    obtain ⟨h1, h2, rfl⟩ := h
    by_cases e : k = k'
    · subst e
      left
      refine ⟨rfl, h1, ?_, by simp⟩
      simpa [allowed] using h2
    · exact .inr (.inr (by simp only [FMap.get_insert, e, if_false]))
  case setNonce k' n =>
    obtain ⟨n', h1, h2, h3, rfl⟩ := h
    by_cases e : k = k'
    · subst e
      exact .inr (.inl ⟨n, n', rfl, h1, h2, h3, by simp⟩)
    · exact .inr (.inr (by simp only [FMap.get_insert, e, if_false]))
  all_goals subst h; exact .inr (.inr rfl)

theorem step_chain (w : World) (o : Op) (ho : o.Ok c) (k : ChainId) :
    ((w.br.nonces.get k).isSome → ((step c w o).br.nonces.get k).isSome) ∧
    (((step c w o).br.nonces.get k).isSome → (w.br.nonces.get k).isSome ∨
      (AddsChain k o ∧ k ≠ c.chain)) := by
  have hs := step_br w o ho
  generalize step c w o = w' at hs ⊢
  cases hs with
  | quiet e he => rw [e]; exact ⟨id, .inl⟩
  | ext hg hx h e he =>
    rw [e]
    rcases BrM.ext_nonce h k with ⟨rfl, h1, h2, h3⟩ | ⟨n, n', _, h1, _, _, h3⟩ | h1
    · exact ⟨by simp [h3], fun _ => .inr ⟨⟨_, _, rfl, hg, hx⟩, h1⟩⟩
    · simp [h1, h3]
    · rw [h1]; exact ⟨id, .inl⟩
  | @deposit a v r d n _ h1 hn h2 e he =>
    rw [e]; simp only [FMap.get_insert]
    by_cases hk : k = d
    · subst hk; simp [h1]
    · simp only [hk, if_false]; exact ⟨id, .inl⟩
  | vote h1 h2 h3 h4 e he hb => rw [e]; exact ⟨id, .inl⟩

/-- the chain an event of the bridge is about -/
def Ev.chain : Ev → Option ChainId
  | .voted k _ _ => some k
  | .approved k _ => some k
  | .deposited k _ _ _ => some k
  | _ => none

theorem Ev.chain_bridge {e : Ev} {k} (h : e.chain = some k) : e.bridge = true := by
  cases e <;> simp_all [Ev.chain, Ev.bridge]

theorem Reach.chain (h : Reach c w) {k : ChainId} :
    ((w.br.nonces.get k).isSome → k ≠ c.chain) ∧
    ∀ e ∈ w.evs, e.chain = some k → (w.br.nonces.get k).isSome := by
  induction h with
  | init h => simp [h.evs, h.br.1]
  | @step w o hr ho ih =>
    have hk := step_chain w o ho k
    refine ⟨fun h => ?_, ?_⟩
    · rcases hk.2 h with h | h
      · exact ih.1 h
      · exact h.2
    · have hs := step_br w o ho
      replace hk := hk.1
      generalize _root_.step c w o = w' at hs hk ⊢
      cases hs with
      | quiet e he =>
        intro e' hm hc
        exact hk (ih.2 e' ((mem_bridge (Ev.chain_bridge hc) he).1 hm) hc)
      | ext _ _ _ _ he =>
        intro e' hm hc
        exact hk (ih.2 e' ((mem_bridge (Ev.chain_bridge hc) he).1 hm) hc)
      | @deposit a v r d n _ h1 hn h2 e he =>
        intro e' hm hc
        rw [he] at hm
        rcases List.mem_cons.1 hm with rfl | hm
        · simp [Ev.chain] at hc; subst hc; exact hk h1
        · exact hk (ih.2 e' hm hc)
      | @vote a k' t x _ h1 h2 h3 h4 e he hb =>
        intro e' hm hc
        rw [he] at hm
        rcases List.mem_append.1 hm with hm | hm
        · cases hx : x.2 <;> simp [hx] at hm
          subst hm
          simp [Ev.chain] at hc; subst hc; exact hk h2
        · rcases List.mem_cons.1 hm with rfl | hm
          · simp [Ev.chain] at hc; subst hc; exact hk h2
          · exact hk (ih.2 e' hm hc)

/-! ## nonces -/

/-- the nonces of the deposits to a chain, newest first -/
def depNonces (k : ChainId) (l : List Ev) : List Nat :=
  l.filterMap fun
    | .deposited k' n _ _ => if k' = k then some n else none
    | _ => none

theorem depNonces_filter (k : ChainId) (l : List Ev) :
    depNonces k (l.filter Ev.bridge) = depNonces k l := by
  unfold depNonces
  rw [List.filterMap_filter]
  congr 1
  funext e
  cases e <;> simp [Ev.bridge]

theorem dep_inv {w0 : World} (hg : Genesis c w0) (k : ChainId) (l : List Op) (hl : ∀ o ∈ l, o.Ok c)
    (hm : ∀ l1 l2, l = l1 ++ l2 → (run c w0 l1).br.nonces.get k ≠ some U64MAX) :
    (∀ n, (run c w0 l).br.nonces.get k = some n → n ≤ U64MAX) ∧
    (depNonces k (run c w0 l).evs).Pairwise (· > ·) ∧
    ∀ n ∈ depNonces k (run c w0 l).evs, ∃ n', (run c w0 l).br.nonces.get k = some n' ∧ n ≤ n' := by
  induction l using List.reverseRecOn with
  | nil =>
    have h1 : w0.br.nonces = .empty := hg.br.1
    simp [run, hg.evs, depNonces, h1]
  | append_singleton l o ih =>
    obtain ⟨i1, i2, i3⟩ := ih (fun o ho => hl o (by simp [ho]))
      (fun l1 l2 e => hm l1 (l2 ++ [o]) (by simp [e]))
    have hm' := hm l [o] rfl
    have ho := hl o (by simp)
    rw [run_snoc]
    have hs := step_br (run c w0 l) o ho
    generalize step c (run c w0 l) o = w' at hs ⊢
    generalize run c w0 l = w at *
    cases hs with
    | quiet e he =>
      rw [e, ← depNonces_filter k w'.evs, he, depNonces_filter]; exact ⟨i1, i2, i3⟩
    | ext hg hx h e he =>
      rw [e, ← depNonces_filter k w'.evs, he, depNonces_filter]
      rcases BrM.ext_nonce h k with ⟨rfl, h1, h2, h3⟩ | ⟨n, n', _, h1, h2, h4, h3⟩ | h1
      · refine ⟨by simp [h3], i2, fun n hn => ?_⟩
        obtain ⟨n', hn', _⟩ := i3 n hn
        rw [h2] at hn'; simp at hn'
      · refine ⟨by simp [h3]; exact h4, i2, fun x hx => ⟨n, h3, ?_⟩⟩
        obtain ⟨y, hy, hy'⟩ := i3 x hx
        rw [h1] at hy; simp at hy; omega
      · rw [h1]; exact ⟨i1, i2, i3⟩
    | @deposit a v r d n _ h1 hn h2 e he =>
      rw [e, he]
      simp only [FMap.get_insert]
      by_cases hk : k = d
      · subst hk
        obtain ⟨cur, hcur⟩ := Option.isSome_iff_exists.1 h1
        have hc := i1 cur hcur
        have hne : cur ≠ U64MAX := by rintro rfl; exact hm' hcur
        rw [hcur, Option.getD_some, Nat.mod_eq_of_lt (by omega)] at hn
        subst hn
        have hd : depNonces k (.deposited k (cur + 1) r v :: w.evs) =
            (cur + 1) :: depNonces k w.evs := by simp [depNonces]
        have hle : ∀ x ∈ depNonces k w.evs, x ≤ cur := by
          intro x hx
          obtain ⟨y, hy, hy'⟩ := i3 x hx
          rw [hcur] at hy; simp at hy; omega
        rw [hd]
        refine ⟨by simp; omega, ?_, ?_⟩
        · rw [List.pairwise_cons]
          exact ⟨fun x hx => Nat.lt_succ_of_le (hle x hx), i2⟩
        · intro x hx
          refine ⟨cur + 1, by simp, ?_⟩
          rcases List.mem_cons.1 hx with rfl | hx
          · exact Nat.le_refl _
          · have := hle x hx; omega
      · have hd : depNonces k (.deposited d n r v :: w.evs) = depNonces k w.evs := by
          simp [depNonces, Ne.symm hk]
        simp only [hk, if_false, hd]
        exact ⟨i1, i2, i3⟩
    | @vote a k' t x _ h1 h2 h3 h4 e he hb =>
      rw [e, he]
      have hd : depNonces k ((if x.2 = true then [Ev.approved k' t] else []) ++ .voted k' t a ::
          w.evs) = depNonces k w.evs := by cases x.2 <;> simp [depNonces]
      rw [hd]; exact ⟨i1, i2, i3⟩
