import Verif.Props.Network
import Verif.Props.Early
/-
Property C158: a deposit arrives on the other chain.
-/
variable {ι : Type} [DecidableEq ι]
set_option maxRecDepth 10000
open Spec

namespace Network

/-- a prefix of what happens on a chain is what happens on it in a prefix of the history -/
theorem share_prefix {i : ι} {b : List Op} : ∀ {l : List (ι × Op)} {a : List Op}, share i l = a ++ b → ∃ m, m <+: l ∧ share i m = a := by
  intro l a h
  cases b with
  | nil => exact ⟨l, List.prefix_refl _, by simpa using h⟩
  | cons o b =>
    obtain ⟨l1, l2, e, h2⟩ := share_split h
    exact ⟨l1, ⟨_, e.symm⟩, h2⟩

/-- without a vote for a transfer there is no entry for it -/
theorem no_votes {c : Cfg} {w : World} {k : ChainId} {t : Transfer} (h0 : w.br.votes.get (k, t) = none) : ∀ l : List Op, (∀ o ∈ l, o.Ok c) →
    (∀ a, .call (.signed a) (.br (.vote k t)) ∉ l) → (run c w l).br.votes.get (k, t) = none := by
  intro l
  induction l generalizing w with
  | nil => intro _ _; exact h0
  | cons o l ih =>
    intro hl hv
    refine ih (w := step c w o) ?_ (fun o h => hl o (List.mem_cons_of_mem _ h)) (fun a h => hv a (List.mem_cons_of_mem _ h))
    rcases Early.votes_step (k := k) (t := t) w o (hl o (List.mem_cons_self ..)) with h | ⟨a, x, rfl, _⟩
    · rw [h, h0]
    · exact absurd (List.mem_cons_self ..) (hv a)

end Network

/- C158 -/

/-- Account `a` deposits `v` tokens on chain `i` for an account of chain `j`. If nobody votes on chain `j` for what has not been deposited,
and as many of its relayers as votes are needed vote for the transfer within the voting period, in any order and with
anything else going on on all chains, then the transfer is announced on chain `i` and approved on chain `j`, with the same
nonce, recipient and amount. The counter of deposits must not have come to its end. -/
theorem C158 {N : Spec.Network ι} {i j : ι} {a : AccountId} {v : Balance} {r : Data} {l1 l2 : List (ι × Op)} {w' : World} {n : Nat}
    (S : List AccountId) (hij : i ≠ j)
    (h : N.Proper (l1 ++ (i, .call (.signed a) (.br (.deposit v r (N.cfg j).chain))) :: l2))
    (hh : ∀ x, N.Honest (l1 ++ (i, .call (.signed a) (.br (.deposit v r (N.cfg j).chain))) :: l2) j x)
    (hd : dispatch (N.cfg i) (.br (.deposit v r (N.cfg j).chain)) (.signed a) (N.after l1 i) = .ok w')
    (hn : (N.after l1 i).br.nonces.get (N.cfg j).chain = some n)
    (hm : ∀ m, m <+: l1 → (N.after m i).br.nonces.get (N.cfg j).chain ≠ some (2 ^ 64 - 1))
    (hw : ((N.after l1 j).br.nonces.get (N.cfg i).chain).isSome)
    (hS : S.Nodup) (h0 : 0 < (N.after l1 j).br.threshold) (h1 : (N.after l1 j).br.threshold ≤ S.length)
    (h2 : (N.after l1 j).br.threshold ≤ (N.cfg j).relayerLimit)
    (h3 : ∀ m, m <+: l2 → (N.after (l1 ++ m) j).br.threshold = (N.after l1 j).br.threshold ∧ ∀ s ∈ S, s ∈ (N.after (l1 ++ m) j).br.relayers)
    (hv : ∀ s ∈ S, (j, .call (.signed s) (.br (.vote (N.cfg i).chain ⟨n + 1, N.read r, v⟩))) ∈ l2)
    (ht : (N.after (l1 ++ l2) j).now < (N.after l1 j).now + (N.cfg j).proposalLife) :
    let l := l1 ++ (i, .call (.signed a) (.br (.deposit v r (N.cfg j).chain))) :: l2
    .deposited (N.cfg j).chain (n + 1) r v ∈ (N.after l i).evs ∧
      .approved (N.cfg i).chain ⟨n + 1, N.read r, v⟩ ∈ (N.after l j).evs := by
  intro l
  have hok1 : ∀ o ∈ share i l1, o.Ok (N.cfg i) := fun o ho => Network.share_ok h i o (by
    rw [Network.share_append]; exact List.mem_append_left _ ho)
  have hok2 : ∀ o ∈ share j l1, o.Ok (N.cfg j) := fun o ho => Network.share_ok h j o (by
    rw [Network.share_append]; exact List.mem_append_left _ ho)
  have hok3 : ∀ o ∈ share j l2, o.Ok (N.cfg j) := fun o ho => Network.share_ok h j o (by
    rw [Network.share_append, Network.share_cons, if_neg hij]; exact List.mem_append_right _ ho)
  have ej : ∀ m, N.after (l1 ++ m) j = run (N.cfg j) (N.after l1 j) (share j m) := by
    intro m
    unfold Spec.Network.after
    rw [Network.share_append, run_append]
  have el : N.after l j = run (N.cfg j) (N.after l1 j) (share j l2) := by
    rw [ej, Network.share_cons, if_neg hij]
  have hm' : ∀ a b, share i l1 = a ++ b → (run (N.cfg i) (N.start i) a).br.nonces.get (N.cfg j).chain ≠ some U64MAX := by
    intro a b e
    obtain ⟨m, g1, g2⟩ := Network.share_prefix e
    have := hm m g1
    unfold Spec.Network.after at this
    rwa [g2] at this
  obtain ⟨d1, d2, d3⟩ := dep_inv (h.genesis i) (N.cfg j).chain (share i l1) hok1 hm'
  have hlt : n < 2 ^ 64 - 1 := by
    have := d1 n hn
    have h' := hm l1 (List.prefix_refl _)
    rw [hn] at h'
    have : n ≠ 2 ^ 64 - 1 := fun e => h' (by rw [e])
    unfold U64MAX at *
    omega
  constructor
  · obtain ⟨n', g1, g2⟩ := C54_next hd
    rw [hn] at g1; cases g1
    have hs : N.after (l1 ++ [(i, .call (.signed a) (.br (.deposit v r (N.cfg j).chain)))]) i = w' := by
      unfold Spec.Network.after at *
      rw [Network.share_append, Network.share_cons, if_pos rfl, run_append]
      show run (N.cfg i) (run (N.cfg i) (N.start i) (share i l1)) [.call (.signed a) (.br (.deposit v r (N.cfg j).chain))] = w'
      simp only [run, step, hd, orSame]
    refine Network.evs_mono (l1 := l1 ++ [(i, .call (.signed a) (.br (.deposit v r (N.cfg j).chain)))]) ⟨l2, by simp [l]⟩ ?_
    rw [hs, (g2 hlt).2]
    exact List.mem_cons_self ..
  · -- nobody has voted for the transfer before
    have hnone : (N.after l1 j).br.votes.get ((N.cfg i).chain, ⟨n + 1, N.read r, v⟩) = none := by
      refine Network.no_votes (by rw [(h.genesis j).br.2]; rfl) _ hok2 fun x hx => ?_
      obtain ⟨p, q, e⟩ := List.append_of_mem hx
      obtain ⟨q1, q2, e5, _⟩ := Network.share_split e
      obtain ⟨i', r', g1, g2, g3⟩ := hh x q1 (q2 ++ (i, .call (.signed a) (.br (.deposit v r (N.cfg j).chain))) :: l2) (N.cfg i).chain
        ⟨n + 1, N.read r, v⟩ (by rw [e5]; simp)
      have := h.ids _ _ g1
      subst this
      have g4 := Network.evs_mono (N := N) (l := l1) ⟨_, e5.symm⟩ g2
      obtain ⟨n', e6, h6⟩ := d3 (n + 1) (by unfold depNonces; exact List.mem_filterMap.2 ⟨_, g4, by simp⟩)
      unfold Spec.Network.after at hn
      rw [hn] at e6; cases e6
      omega
    have hr : Reach (N.cfg j) (N.after l1 j) := (Reach.init (h.genesis j)).run _ hok2
    rw [el]
    refine (C153_partial hr S hS (share j l2) hok3 h1 h2 ?_ hw ?_ ?_ ?_).2
    · unfold Spec.votesFor; rw [hnone]; exact h0
    · rintro m ⟨b, hb⟩
      obtain ⟨m', g1, g2⟩ := Network.share_prefix hb.symm
      have := h3 m' g1
      rw [ej, g2] at this
      exact this
    · unfold Spec.deadline; rw [hnone, ← ej]; exact ht
    · intro s hs
      unfold share
      exact List.mem_filterMap.2 ⟨_, hv s hs, by simp⟩

namespace Demo

/-- the chains know each other, and chain 1 has three relayers -/
def before : List (Bool × Op) := [(false, .call .root (.ext (.addChain 1))), (true, .call .root (.ext (.addChain 0))),
  (true, .call .root (.ext (.setRelayers [1, 2, 3])))]

/-- relayers 1 and 2 vote while blocks go by on both chains -/
def votes : List (Bool × Op) := [(true, by_ 1 (.br (.vote 0 ⟨1, 7, 700⟩))), (true, .tick), (false, .tick), (true, .tick),
  (true, by_ 2 (.br (.vote 0 ⟨1, 7, 700⟩)))]

abbrev sent : List (Bool × Op) := before ++ (false, by_ 5 (.br (.deposit 700 [7] 1))) :: votes

theorem sent_proper : two.Proper sent where
  genesis i := by cases i <;> exact genesis_of rfl
  keys := by decide
  ids := by decide

theorem sent_honest (x : AccountId) : two.Honest sent true x := by
  intro l1 l2 k t e
  have e1 : l1 = sent.take l1.length := by rw [e]; simp
  have e2 : sent[l1.length]? = some (true, .call (.signed x) (.br (.vote k t))) := by rw [e]; simp
  have e3 : l1.length < 9 := by
    have := congrArg List.length e
    simp [sent, before, votes] at this
    omega
  generalize l1.length = n at e1 e2 e3
  subst e1
  have : n = 0 ∨ n = 1 ∨ n = 2 ∨ n = 3 ∨ n = 4 ∨ n = 5 ∨ n = 6 ∨ n = 7 ∨ n = 8 := by omega
  rcases this with rfl | rfl | rfl | rfl | rfl | rfl | rfl | rfl | rfl <;> simp [sent, before, votes, by_] at e2
  · obtain ⟨rfl, rfl, rfl⟩ := e2
    exact ⟨false, [7], rfl, by decide, rfl⟩
  · obtain ⟨rfl, rfl, rfl⟩ := e2
    exact ⟨false, [7], rfl, by decide, rfl⟩

end Demo

example := C158 (N := Demo.two) (i := false) (j := true) (a := 5) (v := 700) (r := [7]) (l1 := Demo.before) (l2 := Demo.votes) (n := 0)
  [1, 2] (by decide) Demo.sent_proper Demo.sent_honest rfl (by decide)
  (fun m h => (by decide : ∀ m ∈ List.inits Demo.before, (Demo.two.after m false).br.nonces.get 1 ≠ some (2 ^ 64 - 1)) m ((List.mem_inits _ _).2 h))
  (by decide) (by decide) (by decide) (by decide) (by decide)
  (fun m h => (by decide : ∀ m ∈ List.inits Demo.votes, (Demo.two.after (Demo.before ++ m) true).br.threshold = (Demo.two.after Demo.before true).br.threshold ∧
    ∀ s ∈ [1, 2], s ∈ (Demo.two.after (Demo.before ++ m) true).br.relayers) m ((List.mem_inits _ _).2 h))
  (by simp [Demo.votes, Demo.by_, Demo.two, Demo.cfg]) (by decide)
