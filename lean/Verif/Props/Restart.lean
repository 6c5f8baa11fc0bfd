import Verif.Props.Early
/-
Property C157: the bridge can always be brought back to work.
-/
variable {c : Cfg} {w w' : World} {a : AccountId}
set_option maxRecDepth 10000

namespace Restart

theorem addChain_state {o : Origin} (ho : o = .root ∨ o = .ext) {k : ChainId} (hk : k ≠ c.chain) :
    ∃ m, step c w (.call o (.ext (.addChain k))) = { w with br := { w.br with nonces := m } } ∧ (m.get k).isSome := by
  cases h : w.br.nonces.get k with
  | none =>
    have := (C75_govern (c := c) (w := w) ho).1 k hk h
    refine ⟨w.br.nonces.insert k 0, by simp only [step, this, orSame], ?_⟩
    rw [FMap.get_insert, if_pos rfl]; rfl
  | some n =>
    refine ⟨w.br.nonces, ?_, by simp [h]⟩
    cases hd : dispatch c (.ext (.addChain k)) o w with
    | error e => simp only [step, hd, orSame]
    | ok v =>
      exfalso
      rcases ho with rfl | rfl <;>
      · simp only [dispatch, BrM.ext, BrM.addChain, BrM.allowed] at hd
        inv_ok at hd
        simp [h, require] at hd

end Restart

/- C157 -/

/-- Whatever state the bridge is in, root or the committee can make it work with three calls: then the vote of the account they name as the only
relayer pays every transfer from every other chain that nobody has voted for before. -/
theorem C157_restored {o : Origin} (ho : o = .root ∨ o = .ext) {k : ChainId} {t : Transfer} (hk : k ≠ c.chain)
    (hv : w.br.votes.get (k, t) = none) (hl : 0 < c.relayerLimit) (hi : w.bal.issuance + t.amount ≤ U128MAX)
    (he : c.ed ≤ t.amount ∨ 0 < w.bal.freeOf t.recipient) :
    let w' := run c w [.call o (.ext (.addChain k)), .call o (.ext (.setRelayers [a])), .call o (.ext (.setThreshold 1)),
      .call (.signed a) (.br (.vote k t))]
    w'.evs = .approved k t :: .voted k t a :: w.evs ∧
      ∀ x, w'.bal.freeOf x = w.bal.freeOf x + if x = t.recipient then t.amount else 0 := by
  obtain ⟨m, e1, e2⟩ := Restart.addChain_state (c := c) (w := w) ho hk
  let w1 : World := { w with br := { w.br with nonces := m } }
  let w2 : World := { w1 with br := { w1.br with relayers := [a] } }
  let w3 : World := { w2 with br := { w2.br with threshold := 1 } }
  have g1 : step c w1 (.call o (.ext (.setRelayers [a]))) = w2 := by
    have := (C75_govern (c := c) (w := w1) ho).2.1 [a]
    simp only [step, this, orSame]; rfl
  have g2 : step c w2 (.call o (.ext (.setThreshold 1))) = w3 := by
    have := (C75_govern (c := c) (w := w2) ho).2.2.2.1 1 (by omega)
    simp only [step, this, orSame]; rfl
  have e0 : Spec.votesFor w3 k t = [] := by
    show ((w.br.votes.get (k, t)).map Proposal.votes).getD [] = []
    rw [hv]; rfl
  obtain ⟨b, h1, h2, _⟩ := C75_mint_partial (c := c) (w := w3) (a := a) (k := k) (t := t) (List.mem_singleton.2 rfl) e2
    (fun p hp => by rw [show w3.br.votes.get (k, t) = none from hv] at hp; cases hp) (by rw [e0]; simp) (by rw [e0]; exact hl)
    (by rw [e0]; exact Nat.le_refl 1) hi he
  simp only [run, e1]
  show (step c (step c (step c w1 _) _) _).evs = _ ∧ ∀ x, (step c (step c (step c w1 _) _) _).bal.freeOf x = _
  rw [g1, g2]
  simp only [step, h1, orSame]
  exact ⟨rfl, h2⟩

/-- While more votes are demanded than a transfer can have, nothing is approved: governance should not do that. -/
theorem C157_halted (hr : Reach c w) {k : ChainId} {t : Transfer} (l : List Op) (hl : ∀ o ∈ l, o.Ok c)
    (ht : ∀ l1, l1 <+: l → c.relayerLimit < (run c w l1).br.threshold) (h : .approved k t ∉ w.evs) :
    .approved k t ∉ (run c w l).evs := by
  induction l generalizing w with
  | nil => exact h
  | cons o l ih =>
    have ho := hl o (List.mem_cons_self ..)
    refine ih (w := step c w o) (hr.step o ho) (fun o h => hl o (List.mem_cons_of_mem _ h))
      (fun l1 h => ht (o :: l1) ((List.prefix_cons_inj o).2 h)) ?_
    have h0 : c.relayerLimit < w.br.threshold := ht [] List.nil_prefix
    have hs := step_br w o ho
    generalize step c w o = w' at *
    cases hs with
    | quiet e he => rwa [mem_bridge rfl he]
    | ext _ _ _ e he => rwa [mem_bridge rfl he]
    | deposit _ _ _ e he => rw [he]; simpa using h
    | @vote a k' t' x _ g1 g2 g3 g4 e he hb =>
      have hx : x.2 = false := by
        cases hx : x.2 with
        | false => rfl
        | true =>
          exfalso
          have h1 := (BrM.vote_ok g3).2.1.1 hx
          have h2 : x.1.votes.length ≤ c.relayerLimit := by
            cases hp : w.br.votes.get (k', t') with
            | none =>
              rw [hp] at g3
              obtain ⟨_, _, ⟨_, g, _⟩ | ⟨q, hq, _⟩⟩ := BrM.vote_ok g3
              · simp only [BrM.vote] at g3; inv_ok at g3
                rw [g]; simpa using g3.1
              · cases hq
            | some p =>
              rw [hp] at g3
              obtain ⟨_, _, ⟨hq, _⟩ | ⟨q, hq, _, _, _, g, _⟩⟩ := BrM.vote_ok g3
              · cases hq
              · cases hq
                simp only [BrM.vote] at g3; inv_ok at g3
                rw [g]; simp; omega
          omega
      rw [he, hx]
      simpa using h

/-- root demands seven votes, though there is only room for five; relayers 1, 2 and 3 vote -/
abbrev demanding : List Op := [.call .root (.ext (.addChain 1)), .call .root (.ext (.setRelayers [1, 2, 3])), .call .root (.ext (.setThreshold 7))]

example := C157_halted (Demo.reach demanding (by decide)) (k := 1) (t := Demo.t7) [Demo.vote7 1, Demo.vote7 2, Demo.vote7 3] (by decide)
  (fun l1 h => (by decide : ∀ l1 ∈ List.inits [Demo.vote7 1, Demo.vote7 2, Demo.vote7 3],
    Demo.cfg.relayerLimit < (run Demo.cfg (Demo.at_ demanding) l1).br.threshold) l1 ((List.mem_inits _ _).2 h)) (by decide)

-- relayer 9 is named, and can approve a transfer with another nonce
example := C157_restored (c := Demo.cfg) (w := Demo.at_ (demanding ++ [Demo.vote7 1])) (a := 9) (o := .root) (.inl rfl) (k := 1) (t := ⟨2, 7, 700⟩)
  (by decide) rfl (by decide) (by decide) (by decide)
