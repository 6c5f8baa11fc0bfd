import Verif.Props.BridgeBooksSpec
import Verif.Proofs.BrInv
/-
What an observer of the bridge's events writes down is what the operations store.
-/
open Spec

variable {c : Cfg} {w w' : World} {a : AccountId}

theorem FMap.sumBy_insert_new {K V : Type} [DecidableEq K] (f : K → V → Nat) {m : FMap K V} {k : K} (v : V)
    (h : m.get k = none) : (m.insert k v).sumBy f = m.sumBy f + f k v := by
  rw [FMap.sumBy_insert, FMap.sumBy_split f m k, h, Nat.zero_add, Nat.add_comm]

theorem FMap.sumBy_insert_old {K V : Type} [DecidableEq K] (f : K → V → Nat) {m : FMap K V} {k : K} (v : V) {u : V}
    (h : m.get k = some u) : (m.insert k v).sumBy f + f k u = m.sumBy f + f k v := by
  rw [FMap.sumBy_insert, FMap.sumBy_split f m k, h]; dsimp only; omega

theorem BrM.booked {x} (h : call c w a x = .ok w') :
    bridgeBooks w' = (emit c w a x).foldl entry (bridgeBooks w) := by
  cases x <;> simp only [call] at h <;> simp only [emit]
  case vote k t =>
    obtain ⟨x, h1, h2, h3, rfl⟩ := voteFor_ok h
    obtain ⟨e1, e2, e3⟩ := vote_ok h3
    have key : ∀ j m b,
        (w.br.votes.insert (k, t) x.1).sumBy (fun x p => if x.1 = j ∧ x.2.nonce = m ∧ b ∈ p.votes then 1 else 0) =
        w.br.votes.sumBy (fun x p => if x.1 = j ∧ x.2.nonce = m ∧ b ∈ p.votes then 1 else 0) +
          if j = k ∧ m = t.nonce ∧ b = a then 1 else 0 := by
      intro j m b
      rcases e3 with ⟨h4, h5, _⟩ | ⟨p, h4, h5, h6, _, h7, _⟩
      · rw [FMap.sumBy_insert_new _ _ h4, h5]
        simp only [List.mem_singleton, @eq_comm _ k, @eq_comm _ t.nonce]
      · have hi := FMap.sumBy_insert_old (fun (x : ChainId × Transfer) (p : Proposal) =>
          if x.1 = j ∧ x.2.nonce = m ∧ b ∈ p.votes then 1 else 0) x.1 h4
        simp only [h7, List.mem_append, List.mem_singleton, @eq_comm _ k, @eq_comm _ t.nonce] at hi
        by_cases g : j = k ∧ m = t.nonce
        · simp only [g.1, g.2, true_and] at hi ⊢
          by_cases g3 : b = a
          · subst g3; simpa [h6] using hi
          · simpa [g3] using hi
        · simp only [← and_assoc, g, false_and, if_false, Nat.add_zero] at hi ⊢
          exact hi
    have key2 : ∀ j m,
        (w.br.votes.insert (k, t) x.1).sumBy (fun x p => if x.1 = j ∧ x.2.nonce = m ∧ p.approved = true then 1 else 0) =
        w.br.votes.sumBy (fun x p => if x.1 = j ∧ x.2.nonce = m ∧ p.approved = true then 1 else 0) +
          if j = k ∧ m = t.nonce ∧ x.2 = true then 1 else 0 := by
      intro j m
      rcases e3 with ⟨h4, _⟩ | ⟨p, h4, h5, _⟩
      · rw [FMap.sumBy_insert_new _ _ h4, e1]
        simp only [@eq_comm _ k, @eq_comm _ t.nonce]
      · have hi := FMap.sumBy_insert_old (fun (x : ChainId × Transfer) (p : Proposal) =>
          if x.1 = j ∧ x.2.nonce = m ∧ p.approved = true then 1 else 0) x.1 h4
        simp only [h5, e1, Bool.false_eq_true, and_false, if_false, Nat.add_zero, @eq_comm _ k, @eq_comm _ t.nonce] at hi
        exact hi
    rw [h3]
    obtain ⟨p, b⟩ := x
    cases b
    · simp only [payout, List.foldl_cons, List.foldl_nil, entry]
      apply BridgeBooks.ext <;> first | rfl | skip
      · funext j m b; exact key j m b
      · funext j m; exact (key2 j m).trans (by simp [bridgeBooks])
    · simp only [payout, List.foldl_cons, List.foldl_nil, entry]
      apply BridgeBooks.ext <;> first | rfl | skip
      · funext j m b; exact key j m b
      · funext j m; exact (key2 j m).trans (by simp [bridgeBooks])
  case deposit v r d =>
    obtain ⟨b1, b2, _, _, _, _, rfl⟩ := deposit_ok h
    simp only [List.foldl_cons, List.foldl_nil, entry]
    apply BridgeBooks.ext <;> first | rfl | skip
    funext j
    simp [bridgeBooks, World.ev, FMap.get_insert]

theorem BrM.ext_booked {x} (h : ext c w x = .ok w') :
    bridgeBooks w' = (extEmit x).foldl entry (bridgeBooks w) := by
  cases x <;> simp only [ext] at h
  case setThreshold t => simp only [setThreshold] at h; inv_ok at h; obtain ⟨_, rfl⟩ := h; rfl
  case addChain k =>
    simp only [addChain] at h; inv_ok at h; obtain ⟨_, _, rfl⟩ := h
    apply BridgeBooks.ext <;> first | rfl | skip
    funext j
    simp [extEmit, entry, bridgeBooks, FMap.get_insert]
  case setNonce k n =>
    simp only [setNonce] at h; inv_ok at h; obtain ⟨_, _, _, _, rfl⟩ := h
    apply BridgeBooks.ext <;> first | rfl | skip
    funext j
    simp [extEmit, entry, bridgeBooks, FMap.get_insert]
  all_goals simp only [Except.ok.injEq] at h; subst h; rfl

/-- root and committee calls, however nested -/
theorem brCallEmit_booked (x : Call) : ∀ (o : Origin) (w' : World), (∀ a, o ≠ .signed a) →
    dispatch c x o w = .ok w' → bridgeBooks w' = (brCallEmit c w x o).foldl entry (bridgeBooks w) := by
  induction x with
  | mandate y ih =>
    have key : ∀ w', mandateResult w (dispatch c y .root w) = .ok w' →
        bridgeBooks w' = (match dispatch c y .root w with
          | .ok _ => brCallEmit c w y .root ++ [BrEvent.rootOp true]
          | .error _ => [BrEvent.rootOp false]).foldl entry (bridgeBooks w) := by
      intro w' h
      rcases mandateResult_ok h with ⟨w1, hy, rfl⟩ | ⟨e, hy, rfl⟩
      · rw [hy]
        dsimp only
        rw [List.foldl_append, ← ih .root w1 (by simp) hy]; rfl
      · rw [hy]; rfl
    intro o w' ho h
    cases o with
    | signed a => exact absurd rfl (ho a)
    | root => exact key w' h
    | ext => exact key w' h
  | root y =>
    intro o w' ho h
    cases o with
    | signed a => exact absurd rfl (ho a)
    | root =>
      have hs := step_side (c := c) w (.call .root (.root y)) (by simp [Op.Ok])
      have e : step c w (.call .root (.root y)) = w' := by simp only [step, h]; rfl
      have hb : w'.br = w.br ∧ w'.rew.extra = w.rew.extra := by
        simp only [dispatch] at h
        cases y <;> simp only [rootCall] at h
        case tee r => exact ⟨fr% World.br (TeeM.root_frame h), congrArg RewSt.extra (fr% World.rew (TeeM.root_frame h))⟩
        all_goals simp only [Except.ok.injEq] at h; subst h
        case trFee k x => cases k <;> exact ⟨rfl, rfl⟩
        all_goals exact ⟨rfl, rfl⟩
      simp only [bridgeBooks, hb.1, hb.2]; rfl
    | ext => simp [dispatch] at h
  | ext y =>
    intro o w' ho h
    cases o with
    | signed a => exact absurd rfl (ho a)
    | root => exact BrM.ext_booked h
    | ext => exact BrM.ext_booked h
  | _ =>
    intro o w' ho h
    cases o with
    | signed a => exact absurd rfl (ho a)
    | root => simp [dispatch] at h
    | ext => simp [dispatch] at h

/-- One operation and its events. -/
theorem step_booked (o : Op) (ho : o.Ok c) :
    bridgeBooks (step c w o) = (brEmit c w o).foldl entry (bridgeBooks w) := by
  have hq : (∀ a x, o ≠ .call (.signed a) (.br x)) → (∀ g x, (∀ a, g ≠ .signed a) → o ≠ .call g x) →
      bridgeBooks (step c w o) = bridgeBooks w := fun h1 h2 => by
    have hs : (step c w o).br = w.br ∧ (step c w o).rew.extra = w.rew.extra := by
      have h := step_side (c := c) w o ho
      generalize step c w o = w' at h
      cases h with
      | tee _ h => exact ⟨fr% World.br (TeeM.call_frame h), congrArg RewSt.extra (fr% World.rew (TeeM.call_frame h))⟩
      | br _ h => exact absurd rfl (h1 _ _)
      | teeRoot hg | root hg | ext hg => exact absurd rfl (h2 _ _ hg)
      | hookTee =>
        simp only [TeeM.hook]
        cases w.active with
        | none => exact ⟨rfl, rfl⟩
        | some e => dsimp only; split <;> exact ⟨rfl, rfl⟩
      | txFee _ h => simp only [RewM.txFee] at h; inv_ok at h; obtain ⟨_, _, rfl⟩ := h; exact ⟨rfl, rfl⟩
      | other _ h h' => exact ⟨h, by rw [h']⟩
      | _ => exact ⟨rfl, rfl⟩
    simp only [bridgeBooks, hs.1, hs.2]
  cases o
  case call o x =>
    cases h : dispatch c x o w with
    | error e => simp only [step, brEmit, h]; rfl
    | ok w' =>
      have hs : step c w (.call o x) = w' := by simp only [step, h]; rfl
      cases o with
      | signed a =>
        cases x
        case br x =>
          rw [hs]
          simp only [dispatch, signedCall] at h
          simp only [brEmit, dispatch, signedCall, h, brCallEmit]
          exact BrM.booked h
        all_goals
          rw [hq (by simp) (by rintro g x hg he; cases he; exact hg a rfl)]
          simp only [brEmit, h, brCallEmit]; rfl
      | root => rw [hs]; simp only [brEmit, h]; exact brCallEmit_booked x _ w' (by simp) h
      | ext => rw [hs]; simp only [brEmit, h]; exact brCallEmit_booked x _ w' (by simp) h
  all_goals exact hq (by simp) (by simp)
