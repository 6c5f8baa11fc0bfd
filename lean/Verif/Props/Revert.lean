import Verif.Proofs.Revert
import Verif.Props.Demo
/-
C122: what governance sets it can set back.
-/
open Spec.Revert

variable {c : Cfg} {w w' : World}

/-- C122: a setting of governance (a fee, an amount, the weights, the era or the kind of something, a server, the
threshold, the relayers) can be put back by the same origin at once, and then nothing is left of it. -/
theorem C122 (hr : Reach c w) {x y : Call} {o : Origin} (h : dispatch c x o w = .ok w') (hb : back w x = some y) :
    ∃ w2, dispatch c y o w' = .ok w2 ∧ Restored w w2 := call_back hr h hb

/-- Four settings are for good: whatever happens afterwards, the chain stays added, the number of a cluster stays used,
a removed cluster stays away, and the threshold does not become zero again. -/
theorem C122_for_good (hr : Reach c w) {x : Call} {o : Origin} {p : World → Prop} (ho : (Op.call o x).Ok c)
    (h : dispatch c x o w = .ok w') (hg : ForGood w x p) (l : List Op) (hl : ∀ o ∈ l, o.Ok c) : ¬ p (run c w' l) := by
  have hw : step c w (.call o x) = w' := by simp [step, h, orSame]
  have hr' : Reach c w' := hw ▸ .step (.call o x) hr ho
  cases hg with
  | @chain k =>
    have h0 : (w'.br.nonces.get k).isSome := by
      cases o <;> simp only [dispatch, signedCall, BrM.ext, BrM.addChain] at h
      · cases h
      all_goals inv_ok at h; obtain ⟨_, _, rfl⟩ := h; simp
    have := run_inv (P := fun w => (w.br.nonces.get k).isSome) (fun w o _ ho h => C56_stays o ho h) hr' h0 l hl
    intro e; rw [e] at this; cases this
  | @create t =>
    have h0 : w.tee.nextCluster < w'.tee.nextCluster := by
      cases o <;> simp only [dispatch, signedCall, rootCall, TeeM.root, TeeM.createCluster] at h
      · cases h
      · inv_ok at h; obtain ⟨_, _, rfl⟩ := h; simp
      · cases h
    have := run_inv (P := fun v => w.tee.nextCluster < v.tee.nextCluster)
      (fun v o _ ho h => Nat.lt_of_lt_of_le h (step_nextCluster v o ho).1) hr' h0 l hl
    omega
  | @remove k =>
    have h0 : w.tee.clusters.get k ≠ none ∧ w'.tee.clusters.get k = none ∧ w'.tee.nextCluster = w.tee.nextCluster := by
      cases o <;> simp only [dispatch, signedCall, rootCall, TeeM.root, TeeM.removeCluster] at h
      · cases h
      · inv_ok at h; obtain ⟨x, hx, _, rfl⟩ := h; simp [hx]
      · cases h
    have h1 : k < w'.tee.nextCluster := by
      rw [h0.2.2]
      have := hr.tinv.fresh k
      cases e : w.tee.clusters.get k with
      | none => exact absurd e h0.1
      | some z => rw [e] at this; simpa using this
    have := run_inv (P := fun v => k < v.tee.nextCluster ∧ v.tee.clusters.get k = none)
      (fun v o _ ho h => ⟨Nat.lt_of_lt_of_le h.1 (step_nextCluster v o ho).1, (step_nextCluster v o ho).2 k h.1 h.2⟩)
      hr' ⟨h1, h0.2.1⟩ l hl
    exact fun e => e this.2
  | @threshold t _ =>
    have h0 : w'.br.threshold ≠ 0 := by
      cases o <;> simp only [dispatch, signedCall, BrM.ext, BrM.setThreshold] at h
      · cases h
      all_goals inv_ok at h; obtain ⟨_, rfl⟩ := h; simp only; omega
    exact run_inv (P := fun v => v.br.threshold ≠ 0) (fun v o _ ho h => step_threshold v o ho h) hr' h0 l hl

/-- There are no others: every accepted call of governance can be put back, is for good, or is a decision about a
member of the enclave registry or a nonce. -/
theorem C122_all {x : Call} {o : Origin} (hx : (∃ r, x = .root r) ∨ ∃ e, x = .ext e) (h : dispatch c x o w = .ok w') :
    (∃ y, back w x = some y) ∨ (∃ p, ForGood w x p) ∨ Decision x := by
  rcases hx with ⟨r, rfl⟩ | ⟨e, rfl⟩
  · cases o <;> simp only [dispatch, signedCall] at h
    · cases h
    · cases r with
      | tee r =>
        cases r
        case createCluster => exact .inr (.inl ⟨_, .create⟩)
        case removeCluster => exact .inr (.inl ⟨_, .remove⟩)
        case updateCluster k t =>
          simp only [rootCall, TeeM.root, TeeM.updateCluster] at h; inv_ok at h
          obtain ⟨z, hz, _⟩ := h; exact .inl ⟨_, by simp only [back, hz, Option.map_some]; rfl⟩
        case setAssignedEra op e =>
          simp only [rootCall, TeeM.root, TeeM.setAssignedEra] at h; inv_ok at h
          obtain ⟨z, hz, _⟩ := h; exact .inl ⟨_, by simp only [back, hz, Option.map_some]; rfl⟩
        case unregisterServer a =>
          simp only [rootCall, TeeM.root, TeeM.unregisterServer] at h; inv_ok at h
          obtain ⟨z, hz, ha, _⟩ := h
          cases e : w.tee.servers.find? (fun x => decide (x.addr = a)) with
          | none => rw [List.find?_eq_none] at e; simpa [ha] using e z hz
          | some s => exact .inl ⟨_, by simp only [back, e, Option.map_some]; rfl⟩
        case setServerType a t =>
          simp only [rootCall, TeeM.root, TeeM.setServerType] at h; inv_ok at h
          obtain ⟨z, hz, ha, _⟩ := h
          cases e : w.tee.servers.find? (fun x => decide (x.addr = a)) with
          | none => rw [List.find?_eq_none] at e; simpa [ha] using e z hz
          | some s => exact .inl ⟨_, by simp only [back, e, Option.map_some]; rfl⟩
        all_goals first
          | exact .inl ⟨_, rfl⟩
          | exact .inr (.inr trivial)
      | _ => exact .inl ⟨_, rfl⟩
    · cases h
  · cases e
    case setThreshold t =>
      by_cases h0 : w.br.threshold = 0
      · exact .inr (.inl ⟨_, .threshold h0⟩)
      · exact .inl ⟨_, by simp only [back, h0, if_false]; rfl⟩
    case addChain => exact .inr (.inl ⟨_, .chain⟩)
    case setNonce => exact .inr (.inr trivial)
    all_goals exact .inl ⟨_, rfl⟩

/-- the hypotheses are met: on a chain with two enclaves and a metrics server, root removes the server and registers it
again -/
example : ∃ w2, dispatch Demo.cfg (.root (.tee (.registerServer ⟨7, .pub⟩))) .root
      (Demo.at_ (Demo.enclaves ++ [.call .root (.root (.tee (.unregisterServer 7)))])) = .ok w2 ∧
    Restored (Demo.at_ Demo.enclaves) w2 :=
  C122 (c := Demo.cfg) (x := .root (.tee (.unregisterServer 7))) (Demo.reach _ (by decide)) (Demo.accepted (by decide)) rfl

/-- and a chain, once added, is there for good -/
example (l : List Op) (hl : ∀ o ∈ l, o.Ok Demo.cfg) :
    (run Demo.cfg (Demo.at_ (Demo.enclaves ++ [.call .ext (.ext (.addChain 1))])) l).br.nonces.get 1 ≠ none :=
  C122_for_good (c := Demo.cfg) (Demo.reach Demo.enclaves (by decide)) (by decide)
    (Demo.accepted (x := .ext (.addChain 1)) (o := .ext) (by decide)) .chain l hl
