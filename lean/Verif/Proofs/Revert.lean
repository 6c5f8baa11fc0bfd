import Verif.Props.RevertSpec
import Verif.Props.Govern
import Verif.Props.Sync
import Verif.Props.Bridge
/-
Settings can be put back.
-/
open Spec.Revert

variable {c : Cfg} {w w' : World}

theorem Restored.refl (w : World) : Restored w w where
  now := rfl
  active := rfl
  bal := rfl
  nfts := rfl
  nft := rfl
  mkt := rfl
  auc := rfl
  rent := rfl
  tr := rfl
  br := rfl
  rew := rfl
  evs := rfl
  servers := .refl _
  clusters := fun _ => rfl
  eras := fun _ => rfl
  tee := rfl

theorem findServer {l : List MetricsServer} {a : AccountId} {s : MetricsServer}
    (h : l.find? (fun x => decide (x.addr = a)) = some s) : s ∈ l ∧ s.addr = a :=
  ⟨List.mem_of_find?_eq_some h, by simpa using List.find?_some h⟩

/-- a new server, put last and taken away, leaves the list as it was -/
theorem swapRemove_last {l : List MetricsServer} {s : MetricsServer} (h : ∀ x ∈ l, x.addr ≠ s.addr) :
    swapRemoveBy (fun x => decide (x.addr = s.addr)) (l ++ [s]) = l := by
  have h1 : (l ++ [s]).findIdx? (fun x => decide (x.addr = s.addr)) = some l.length := by
    rw [List.findIdx?_append]
    have : l.findIdx? (fun x => decide (x.addr = s.addr)) = none := by
      rw [List.findIdx?_eq_none_iff]; intro x hx; simpa using h x hx
    simp [this]
  simp [swapRemoveBy, h1]

/-- the kind of a server changed and changed back -/
theorem setKind_back {a : AccountId} {t : ClusterType} : ∀ {l : List MetricsServer} {s : MetricsServer},
    l.find? (fun x => decide (x.addr = a)) = some s → TeeM.setKind a s.kind (TeeM.setKind a t l) = l
  | [], _, h => by cases h
  | x :: r, s, h => by
    by_cases hx : x.addr = a
    · simp [List.find?, hx] at h; subst h
      subst hx; simp [TeeM.setKind]
    · simp [List.find?, hx] at h
      simp [TeeM.setKind, hx, setKind_back (t := t) (l := r) (by simpa using h)]

theorem setKind_has (a : AccountId) (t : ClusterType) (b : AccountId) : ∀ (l : List MetricsServer),
    (∃ x ∈ TeeM.setKind a t l, x.addr = b) ↔ ∃ x ∈ l, x.addr = b
  | [] => by simp [TeeM.setKind]
  | x :: r => by
    unfold TeeM.setKind
    split
    · simp
    · simp only [List.mem_cons, exists_eq_or_imp, setKind_has a t b r]

theorem insert_back {K V : Type} [DecidableEq K] {m : FMap K V} {k : K} {v : V} (x : V) (h : m.get k = some v) (j : K) :
    ((m.insert k x).insert k v).get j = m.get j := by
  by_cases e : j = k
  · subst e; simp [h]
  · simp [FMap.get_insert, e]

theorem servers_back {l : List MetricsServer} {s : MetricsServer} (hs : s ∈ l) (hn : (l.map (·.addr)).Nodup) :
    (swapRemoveBy (fun x => decide (x.addr = s.addr)) l ++ [s]).Perm l := by
  refine ((swapRemoveBy_key MetricsServer.addr s.addr hn).append_right [s]).trans ?_
  induction l with
  | nil => cases hs
  | cons x r ih =>
    simp only [List.map_cons, List.nodup_cons, List.mem_map, not_exists, not_and] at hn
    rcases List.mem_cons.1 hs with rfl | hs
    · have : r.filter (fun x => decide (x.addr ≠ s.addr)) = r :=
        List.filter_eq_self.2 fun x hx => by simpa using hn.1 x hx
      have e : (s :: r).filter (fun x => decide (x.addr ≠ s.addr)) = r := by rw [List.filter_cons]; simpa using this
      rw [e]; exact List.perm_append_singleton s r
    · have : x.addr ≠ s.addr := fun h => hn.1 s hs h.symm
      rw [List.filter_cons, if_pos (by simpa using this)]
      exact (ih hs hn.2).cons x

theorem call_back (hr : Reach c w) {x y : Call} {o : Origin} (h : dispatch c x o w = .ok w') (hb : back w x = some y) :
    ∃ w2, dispatch c y o w' = .ok w2 ∧ Restored w w2 := by
  have hd := (C83_servers_distinct hr)
  cases x with
  | root x =>
    cases o with
    | signed a => cases h
    | ext => cases h
    | root =>
      cases x with
      | tee x =>
        cases x <;> simp only [back] at hb
        case registerServer s =>
          cases hb
          simp only [dispatch, rootCall, TeeM.root, TeeM.registerServer] at h; inv_ok at h
          obtain ⟨h1, h2, rfl⟩ := h
          refine ⟨_, (by eval_ok [rootCall, TeeM.root, TeeM.unregisterServer]; rfl), ?_⟩
          exact { Restored.refl w with servers := by simp only [swapRemove_last h1]; exact .refl _ }
        case updateCluster k t =>
          cases e : w.tee.clusters.get k with
          | none => simp [e] at hb
          | some z =>
            simp only [e, Option.map_some, Option.some.injEq] at hb; subst hb
            simp only [dispatch, rootCall, TeeM.root, TeeM.updateCluster, e] at h; inv_ok at h; obtain ⟨_, hz, rfl⟩ := h; cases hz
            refine ⟨_, (by eval_ok [rootCall, TeeM.root, TeeM.updateCluster]; rfl), ?_⟩
            exact { Restored.refl w with clusters := insert_back _ e }
        case unregisterServer a =>
          cases e : w.tee.servers.find? (fun x => decide (x.addr = a)) with
          | none => simp [e] at hb
          | some s =>
            simp only [e, Option.map_some, Option.some.injEq] at hb; subst hb
            obtain ⟨hs, rfl⟩ := findServer e
            simp only [dispatch, rootCall, TeeM.root, TeeM.unregisterServer] at h; inv_ok at h
            have hp := swapRemoveBy_key MetricsServer.addr s.addr hd.1
            have hl := servers_back hs hd.1
            have hlen := hl.length_eq
            simp only [List.length_append, List.length_cons, List.length_nil] at hlen
            have h1 : ∀ x ∈ swapRemoveBy (fun x => decide (x.addr = s.addr)) w.tee.servers, x.addr ≠ s.addr := by
              intro x hx
              have := (hp.mem_iff.1 hx)
              simpa using (List.mem_filter.1 this).2
            have h2 : (swapRemoveBy (fun x => decide (x.addr = s.addr)) w.tee.servers).length < c.teeList := by omega
            obtain ⟨_, _, _, rfl⟩ := h
            refine ⟨_, (by simp only [dispatch, rootCall, TeeM.root, TeeM.registerServer, require, if_pos h1, if_pos h2]; rfl), ?_⟩
            exact { Restored.refl w with servers := hl }
        case setServerType a t =>
          cases e : w.tee.servers.find? (fun x => decide (x.addr = a)) with
          | none => simp [e] at hb
          | some s =>
            simp only [e, Option.map_some, Option.some.injEq] at hb; subst hb
            simp only [dispatch, rootCall, TeeM.root, TeeM.setServerType] at h; inv_ok at h
            have h1 := findServer e
            have h2 := (setKind_has a t a w.tee.servers).2 ⟨s, h1⟩
            obtain ⟨_, _, _, rfl⟩ := h
            refine ⟨_, (by simp only [dispatch, rootCall, TeeM.root, TeeM.setServerType, require, h2, if_true]; rfl), ?_⟩
            exact { Restored.refl w with servers := by simp only [setKind_back e]; exact .refl _ }
        case setWeights => cases hb; cases h; exact ⟨_, rfl, Restored.refl w⟩
        case setStakingAmount => cases hb; cases h; exact ⟨_, rfl, Restored.refl w⟩
        case setPool => cases hb; cases h; exact ⟨_, rfl, Restored.refl w⟩
        case setAssignedEra op era =>
          cases e : w.tee.assignedEra.get op with
          | none => simp [e] at hb
          | some z =>
            simp only [e, Option.map_some, Option.some.injEq] at hb; subst hb
            simp only [dispatch, rootCall, TeeM.root, TeeM.setAssignedEra, e] at h; inv_ok at h; obtain ⟨_, hz, rfl⟩ := h; cases hz
            refine ⟨_, (by eval_ok [rootCall, TeeM.root, TeeM.setAssignedEra]; rfl), ?_⟩
            exact { Restored.refl w with eras := insert_back _ e }
        all_goals cases hb
      | trFee k v => cases k <;> (cases hb; cases h; exact ⟨_, rfl, Restored.refl w⟩)
      | _ => cases hb; cases h; exact ⟨_, rfl, Restored.refl w⟩
  | ext x =>
    have ho : BrM.ext c w x = .ok w' ∧ ∀ y v, dispatch c (.ext y) o v = BrM.ext c v y := by
      cases o with
      | signed a => cases h
      | root => exact ⟨h, fun _ _ => rfl⟩
      | ext => exact ⟨h, fun _ _ => rfl⟩
    obtain ⟨h, ho⟩ := ho
    cases x <;> simp only [back] at hb <;> try cases hb
    case setThreshold t =>
      split at hb
      · cases hb
      · cases hb
        simp only [BrM.ext, BrM.setThreshold] at h; inv_ok at h
        obtain ⟨_, rfl⟩ := h
        have : 0 < w.br.threshold := by omega
        refine ⟨_, by rw [ho]; simp only [BrM.ext, BrM.setThreshold, require, this, if_true]; rfl, Restored.refl w⟩
    all_goals
      cases h
      exact ⟨_, by rw [ho]; rfl, Restored.refl w⟩
  | _ => cases hb

/-- the threshold is not set to zero -/
theorem step_threshold (w : World) (o : Op) (ho : o.Ok c) (h : w.br.threshold ≠ 0) : (step c w o).br.threshold ≠ 0 := by
  have hs := step_br w o ho
  generalize step c w o = w' at hs ⊢
  cases hs with
  | quiet e he => rw [e]; exact h
  | ext hg hx h' e he =>
    rename_i r _
    rw [e]
    cases r <;> simp only [BrM.ext, BrM.setThreshold, BrM.addChain, BrM.setNonce, BrM.setRelayers, BrM.setFee] at h' <;> inv_ok at h' <;> grind
  | deposit _ _ _ e he => rw [e]; exact h
  | vote h1 h2 h3 h4 e he hb => rw [e]; exact h
