import Verif.Props.Content
import Verif.Props.Operate
/-
Properties C81–C82: syncing a secret or capsule can be completed, and ids of clusters and collections are
never reused.
-/
variable {c : Cfg} {w w' : World} {a : AccountId}
set_option maxRecDepth 10000

namespace Spec

/-- what enclaves keep for an NFT: its secret or its capsule -/
inductive Part where
  | secret
  | capsule

/-- the call by which an enclave reports that it stored its share -/
def Part.call : Part → NFTId → NftM.Call
  | .secret, n => .addSecretShard n
  | .capsule, n => .addCapsuleShard n

/-- is the NFT waiting for enclaves to store their shares? -/
def Part.waits : Part → NFTData → Bool
  | .secret, d => d.st.syncSecret
  | .capsule, d => d.st.syncCapsule

/-- the NFT that does not wait any more -/
def Part.synced : Part → NFTData → NFTData
  | .secret, d => { d with st := { d.st with syncSecret := false } }
  | .capsule, d => { d with st := { d.st with syncCapsule := false } }

/-- the shares reported so far, if any: cluster and operator -/
def Part.stored : Part → World → NFTId → Option (List (ClusterId × AccountId))
  | .secret, w, n => w.nft.secretShards.get n
  | .capsule, w, n => w.nft.capsuleShards.get n

/-- the shares reported so far -/
def Part.shares (p : Part) (w : World) (n : NFTId) : List (ClusterId × AccountId) := (p.stored w n).getD []

end Spec
open Spec

theorem Spec.Part.ok (hc : c.Ok) (hr : Reach c w) {p : Part} {n : NFTId} {l} (h : p.stored w n = some l) :
    ShardsOk c l := by
  cases p
  · exact ((C11_shards hc hr).1 h).1
  · exact ((C11_shards hc hr).2 h).1

theorem ensureEnclave_of {s : ClusterId × AccountId} (h : IsEnclave w a s) : NftM.ensureEnclave w a = some s := by
  simp [NftM.ensureEnclave, h.1, h.2]

/- C81 -/

/-- Every registered enclave can report its share of every waiting NFT, once, if the shares reported so far came
from its cluster: the last of `ShardsNumber` shares ends the wait, and nothing else happens. -/
theorem C81_share (hc : c.Ok) (hr : Reach c w) (p : Part) {n : NFTId} {d : NFTData} {s : ClusterId × AccountId}
    (hs : 0 < c.shards) (ha : IsEnclave w a s) (hd : w.nfts.get n = some d) (hw : p.waits d = true)
    (h1 : ∀ t ∈ p.shares w n, t.1 = s.1) (h2 : s ∉ p.shares w n) :
    ∃ w', dispatch c (.nft (p.call n)) (.signed a) w = .ok w' ∧ w'.bal = w.bal ∧ w'.tee = w.tee ∧
      (∀ m, m ≠ n → w'.nfts.get m = w.nfts.get m ∧ p.stored w' m = p.stored w m) ∧
      if (p.shares w n).length + 1 = c.shards
        then w'.nfts.get n = some (p.synced d) ∧ p.stored w' n = none
        else w'.nfts.get n = some d ∧ p.stored w' n = some (p.shares w n ++ [s]) := by
  have he := ensureEnclave_of ha
  have hp : NftM.pushShard c (p.stored w n) s = .ok (if (p.shares w n).length + 1 = c.shards then none
      else some (p.shares w n ++ [s])) := by
    unfold Part.shares at h1 h2 ⊢
    cases hl : p.stored w n with
    | none => simp [NftM.pushShard, require, bind, Except.bind, pure, Except.pure, hs]
    | some l =>
      have hk := Part.ok hc hr hl
      rw [hl] at h1 h2
      simp only [Option.getD_some] at h1 h2 ⊢
      obtain ⟨x, t, rfl⟩ : ∃ x t, l = x :: t := by
        cases l with
        | nil => have := hk.1; simp at this
        | cons x t => exact ⟨x, t, rfl⟩
      have h3 := h1 x (by simp)
      have h4 := hk.2.1
      simp only [List.length_cons] at h4
      simp [NftM.pushShard, require, bind, Except.bind, pure, Except.pure, expectSome, h3, h4, h2]
  have hg := ((hr.inv hc).good n).nft d hd
  generalize hr' : (if (p.shares w n).length + 1 = c.shards then none else some (p.shares w n ++ [s])) = r at hp
  cases p with
  | secret =>
    have hsec : d.st.secret = true := hg.syncSecret hw
    have hd' : d.st.syncSecret = true := hw
    refine ⟨{ w with
      nfts := w.nfts.insert n { d with st := { d.st with syncSecret := r.isSome } }
      nft := { w.nft with secretShards := w.nft.secretShards.set n r } }, ?_, rfl, rfl, fun m hm => ?_, ?_⟩
    · have hp' : NftM.pushShard c (w.nft.secretShards.get n) s = _ := hp
      eval_ok [NftM.call, Part.call, NftM.addSecretShard, he, hd, hsec, hd', hp', World.putNft]
    · simp [Part.stored, FMap.get_insert, FMap.get_set, hm]
    · subst hr'
      split
      · simp [Part.stored, Part.synced, FMap.get_set]
      · simp [Part.stored, FMap.get_set, ← hd']
  | capsule =>
    have hsec : d.st.capsule = true := hg.syncCapsule hw
    have hd' : d.st.syncCapsule = true := hw
    refine ⟨{ w with
      nfts := w.nfts.insert n { d with st := { d.st with syncCapsule := r.isSome } }
      nft := { w.nft with capsuleShards := w.nft.capsuleShards.set n r } }, ?_, rfl, rfl, fun m hm => ?_, ?_⟩
    · have hp' : NftM.pushShard c (w.nft.capsuleShards.get n) s = _ := hp
      eval_ok [NftM.call, Part.call, NftM.addCapsuleShard, he, hd, hsec, hd', hp', mapErr, World.putNft]
    · simp [Part.stored, FMap.get_insert, FMap.get_set, hm]
    · subst hr'
      split
      · simp [Part.stored, Part.synced, FMap.get_set]
      · simp [Part.stored, FMap.get_set, ← hd']

theorem step_refused {x : Call} (h : ∀ w', dispatch c x (.signed a) w ≠ .ok w') : step c w (.call (.signed a) x) = w := by
  cases hq : dispatch c x (.signed a) w with
  | ok w' => exact absurd hq (h w')
  | error e => simp [step, hq, orSame]

/-- a share that is refused because the wait is over -/
theorem Spec.Part.over (p : Part) {n : NFTId} {d : NFTData} (hd : w.nfts.get n = some d) (hw : p.waits d = false) :
    step c w (.call (.signed a) (.nft (p.call n))) = w := by
  refine step_refused fun w' h => ?_
  cases p <;> simp only [Part.waits] at hw <;> simp only [dispatch, signedCall, NftM.call, Part.call] at h
  · simp only [NftM.addSecretShard] at h; inv_ok at h
    obtain ⟨_, d', _, _, h1, _, h2, _⟩ := h
    rw [hd] at h1; simp at h1; subst h1; rw [hw] at h2; simp at h2
  · simp only [NftM.addCapsuleShard] at h; inv_ok at h
    obtain ⟨_, d', _, _, h1, _, h2, _⟩ := h
    rw [hd] at h1; simp at h1; subst h1; rw [hw] at h2; simp at h2

/-- a share that is refused because it is there already -/
theorem Spec.Part.again (p : Part) {n : NFTId} {s : ClusterId × AccountId} (ha : IsEnclave w a s) (hm : s ∈ p.shares w n) :
    step c w (.call (.signed a) (.nft (p.call n))) = w := by
  have he := ensureEnclave_of ha
  unfold Part.shares at hm
  cases hl : p.stored w n with
  | none => rw [hl] at hm; simp at hm
  | some l =>
    rw [hl] at hm
    simp only [Option.getD_some] at hm
    have hp : ∀ r, NftM.pushShard c (some l) s ≠ .ok r := by
      intro r h
      simp only [NftM.pushShard] at h; inv_ok at h
      obtain ⟨_, _, _, _, h, _⟩ := h
      exact h hm
    refine step_refused fun w' h => ?_
    cases p <;> simp only [Part.stored] at hl <;> simp only [dispatch, signedCall, NftM.call, Part.call] at h
    · simp only [NftM.addSecretShard, he, hl] at h; inv_ok at h
      obtain ⟨s', _, r, e, _, _, _, h, _⟩ := h
      simp at e; subst e
      exact hp r h
    · simp only [NftM.addCapsuleShard, he, hl] at h; inv_ok at h
      obtain ⟨s', _, r, e, _, _, _, h, _⟩ := h
      simp at e; subst e
      exact hp r h

/-- What holds of completion: if the shares reported so far come from one cluster, and the enclaves of at least
`ShardsNumber` operators of that cluster all report, in any order and whoever of them reported before, the NFT
does not wait any more.  Missing: the shares may be from a cluster that has not enough operators, see `C81_fails`. -/
theorem C81_complete_partial (hc : c.Ok) (p : Part) {n : NFTId} {k : ClusterId} (hs : 0 < c.shards)
    {es : List (AccountId × AccountId)} (hr : Reach c w) {d : NFTData}
    (hd : w.nfts.get n = some d) (h1 : ∀ t ∈ p.shares w n, t.1 = k)
    (h2 : ∀ e ∈ es, IsEnclave w e.1 (k, e.2) ∧ ¬ c.pot e.1) (h3 : (es.map Prod.snd).Nodup)
    (h4 : c.shards ≤ es.length) :
    (run c w (es.map fun e => .call (.signed e.1) (.nft (p.call n)))).nfts.get n = some (p.synced d) := by
  have syn : ∀ {d : NFTData}, p.waits d = false → p.synced d = d := by
    intro d h
    cases p <;> simp only [Part.waits, Part.synced] at h ⊢ <;> rw [← h]
  -- all that have reported are there, or the wait is over
  have key : ∀ (es : List (AccountId × AccountId)) (w : World), Reach c w →
      (∀ e ∈ es, IsEnclave w e.1 (k, e.2) ∧ ¬ c.pot e.1) →
      (w.nfts.get n = some d ∧ (∀ t ∈ p.shares w n, t.1 = k) ∨ w.nfts.get n = some (p.synced d)) →
      Reach c (run c w (es.map fun e => .call (.signed e.1) (.nft (p.call n)))) ∧
      ((run c w (es.map fun e => .call (.signed e.1) (.nft (p.call n)))).nfts.get n = some (p.synced d) ∨
       p.waits d = true ∧
       ∀ t, t ∈ p.shares w n ∨ (∃ e ∈ es, t = (k, e.2)) →
        t ∈ p.shares (run c w (es.map fun e => .call (.signed e.1) (.nft (p.call n)))) n) := by
    intro es
    induction es with
    | nil =>
      intro w hr _ h
      refine ⟨hr, ?_⟩
      rcases h with ⟨h, _⟩ | h
      · cases hw : p.waits d with
        | false => left; simp only [List.map_nil, run]; rw [syn hw]; exact h
        | true => right; exact ⟨rfl, fun t ht => by simpa [run] using ht⟩
      · exact Or.inl h
    | cons e es ih =>
      intro w hr he h
      simp only [List.map_cons, run]
      have hok : Op.Ok c (.call (.signed e.1) (.nft (p.call n))) := (he e (by simp)).2
      have hr' := hr.step _ hok
      by_cases hw : p.waits d = false
      · have hd : w.nfts.get n = some d := by
          rcases h with ⟨h, _⟩ | h
          · exact h
          · rw [syn hw] at h; exact h
        rw [p.over hd hw] at hr' ⊢
        exact ih w hr (fun x hx => he x (by simp [hx])) (Or.inr (by rw [syn hw]; exact hd)) |>.imp id
          (fun h => h.imp id (fun h => by rw [hw] at h; simp at h))
      · have hw : p.waits d = true := by simpa using hw
        rcases h with ⟨hd, hk⟩ | hd
        · by_cases hm : (k, e.2) ∈ p.shares w n
          · rw [p.again (he e (by simp)).1 hm] at hr' ⊢
            obtain ⟨i1, i2⟩ := ih w hr (fun x hx => he x (by simp [hx])) (Or.inl ⟨hd, hk⟩)
            refine ⟨i1, i2.imp id (fun ⟨j1, j2⟩ => ⟨j1, fun t ht => j2 t ?_⟩)⟩
            rcases ht with ht | ⟨x, hx, rfl⟩
            · exact Or.inl ht
            · rcases List.mem_cons.1 hx with rfl | hx
              · exact Or.inl hm
              · exact Or.inr ⟨x, hx, rfl⟩
          · obtain ⟨w1, e1, _, e2, _, e3⟩ := C81_share hc hr p hs (he e (by simp)).1 hd hw hk hm
            have hst : step c w (.call (.signed e.1) (.nft (p.call n))) = w1 := by simp [step, e1, orSame]
            rw [hst] at hr' ⊢
            have he' : ∀ x ∈ es, IsEnclave w1 x.1 (k, x.2) ∧ ¬ c.pot x.1 := by
              intro x hx
              have := he x (by simp [hx])
              unfold IsEnclave at this ⊢
              rw [e2]; exact this
            split at e3
            · obtain ⟨i1, i2⟩ := ih w1 hr' he' (Or.inr e3.1)
              refine ⟨i1, Or.inl ?_⟩
              -- once over, always over
              have over : ∀ (es : List (AccountId × AccountId)),
                  run c w1 (es.map fun e => .call (.signed e.1) (.nft (p.call n))) = w1 := by
                intro es
                induction es with
                | nil => rfl
                | cons x es ih =>
                  simp only [List.map_cons, run]
                  rw [p.over e3.1 (by cases p <;> rfl)]; exact ih
              rw [over]; exact e3.1
            · obtain ⟨i1, i2⟩ := ih w1 hr' he' (Or.inl ⟨e3.1, by
                simp only [Part.shares, e3.2, Option.getD_some]
                intro t ht
                rcases List.mem_append.1 ht with ht | ht
                · exact hk t ht
                · simp at ht; rw [ht]⟩)
              refine ⟨i1, i2.imp id (fun ⟨j1, j2⟩ => ⟨j1, fun t ht => j2 t ?_⟩)⟩
              simp only [Part.shares, e3.2, Option.getD_some, List.mem_append, List.mem_singleton]
              rcases ht with ht | ⟨x, hx, rfl⟩
              · exact Or.inl (Or.inl ht)
              · rcases List.mem_cons.1 hx with rfl | hx
                · exact Or.inl (Or.inr rfl)
                · exact Or.inr ⟨x, hx, rfl⟩
        · have hov : p.waits (p.synced d) = false := by cases p <;> rfl
          rw [p.over hd hov] at hr' ⊢
          obtain ⟨i1, i2⟩ := ih w hr (fun x hx => he x (by simp [hx])) (Or.inr hd)
          refine ⟨i1, Or.inl ?_⟩
          have over : ∀ (es : List (AccountId × AccountId)),
              run c w (es.map fun e => .call (.signed e.1) (.nft (p.call n))) = w := by
            intro es
            induction es with
            | nil => rfl
            | cons x es ih =>
              simp only [List.map_cons, run]
              rw [p.over hd hov]; exact ih
          rw [over]; exact hd
  obtain ⟨hr', h | ⟨hw, h⟩⟩ := key es w hr h2 (Or.inl ⟨hd, h1⟩)
  · exact h
  · exfalso
    generalize run c w (es.map fun e => .call (.signed e.1) (.nft (p.call n))) = w' at hr' h
    have hsub : (es.map fun e => (k, e.2)) ⊆ p.shares w' n := by
      intro t ht
      obtain ⟨e, he, rfl⟩ := List.mem_map.1 ht
      exact h _ (Or.inr ⟨e, he, rfl⟩)
    have hnd : (es.map fun e => (k, e.2)).Nodup := by
      have : (es.map fun e => (k, e.2)) = (es.map Prod.snd).map (fun x => (k, x)) := by simp
      rw [this]
      exact h3.map (fun x y e => by simpa using e)
    have hle := (hnd.subperm hsub).length_le
    simp only [List.length_map] at hle
    unfold Part.shares at hle
    cases hl : p.stored w' n with
    | none => rw [hl] at hle; simp only [Option.getD_none, List.length_nil] at hle; omega
    | some l =>
      rw [hl] at hle
      have := (Part.ok hc hr' hl).2.1
      simp at hle; omega

-- two enclaves of cluster 0 are enough; the second one reports first
example : Reach Demo.cfg (Demo.at_ (Demo.enclaves ++ [Demo.by_ 1 (.nft (.createSecret [1] [2] ⟨0, by omega⟩ none false))])) ∧
    0 < Demo.cfg.shards ∧ Demo.cfg.shards ≤ [(19, 9), (18, 8)].length ∧
    ∀ e ∈ [(19, 9), (18, 8)], IsEnclave (Demo.at_ (Demo.enclaves ++
      [Demo.by_ 1 (.nft (.createSecret [1] [2] ⟨0, by omega⟩ none false))])) e.1 (0, e.2) ∧ ¬ Demo.cfg.pot e.1 :=
  ⟨Demo.reach _ (by decide), by decide, by decide, by unfold IsEnclave; decide⟩

/- C82 -/

/-- the counter of clusters never falls, and a cluster that was removed stays away -/
theorem step_nextCluster (w : World) (o : Op) (ho : o.Ok c) :
    w.tee.nextCluster ≤ (step c w o).tee.nextCluster ∧
    ∀ k, k < w.tee.nextCluster → w.tee.clusters.get k = none → (step c w o).tee.clusters.get k = none := by
  have ins : ∀ {k' : ClusterId} {x y : Cluster} {k : ClusterId}, w.tee.clusters.get k' = some x →
      w.tee.clusters.get k = none → (w.tee.clusters.insert k' y).get k = none := by
    intro k' x y k h1 h2
    rw [FMap.get_insert]; split
    · subst_vars; rw [h1] at h2; simp at h2
    · exact h2
  have drop : ∀ {w' op}, TeeM.unassign w op = .ok w' → w'.tee.nextCluster = w.tee.nextCluster ∧
      ∀ k, w.tee.clusters.get k = none → w'.tee.clusters.get k = none := by
    intro w' op h
    simp only [TeeM.unassign] at h; inv_ok at h
    obtain ⟨e, k', cl, _, _, _, h4, rfl⟩ := h
    exact ⟨rfl, fun k => ins h4⟩
  have hs := step_tee (c := c) w o ho
  generalize step c w o = w' at hs
  cases hs with
  | quiet h => rw [h]; exact ⟨Nat.le_refl _, fun _ _ => id⟩
  | hook _ h =>
    subst h
    rcases TeeM.hook_eq (c := c) w with h | ⟨_, _, _, h⟩ <;> rw [h]
    · exact ⟨Nat.le_refl _, fun _ _ => id⟩
    · exact ⟨Nat.le_refl _, fun _ _ => id⟩
  | call h1 h2 h3 =>
    rename_i x
    have e : w'.tee.nextCluster = w.tee.nextCluster ∧ w'.tee.clusters = w.tee.clusters := by
      cases x <;> simp only [TeeM.call] at h3
      case unregister =>
        simp only [TeeM.unregister, TeeM.dropRegistration, TeeM.unregisterAssigned] at h3
        split at h3 <;> frame_auto at h3 <;> simp_all [World.putBal]
      all_goals
        simp only [TeeM.register, TeeM.update, TeeM.dropUpdate, TeeM.withdraw, TeeM.submitReport, TeeM.claim,
          TeeM.bondExtra, TeeM.refundExcess] at h3
        frame_auto at h3
        simp [World.putBal, World.ev]
    rw [e.1, e.2]; exact ⟨Nat.le_refl _, fun _ _ => id⟩
  | root h1 h2 h3 h4 h5 h6 =>
    subst h6
    rename_i r w1 l
    show w.tee.nextCluster ≤ w1.tee.nextCluster ∧ ∀ k, k < w.tee.nextCluster → w.tee.clusters.get k = none →
      w1.tee.clusters.get k = none
    cases r <;> simp only [TeeM.root] at h4
    case assign =>
      simp only [TeeM.assign] at h4; inv_ok at h4
      obtain ⟨e, cl, era, h5, h6, _, _, _, _, rfl⟩ := h4
      exact ⟨Nat.le_refl _, fun k _ => ins h6⟩
    case approveUnregister =>
      simp only [TeeM.approveUnregister] at h4; inv_ok at h4
      have := drop h4.2
      exact ⟨by omega, fun k _ => this.2 k⟩
    case forceRemove =>
      simp only [TeeM.forceRemove] at h4; inv_ok at h4
      obtain ⟨w2, s, h5, _, rfl⟩ := h4
      have := drop h5
      exact ⟨by simp; omega, fun k _ => this.2 k⟩
    case createCluster =>
      simp only [TeeM.createCluster] at h4; inv_ok at h4
      obtain ⟨_, _, rfl⟩ := h4
      refine ⟨Nat.le_succ _, fun k hk h => ?_⟩
      rw [FMap.get_insert_ne _ _ (by omega)]; exact h
    case updateCluster =>
      simp only [TeeM.updateCluster] at h4; inv_ok at h4
      obtain ⟨cl, h5, rfl⟩ := h4
      exact ⟨Nat.le_refl _, fun k _ => ins h5⟩
    case removeCluster =>
      simp only [TeeM.removeCluster] at h4; inv_ok at h4
      obtain ⟨cl, h5, _, rfl⟩ := h4
      refine ⟨Nat.le_refl _, fun k _ hk => ?_⟩
      simp only [FMap.get_erase]; split <;> simp_all
    case forceUpdate op ad uri =>
      have e : w1.tee.nextCluster = w.tee.nextCluster ∧ w1.tee.clusters = w.tee.clusters := by
        cases ad <;> simp only [TeeM.forceUpdate, TeeM.forceAddr] at h4 <;> inv_ok at h4
        · obtain ⟨_, y, _, _, h5, _, rfl⟩ := h4; subst h5; exact ⟨rfl, rfl⟩
        · obtain ⟨_, y, _, _, _, _, h5, _, rfl⟩ := h4
          subst h5
          simp only
          split <;> exact ⟨rfl, rfl⟩
      rw [e.1, e.2]; exact ⟨Nat.le_refl _, fun _ _ => id⟩
    case approveUpdate op =>
      have e : w1.tee.nextCluster = w.tee.nextCluster ∧ w1.tee.clusters = w.tee.clusters := by
        simp only [TeeM.approveUpdate, TeeM.approveAddr] at h4; inv_ok at h4
        obtain ⟨_, _, y, _, _, _, _, h5, rfl⟩ := h4
        split at h5 <;> inv_ok at h5
        · subst h5; exact ⟨rfl, rfl⟩
        · obtain ⟨_, rfl⟩ := h5; exact ⟨rfl, rfl⟩
      rw [e.1, e.2]; exact ⟨Nat.le_refl _, fun _ _ => id⟩
    all_goals
      have e : w1.tee.nextCluster = w.tee.nextCluster ∧ w1.tee.clusters = w.tee.clusters := by
        simp only [TeeM.dropRegistration, TeeM.dropUpdate, TeeM.registerServer, TeeM.unregisterServer,
          TeeM.setServerType, TeeM.setWeights, TeeM.setStakingAmount, TeeM.setPool, TeeM.setAssignedEra] at h4
        frame_auto at h4
        simp [World.putBal]
      rw [e.1, e.2]; exact ⟨Nat.le_refl _, fun _ _ => id⟩

/-- A removed cluster never comes back under its id. -/
theorem C82_cluster (hr : Reach c w) {k : ClusterId} {x : Cluster} (h : w.tee.clusters.get k = some x)
    (l : List Op) (hl : ∀ o ∈ l, o.Ok c) (hg : (run c w l).tee.clusters.get k = none) (l' : List Op)
    (hl' : ∀ o ∈ l', o.Ok c) : (run c (run c w l) l').tee.clusters.get k = none := by
  have h1 : k < w.tee.nextCluster := by
    have := hr.tinv.fresh k
    rw [h] at this; simp at this; exact this
  have h2 : k < (run c w l).tee.nextCluster :=
    run_inv (P := fun w => k < w.tee.nextCluster)
      (fun w o _ ho h => Nat.lt_of_lt_of_le h (step_nextCluster w o ho).1) hr h1 l hl
  exact (run_inv (P := fun w => k < w.tee.nextCluster ∧ w.tee.clusters.get k = none)
    (fun w o _ ho h => ⟨Nat.lt_of_lt_of_le h.1 (step_nextCluster w o ho).1, (step_nextCluster w o ho).2 k h.1 h.2⟩)
    (hr.run l hl) ⟨h2, hg⟩ l' hl').2

/-- A burned collection never comes back under its id. -/
theorem C82_collection (hc : c.Ok) (hr : Reach c w) {k : CollId} {x : Coll} (h : w.nft.colls.get k = some x)
    (l : List Op) (hl : ∀ o ∈ l, o.Ok c) (hg : (run c w l).nft.colls.get k = none) (l' : List Op)
    (hl' : ∀ o ∈ l', o.Ok c) : (run c (run c w l) l').nft.colls.get k = none := by
  have h1 : k < w.nft.nextColl := by
    have := (hr.coll hc).fresh k
    rw [h] at this; simp at this; exact this
  have h2 : k < (run c w l).nft.nextColl :=
    run_inv (P := fun w => k < w.nft.nextColl)
      (fun w o hr ho h => Nat.lt_of_lt_of_le h (step_nextColl hc hr o ho).1) hr h1 l hl
  exact (run_inv (P := fun w => k < w.nft.nextColl ∧ w.nft.colls.get k = none)
    (fun w o hr ho h => ⟨Nat.lt_of_lt_of_le h.1 (step_nextColl hc hr o ho).1, (step_nextColl hc hr o ho).2 k h.1 h.2⟩)
    (hr.run l hl) ⟨h2, hg⟩ l' hl').2

-- a cluster and a collection that are created and removed; the next ones have other ids
example :
    let l : List Op := [.call .root (.root (.tee (.createCluster .pub))), Demo.by_ 1 (.nft (.createColl [1] none))]
    let l1 : List Op := [.call .root (.root (.tee (.removeCluster 0))), Demo.by_ 1 (.nft (.burnColl 0))]
    Reach Demo.cfg (Demo.at_ l) ∧ (Demo.at_ l).tee.clusters.get 0 ≠ none ∧ (Demo.at_ l).nft.colls.get 0 ≠ none ∧
    (Demo.at_ (l ++ l1)).tee.clusters.get 0 = none ∧ (Demo.at_ (l ++ l1)).nft.colls.get 0 = none ∧
    (Demo.at_ (l ++ l1 ++ l)).tee.clusters.get 1 ≠ none ∧ (Demo.at_ (l ++ l1 ++ l)).nft.colls.get 1 ≠ none :=
  ⟨Demo.reach _ (by decide), by decide, by decide, by decide, by decide, by decide, by decide⟩

/-! ## waiting for ever -/

/-- A waiting NFT is not touched but by the NFT pallet. -/
theorem SliceStep.idle {now off k} {s s' : Slice} {d : NFTData} (hg : Good c s) (h : SliceStep c now off k s s')
    (hk : ∀ a, k ≠ .signed .nft a) (hd : s.nft = some d) (hs : d.st.syncSecret = true ∨ d.st.syncCapsule = true) :
    s'.nft = some d := by
  have g := hg.nft d hd
  have hl : d.st.listed = false := by
    cases hl : d.st.listed
    · rfl
    · have := g.exL hl; rcases hs with hs | hs <;> simp_all
  have hr : d.st.rented = false := by
    cases hl : d.st.rented
    · rfl
    · have := g.exR hl; rcases hs with hs | hs <;> simp_all
  have ht : d.st.transmission = false := by
    cases hl : d.st.transmission
    · rfl
    · have := g.exT hl; rcases hs with hs | hs <;> simp_all
  have h1 : s.sale = none ∧ s.auc = none := by
    have := g.listed; rw [hl] at this; simp at this; exact this
  have h2 : s.con = none := by
    have := g.rented; rw [hr] at this; simp at this; exact this
  have h3 : s.tr = none := by
    have := g.trans; rw [ht] at this; simp at this; exact this
  cases h <;> rcases hs with hs | hs <;> simp_all [RentM.valid]

theorem NftM.call_waits {x : Call} (p : Part) {n : NFTId} {d : NFTData} (h : call c w a x = .ok w')
    (hg : GoodNft c (slice w n) d) (hf : w.nfts.get w.nft.nextNft = none) (hd : w.nfts.get n = some d)
    (hw : p.waits d = true) :
    w'.nfts.get n = none ∨
    ∃ d', w'.nfts.get n = some d' ∧ d'.owner = d.owner ∧
      ((p.waits d' = true ∧ p.stored w' n = p.stored w n) ∨
       (x = p.call n ∧ ∃ s l, ensureEnclave w a = some s ∧ pushShard c (p.stored w n) s = .ok l ∧
         p.stored w' n = l)) := by
  by_cases hm : some n = target w x
  swap
  · have := (call_same h hm).slice
    have e1 := congrArg Slice.nft this
    have e2 := congrArg Slice.secretShards this
    have e3 := congrArg Slice.capsuleShards this
    simp only [slice] at e1 e2 e3
    right
    refine ⟨d, by rw [e1]; exact hd, rfl, Or.inl ⟨hw, ?_⟩⟩
    cases p
    · exact e2
    · exact e3
  cases x <;> simp only [target, Option.some.injEq, reduceCtorEq] at hm
  case createNft => rw [hm, hf] at hd; simp at hd
  case createSecret => rw [hm, hf] at hd; simp at hd
  case createCapsule => rw [hm, hf] at hd; simp at hd
  all_goals subst hm
  all_goals simp only [call] at h
  case burnNft =>
    simp only [burnNft] at h; frame_auto at h
    left; exact FMap.get_erase_self _ _
  case addToColl k =>
    simp only [addToColl] at h; inv_ok at h
    obtain ⟨_, _, _, _, _, _, h1, _, _, _, rfl⟩ := h
    rw [hd] at h1; simp at h1; subst h1
    right
    refine ⟨_, FMap.get_insert_self _ _ _, rfl, Or.inl ⟨?_, ?_⟩⟩
    · cases p <;> exact hw
    · cases p <;> rfl
  case addSecretShard =>
    simp only [addSecretShard] at h; inv_ok at h
    obtain ⟨s, d1, l, h1, h2, h3, h4, h5, rfl⟩ := h
    rw [hd] at h2; simp at h2; subst h2
    right
    cases p with
    | secret =>
      refine ⟨_, FMap.get_insert_self _ _ _, rfl, Or.inr ⟨rfl, s, l, h1, h5, ?_⟩⟩
      simp [Part.stored, FMap.get_set]
    | capsule => have := hg.exS h4; simp [Part.waits] at hw; rw [hw] at this; simp at this
  case addCapsuleShard =>
    simp only [addCapsuleShard] at h; inv_ok at h
    obtain ⟨s, d1, l, h1, h2, h3, h4, h5, rfl⟩ := h
    rw [hd] at h2; simp at h2; subst h2
    right
    cases p with
    | capsule =>
      refine ⟨_, FMap.get_insert_self _ _ _, rfl, Or.inr ⟨rfl, s, l, h1, h5, ?_⟩⟩
      simp [Part.stored, FMap.get_set]
    | secret => have := hg.exS hw; rw [h4] at this; simp at this
  all_goals
    exfalso
    have e1 := hg.syncSecret
    have e2 := hg.syncCapsule
    simp only [transferNft, delegateNft, setRoyalty, addSecret, toCapsule, addSecretHelper, toCapsuleHelper,
      setCapsuleData, notifyKey] at h
    frame_auto at h
    cases p <;> simp_all [Part.waits]

/-- An NFT with a share from a cluster that was removed waits for ever: unless it is burned, it never is synced and
never has another owner, whatever happens. -/
theorem C81_stuck (hc : c.Ok) (hr : Reach c w) (p : Part) {n : NFTId} {d d' : NFTData} {t : ClusterId × AccountId}
    (hd : w.nfts.get n = some d) (ht : t ∈ p.shares w n) (hk : w.tee.clusters.get t.1 = none)
    (hk' : t.1 < w.tee.nextCluster) (l : List Op) (hl : ∀ o ∈ l, o.Ok c) (h' : (run c w l).nfts.get n = some d') :
    p.waits d' = true ∧ d'.owner = d.owner := by
  have key := run_inv (c := c) (P := fun w => w.tee.clusters.get t.1 = none ∧ t.1 < w.tee.nextCluster ∧
      (slice w n).born = true ∧
      ∀ x, w.nfts.get n = some x → p.waits x = true ∧ x.owner = d.owner ∧ t ∈ p.shares w n) ?_ hr ⟨hk, hk', born_of hc hr hd, ?_⟩ l hl
  · exact ⟨(key.2.2.2 d' h').1, (key.2.2.2 d' h').2.1⟩
  · rintro w o hr ho ⟨h1, h2, h3, h4⟩
    have hn := step_nextCluster (c := c) w o ho
    have hb : (slice (step c w o) n).born = true :=
      step_slice_inv (P := fun s => s.born = true) (fun _ _ _ _ _ _ _ hb h => born_stays h hb) hc hr h3 o ho
    refine ⟨hn.2 _ h2 h1, by omega, hb, ?_⟩
    cases hx : w.nfts.get n with
    | none =>
      intro x hx'
      have hi := (hr.inv hc).good n
      have := step_slice_inv (P := fun s => s.nft = none ∧ s.born = true) (n := n) (c := c) (w := w)
        (fun now off k s s' hk hgd ⟨e1, e2⟩ hs => by
          refine ⟨?_, born_stays hs e2⟩
          have e := hgd.gone e1
          rw [e2] at e
          subst e
          cases hs <;> simp_all [Slice.blank]) hc hr ⟨hx, h3⟩ o ho
      have e := this.1
      simp only [slice] at e
      rw [e] at hx'; simp at hx'
    | some x =>
      obtain ⟨p1, p2, p3⟩ := h4 x hx
      have hg := ((hr.inv hc).good n).nft x hx
      have hs : x.st.syncSecret = true ∨ x.st.syncCapsule = true := by
        cases p
        · exact Or.inl p1
        · exact Or.inr p1
      by_cases hno : ∀ a y, o = .call (.signed a) (.nft y) → NftM.call c w a y ≠ .ok (step c w o)
      swap
      · push Not at hno
        obtain ⟨a, y, rfl, hy⟩ := hno
        rcases NftM.call_waits p hy hg ((hr.inv hc).fresh _ (Nat.le_refl _)) hx p1 with e | ⟨z, e1, e2, e3⟩
        · rw [e]; simp
        · intro z' hz
          rw [e1] at hz; simp at hz; subst hz
          rcases e3 with ⟨e3, e4⟩ | ⟨_, s, l, e4, e5, e6⟩
          · exact ⟨e3, e2.trans p2, by unfold Part.shares; rw [e4]; exact p3⟩
          · -- no enclave of the removed cluster is left
            exfalso
            unfold Part.shares at p3
            cases hl : p.stored w n with
            | none => rw [hl] at p3; simp at p3
            | some l0 =>
              rw [hl] at p3 e5
              simp only [Option.getD_some] at p3
              have ho := Part.ok hc hr hl
              obtain ⟨k0, hk0⟩ := ho.2.2.1
              simp only [NftM.pushShard] at e5; inv_ok at e5
              obtain ⟨q, q1, q2, _⟩ := e5
              obtain ⟨cl, q3, _⟩ := hr.tinv.mem _ _ (isEnclave e4).2
              have q4 : q ∈ l0 := by
                cases l0 with
                | nil => simp at q1
                | cons y t => simp at q1; simp [q1]
              rw [q2, hk0 q q4, ← hk0 t p3, h1] at q3
              simp at q3
      · have h6 : NftSame w (step c w o) := by
          rcases step_core hc hr o ho with ⟨a, y, e, _, hy⟩ | ⟨_, h6⟩
          · exact absurd hy (hno a y e)
          · exact h6
        have e1 : (step c w o).nfts.get n = some x := by
          by_cases ho' : ∃ a y, o = .call (.signed a) (.nft y)
          · obtain ⟨a, y, rfl⟩ := ho'
            cases hy : dispatch c (.nft y) (.signed a) w with
            | error e => simp only [step, hy, orSame]; exact hx
            | ok w1 =>
              have e : step c w (.call (.signed a) (.nft y)) = w1 := by simp only [step, hy, orSame]
              exact absurd (by rw [e]; exact hy) (hno a y rfl)
          · rcases step_slice hc hr o ho with h | ⟨k, h7, hk, h⟩
            · have := congrArg Slice.nft (h n)
              simp only [slice] at this; rw [this]; exact hx
            · have hk' : ∀ a, k ≠ .signed .nft a := by
                rintro a rfl
                apply ho'
                unfold Op.kind at h7
                split at h7 <;> simp at h7
                exact ⟨_, _, rfl⟩
              have : ∀ s', SliceRel c w.now (offered w n) k (slice w n) s' → s'.nft = some x ∧ Good c s' := by
                intro s' h
                induction h with
                | refl => exact ⟨hx, (hr.inv hc).good n⟩
                | tail _ h ih => exact ⟨h.idle ih.2 hk' ih.1 hs, ih.2.step hk h⟩
              exact (this _ (h n)).1
        have e2 : p.stored (step c w o) n = p.stored w n := by
          unfold NftSame at h6
          cases p <;> simp only [Part.stored] <;> rw [h6]
        intro z hz
        rw [e1] at hz; simp at hz; subst hz
        exact ⟨p1, p2, by unfold Part.shares; rw [e2]; exact p3⟩
  · intro x hx
    rw [hd] at hx; simp at hx; subst hx
    have hg := ((hr.inv hc).good n).nft d hd
    refine ⟨?_, rfl, ht⟩
    unfold Part.shares at ht
    cases hl : p.stored w n with
    | none => rw [hl] at ht; simp at ht
    | some l0 =>
      cases p
      · exact hg.shards (by simp only [Part.stored] at hl; simp [slice, hl])
      · exact hg.shards' (by simp only [Part.stored] at hl; simp [slice, hl])

namespace Demo
/-- operator 6 runs the enclave 16 in a cluster of its own, cluster 1, and reports a share of NFT 0 before the
others do; then operator 6 leaves and the cluster is removed -/
abbrev early : List Op := enclaves ++
  [by_ 6 (.tee (.register 16 [1])), .call .root (.root (.tee (.createCluster .pub))),
   .call .root (.root (.tee (.assign 6 1 0))),
   by_ 1 (.nft (.createSecret [1] [2] ⟨0, by omega⟩ none false)), by_ 16 (.nft (.addSecretShard 0)),
   .call .root (.root (.tee (.forceRemove 6))), .call .root (.root (.tee (.removeCluster 1)))]
end Demo

/-- The claim that a waiting NFT can be completed is false: the first share decides for a cluster, which may have too few
operators, and may even be removed.  Then the NFT waits for ever although another cluster has enough enclaves. -/
theorem C81_fails : ∃ (c : Cfg) (w : World), c.Ok ∧ Reach c w ∧ 0 < c.shards ∧
    (∃ d, w.nfts.get 0 = some d ∧ d.owner = 1 ∧ d.st.syncSecret = true) ∧
    (IsEnclave w 18 (0, 8) ∧ IsEnclave w 19 (0, 9) ∧ c.shards = 2) ∧
    ∀ l : List Op, (∀ o ∈ l, o.Ok c) → ∀ d, (run c w l).nfts.get 0 = some d →
      d.st.syncSecret = true ∧ d.owner = 1 := by
  have hr : Reach Demo.cfg (Demo.at_ Demo.early) := Demo.reach _ (by decide)
  obtain ⟨d, hd, h1, h2⟩ : ∃ d, (Demo.at_ Demo.early).nfts.get 0 = some d ∧ d.owner = 1 ∧ d.st.syncSecret = true := by
    refine ⟨_, Option.some_get (by decide) |>.symm, by decide, by decide⟩
  refine ⟨Demo.cfg, Demo.at_ Demo.early, Demo.cfg_ok, hr, by decide, ⟨d, hd, h1, h2⟩, by unfold IsEnclave; decide, ?_⟩
  intro l hl d' h'
  have := C81_stuck Demo.cfg_ok hr .secret (t := (1, 6)) hd (by decide) (by decide) (by decide) l hl h'
  rw [h1] at this
  exact this
