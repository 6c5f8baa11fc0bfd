import Verif.Props.Sync
import Mathlib.Data.List.Infix
/-
Property C155: a synced secret or capsule is held by enough enclaves.
-/
variable {c : Cfg} {w w' : World} {a : AccountId}
set_option maxRecDepth 10000
open Spec

namespace Spec

/-- the operator of the share belongs to the cluster it reported for -/
def Seated (w : World) (t : ClusterId × AccountId) : Prop := w.tee.opCluster.get t.2 = some t.1

end Spec

namespace NftM

/-- `w'` has the shares of `w` -/
def SameShares (w w' : World) : Prop := w'.nft.secretShards = w.nft.secretShards ∧ w'.nft.capsuleShards = w.nft.capsuleShards

theorem create_shares {data roy coll sb} (h : createHelper c w a data roy coll sb = .ok w') : SameShares w w' := by
  obtain ⟨b, w1, _, h2, _, rfl⟩ := createHelper_ok h
  cases coll with
  | none => simp only [pushToColl] at h2; frame_auto at h2; exact ⟨rfl, rfl⟩
  | some j => simp only [pushToColl] at h2; frame_auto at h2; exact ⟨rfl, rfl⟩

theorem addSecret_shares {n data} (h : addSecretHelper c w a n data = .ok w') : SameShares w w' := by
  simp only [addSecretHelper] at h; frame_auto at h; exact ⟨rfl, rfl⟩

theorem toCapsule_shares {n data} (h : toCapsuleHelper c w a n data = .ok w') : SameShares w w' := by
  simp only [toCapsuleHelper] at h; frame_auto at h; exact ⟨rfl, rfl⟩

theorem call_shares {x : Call} (p : Part) {n : NFTId} (h : call c w a x = .ok w') :
    p.stored w' n = p.stored w n ∨ p.stored w' n = none ∨
      x = p.call n ∧ ∃ s l, ensureEnclave w a = some s ∧ pushShard c (p.stored w n) s = .ok l ∧ p.stored w' n = l := by
  by_cases hm : some n = target w x
  swap
  · have := (call_same h hm).slice
    have e2 := congrArg Slice.secretShards this
    have e3 := congrArg Slice.capsuleShards this
    simp only [slice] at e2 e3
    left
    cases p
    · exact e2
    · exact e3
  cases x <;> simp only [target, Option.some.injEq, reduceCtorEq] at hm
  all_goals simp only [call] at h
  case addSecretShard =>
    subst hm
    simp only [addSecretShard] at h; inv_ok at h
    obtain ⟨s, d1, l, h1, h2, h3, h4, h5, rfl⟩ := h
    cases p with
    | secret => exact .inr (.inr ⟨rfl, s, l, h1, h5, by simp [Part.stored, FMap.get_set]⟩)
    | capsule => exact .inl rfl
  case addCapsuleShard =>
    subst hm
    simp only [addCapsuleShard] at h; inv_ok at h
    obtain ⟨s, d1, l, h1, h2, h3, h4, h5, rfl⟩ := h
    cases p with
    | secret => exact .inl rfl
    | capsule => exact .inr (.inr ⟨rfl, s, l, h1, h5, by simp [Part.stored, FMap.get_set]⟩)
  case burnNft =>
    subst hm
    simp only [burnNft] at h; inv_ok at h
    obtain ⟨d, w1, _, _, _, _, _, _, h1, rfl⟩ := h
    have e : w1.nft.secretShards = w.nft.secretShards ∧ w1.nft.capsuleShards = w.nft.capsuleShards := by
      cases hcoll : d.coll with
      | none => simp only [hcoll, dropFromColl] at h1; frame_auto at h1; exact ⟨rfl, rfl⟩
      | some j => simp only [hcoll, dropFromColl] at h1; frame_auto at h1; exact ⟨rfl, rfl⟩
    cases p
    · show (if _ then w1.nft.secretShards.erase n else w1.nft.secretShards).get n = _ ∨ _
      split
      · exact .inr (.inl (FMap.get_erase_self _ _))
      · left; rw [e.1]; rfl
    · show (if _ then w1.nft.capsuleShards.erase n else w1.nft.capsuleShards).get n = _ ∨ _
      split
      · exact .inr (.inl (FMap.get_erase_self _ _))
      · left; rw [e.2]; rfl
  all_goals
    left
    have e : SameShares w w' := by
      first
      | exact create_shares h
      | exact addSecret_shares h
      | exact toCapsule_shares h
      | (simp only [createSecret] at h; inv_ok at h; obtain ⟨v, _, h1, h2⟩ := h
         exact ⟨(addSecret_shares h2).1.trans (create_shares h1).1, (addSecret_shares h2).2.trans (create_shares h1).2⟩)
      | (simp only [createCapsule] at h; inv_ok at h; obtain ⟨v, _, h1, h2⟩ := h
         exact ⟨(toCapsule_shares h2).1.trans (create_shares h1).1, (toCapsule_shares h2).2.trans (create_shares h1).2⟩)
      | (simp only [addToColl, transferNft, delegateNft, setRoyalty, setCapsuleData, notifyKey] at h
         frame_auto at h <;> exact ⟨rfl, rfl⟩)
    cases p
    · simp only [Part.stored, e.1]
    · simp only [Part.stored, e.2]

end NftM

namespace Holders
variable {n : NFTId}

/-- the shares for an NFT come from operators that are in their cluster when they report -/
theorem step_shares (hc : c.Ok) (hr : Reach c w) (p : Part) {o : Op} (ho : o.Ok c) {t : ClusterId × AccountId}
    (h : t ∈ p.shares (step c w o) n) : t ∈ p.shares w n ∨ Seated (step c w o) t := by
  rcases step_core hc hr o ho with ⟨a, x, rfl, ha, hx⟩ | ⟨_, h2⟩
  · have hf := NftM.call_frame hx
    have ht : (step c w (.call (.signed a) (.nft x))).tee = w.tee := by rw [hf]
    unfold Part.shares at h ⊢
    rcases NftM.call_shares p (n := n) hx with e | e | ⟨_, s, l, e1, e2, e3⟩
    · rw [e] at h; exact .inl h
    · rw [e] at h; simp at h
    · rw [e3] at h
      have hs : Seated (step c w (.call (.signed a) (.nft x))) s := by
        unfold Seated; rw [ht]; exact (isEnclave e1).2
      cases hl : p.stored w n with
      | none =>
        rw [hl] at e2
        simp only [NftM.pushShard] at e2; inv_ok at e2
        obtain ⟨_, rfl⟩ := e2
        split at h
        · simp at h
        · simp at h; subst h; exact .inr hs
      | some l0 =>
        rw [hl] at e2
        simp only [NftM.pushShard] at e2; inv_ok at e2
        obtain ⟨q, _, _, _, _, rfl⟩ := e2
        split at h
        · simp at h
        · simp at h
          rcases h with h | rfl
          · exact .inl h
          · exact .inr hs
  · left
    unfold NftSame at h2
    unfold Part.shares at h ⊢
    cases p <;> simp only [Part.stored] at h ⊢ <;> rw [h2] at h <;> exact h

end Holders

/- C155 -/

/-- What holds: if nobody leaves a cluster meanwhile, all recorded shares of a waiting secret or capsule are held by operators that are still
in the cluster they reported for. -/
theorem C155_shares_partial (hc : c.Ok) (hr : Reach c w) (p : Part) {n : NFTId} (h0 : p.shares w n = []) (l : List Op)
    (hl : ∀ o ∈ l, o.Ok c)
    (hs : ∀ l1, l1 <+: l → ∀ op k, (run c w l1).tee.opCluster.get op = some k → (run c w l).tee.opCluster.get op = some k)
    {t : ClusterId × AccountId} (ht : t ∈ p.shares (run c w l) n) : Seated (run c w l) t := by
  have key : ∀ (m : List Op) (v : World), Reach c v → (∀ o ∈ m, o.Ok c) → t ∈ p.shares (run c v m) n →
      t ∈ p.shares v n ∨ ∃ m1, m1 <+: m ∧ Seated (run c v m1) t := by
    intro m
    induction m with
    | nil => intro v _ _ h; exact .inl h
    | cons o m ih =>
      intro v hv hm h
      rcases ih (step c v o) (hv.step o (hm o (List.mem_cons_self ..))) (fun o h => hm o (List.mem_cons_of_mem _ h)) h with h | ⟨m1, h1, h2⟩
      · rcases Holders.step_shares hc hv p (hm o (List.mem_cons_self ..)) h with h | h
        · exact .inl h
        · exact .inr ⟨[o], (List.prefix_cons_inj o).2 List.nil_prefix, h⟩
      · exact .inr ⟨o :: m1, (List.prefix_cons_inj o).2 h1, h2⟩
  rcases key l w hr hl ht with h | ⟨m1, h1, h2⟩
  · rw [h0] at h; cases h
  · exact hs m1 h1 _ _ h2

/-- What holds: if nobody leaves a cluster meanwhile, a secret or capsule is synced only when `ShardsNumber` different operators of one cluster,
who are all still in it, have stored their shares.  Missing: operators who leave before the others have reported, see `C155_fails`. -/
theorem C155_partial (hc : c.Ok) (hr : Reach c w) (p : Part) {n : NFTId} (h0 : p.shares w n = []) (l : List Op) (o : Op)
    (hl : ∀ x ∈ l ++ [o], x.Ok c)
    (hs : ∀ l1, l1 <+: l → ∀ op k, (run c w l1).tee.opCluster.get op = some k → (run c w l).tee.opCluster.get op = some k)
    {d d' : NFTData} (h1 : (run c w l).nfts.get n = some d) (h2 : p.waits d = true)
    (h3 : (run c w (l ++ [o])).nfts.get n = some d') (h4 : p.waits d' = false) :
    ∃ (k : ClusterId) (ops : List AccountId), ops.Nodup ∧ ops.length = c.shards ∧
      ∀ x ∈ ops, (run c w (l ++ [o])).tee.opCluster.get x = some k := by
  have hl' : ∀ x ∈ l, x.Ok c := fun x h => hl x (by simp [h])
  have ho := hl o (by simp)
  have hr' := hr.run l hl'
  have hsh : ∀ t ∈ p.shares (run c w l) n, Seated (run c w l) t := fun t ht => C155_shares_partial hc hr p h0 l hl' hs ht
  have e : run c w (l ++ [o]) = step c (run c w l) o := by rw [run_append]; rfl
  rw [e] at h3 ⊢
  have key : ∃ a s, o = .call (.signed a) (.nft (p.call n)) ∧ IsEnclave (run c w l) a s ∧ (p.shares (run c w l) n).length + 1 = c.shards ∧
      (∀ t ∈ p.shares (run c w l) n, t.1 = s.1) ∧ ((p.shares (run c w l) n ++ [s]).map (·.2)).Nodup := by
    cases p
    · exact C11_secret hc hr' o ho h1 h2 h3 h4
    · exact C11_capsule hc hr' o ho h1 h2 h3 h4
  obtain ⟨a, s, rfl, he, h5, h6, h7⟩ := key
  have ht : (step c (run c w l) (.call (.signed a) (.nft (p.call n)))).tee = (run c w l).tee := by
    cases hd : dispatch c (.nft (p.call n)) (.signed a) (run c w l) with
    | error e => simp only [step, hd, orSame]
    | ok v =>
      have hx : NftM.call c (run c w l) a (p.call n) = .ok v := hd
      simp only [step, hd, orSame]
      rw [NftM.call_frame hx]
  refine ⟨s.1, (p.shares (run c w l) n ++ [s]).map (·.2), h7, by simpa using h5, fun x hx => ?_⟩
  rw [ht]
  obtain ⟨t, h8, rfl⟩ := List.mem_map.1 hx
  rcases List.mem_append.1 h8 with h8 | h8
  · rw [← h6 t h8]; exact hsh t h8
  · simp at h8; subst h8; exact he.2

/-- operator 8 stores its share of a secret and is removed; then operator 9 stores its share -/
abbrev thinned : List Op := Demo.enclaves ++
  [Demo.by_ 1 (.nft (.createSecret [1] [2] ⟨0, by omega⟩ none false)), Demo.by_ 18 (.nft (.addSecretShard 0)),
   .call .root (.root (.tee (.forceRemove 8))), Demo.by_ 19 (.nft (.addSecretShard 0))]

/-- C155 fails: two shares are needed, the secret is synced, and only one operator is left in any cluster. -/
theorem C155_fails : Reach Demo.cfg (Demo.at_ thinned) ∧ Demo.cfg.shards = 2 ∧
    (∃ d, (Demo.at_ thinned).nfts.get 0 = some d ∧ d.st.secret = true ∧ d.st.syncSecret = false) ∧
    ∀ op k, (Demo.at_ thinned).tee.opCluster.get op = some k → op = 9 := by
  refine ⟨Demo.reach _ (by decide), rfl, ⟨_, Option.some_get (by decide) |>.symm, by decide, by decide⟩, fun op k h => ?_⟩
  by_contra hne
  have e : (Demo.at_ thinned).tee.opCluster = FMap.empty.insert 9 0 := by rfl
  rw [e, FMap.get_insert, if_neg hne] at h
  cases h

/-- both operators stay -/
abbrev kept : List Op :=
  [Demo.by_ 1 (.nft (.createSecret [1] [2] ⟨0, by omega⟩ none false)), Demo.by_ 18 (.nft (.addSecretShard 0)), .tick]

example := C155_partial Demo.cfg_ok (Demo.reach Demo.enclaves (by decide)) .secret (n := 0) (by decide) kept
  (Demo.by_ 19 (.nft (.addSecretShard 0))) (by decide) (fun l1 h => by
    have : ∀ l1 ∈ List.inits kept, (run Demo.cfg (Demo.at_ Demo.enclaves) l1).tee = (run Demo.cfg (Demo.at_ Demo.enclaves) kept).tee := by
      intro l1 h
      simp only [List.inits, List.map_cons, List.map_nil, List.mem_cons, List.not_mem_nil, or_false] at h
      rcases h with rfl | rfl | rfl | rfl <;> rfl
    rw [this l1 ((List.mem_inits _ _).2 h)]
    exact fun _ _ h => h) (Option.some_get (by decide)).symm (by decide) (Option.some_get (by decide)).symm (by decide)
