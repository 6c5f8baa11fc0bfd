import Mathlib.Algebra.BigOperators.Group.Finset.Piecewise
import Mathlib.Algebra.Order.BigOperators.Group.Finset
import Verif.Props.FreeSpec
/-
Helper lemmas for C108: what calls do to the shares an NFT waits for.
-/
open Spec
variable {c : Cfg} {w w' : World} {a : AccountId}

theorem NftM.createHelper_stored {data roy coll sb} (h : createHelper c w a data roy coll sb = .ok w') (p : Part) (n : NFTId) :
    p.stored w' n = p.stored w n := by
  obtain ⟨b, w1, _, h2, _, rfl⟩ := createHelper_ok h
  have e := (pushToColl_frame h2).2.2.2.2.2.2.2.2.2.2.2.2
  cases p <;> simp only [Part.stored, World.putNft] <;> rw [e] <;> rfl

theorem NftM.addSecretHelper_stored {n data} (h : addSecretHelper c w a n data = .ok w') (p : Part) (m : NFTId) :
    p.stored w' m = p.stored w m := by
  simp only [addSecretHelper] at h; inv_ok at h
  obtain ⟨d, b, hd, h⟩ := h
  repeat' (obtain ⟨_, h⟩ := h)
  cases p <;> rfl

theorem NftM.toCapsuleHelper_stored {n data} (h : toCapsuleHelper c w a n data = .ok w') (p : Part) (m : NFTId) :
    p.stored w' m = p.stored w m := by
  simp only [toCapsuleHelper] at h; inv_ok at h
  obtain ⟨d, b, hd, h⟩ := h
  repeat' (obtain ⟨_, h⟩ := h)
  cases p <;> rfl

/-- where shares are recorded, nothing changes except by shares and burning -/
theorem NftM.call_stored {x : NftM.Call} (h : NftM.call c w a x = .ok w') (p : Part) (n : NFTId) :
    p.stored w' n = p.stored w n ∨ x = p.call n ∨ x = .burnNft n := by
  cases x <;> simp only [call] at h
  case createNft => exact .inl (createHelper_stored h p n)
  case createSecret =>
    simp only [createSecret] at h; inv_ok at h
    obtain ⟨w1, _, h1, h2⟩ := h
    exact .inl ((addSecretHelper_stored h2 p n).trans (createHelper_stored h1 p n))
  case createCapsule =>
    simp only [createCapsule] at h; inv_ok at h
    obtain ⟨w1, _, h1, h2⟩ := h
    exact .inl ((toCapsuleHelper_stored h2 p n).trans (createHelper_stored h1 p n))
  case addSecret => exact .inl (addSecretHelper_stored h p n)
  case toCapsule => exact .inl (toCapsuleHelper_stored h p n)
  case burnNft m =>
    by_cases e : m = n
    · subst e; exact .inr (.inr rfl)
    · left
      simp only [burnNft] at h
      inv_ok at h
      obtain ⟨d, w1, hd, h1, h2, h3, h4, h5, h6, rfl⟩ := h
      have e' := dropFromColl_frame h6
      have hn : w1.nft.secretShards = w.nft.secretShards ∧ w1.nft.capsuleShards = w.nft.capsuleShards := by
        rw [e'.2.2.2.2.2.2.2.2.2.2.2.2]; exact ⟨rfl, rfl⟩
      cases p <;> simp only [Part.stored] <;> split <;> simp [hn, FMap.get_erase, Ne.symm e]
  case addSecretShard m =>
    simp only [addSecretShard] at h; inv_ok at h
    obtain ⟨s, d, l, h1, hd, h2, h3, h4, rfl⟩ := h
    by_cases e : n = m
    · subst e
      cases p
      · exact .inr (.inl rfl)
      · exact .inl rfl
    · left; cases p <;> simp [Part.stored, World.putNft, FMap.get_set, e]
  case addCapsuleShard m =>
    simp only [addCapsuleShard] at h; inv_ok at h
    obtain ⟨s, d, l, h1, hd, h2, h3, h4, rfl⟩ := h
    by_cases e : n = m
    · subst e
      cases p
      · exact .inl rfl
      · exact .inr (.inl rfl)
    · left; cases p <;> simp [Part.stored, World.putNft, FMap.get_set, e]
  case transferNft => simp only [transferNft] at h; frame_auto at h; left; cases p <;> rfl
  case delegateNft => simp only [delegateNft] at h; frame_auto at h; left; cases p <;> rfl
  case setRoyalty => simp only [setRoyalty] at h; frame_auto at h; left; cases p <;> rfl
  case createColl => simp only [createColl] at h; frame_auto at h; left; cases p <;> rfl
  case burnColl => simp only [burnColl] at h; frame_auto at h; left; cases p <;> rfl
  case closeColl => simp only [closeColl] at h; frame_auto at h; left; cases p <;> rfl
  case limitColl => simp only [limitColl] at h; frame_auto at h; left; cases p <;> rfl
  case addToColl => simp only [addToColl] at h; frame_auto at h; left; cases p <;> rfl
  case setCapsuleData => simp only [setCapsuleData] at h; frame_auto at h; left; cases p <;> rfl
  case notifyKey => simp only [notifyKey] at h; frame_auto at h; left; cases p <;> rfl
  case setCollData => simp only [setCollData] at h; frame_auto at h; left; cases p <;> rfl

theorem Waiting_of {p : Part} {n : NFTId} {d : NFTData} (h : w.nfts.get n = some d) : Waiting (p, n) w = p.waits d := by
  simp [Waiting, h]

theorem missing_le (k : Part × NFTId) (w : World) : missing c k w ≤ c.shards := by
  unfold missing; split <;> omega

/-- only calls that say so make an NFT wait -/
theorem NftM.call_begins {x : NftM.Call} (h : NftM.call c w a x = .ok w') {k : Part × NFTId}
    (h1 : Waiting k w = false) (h2 : Waiting k w' = true) : begins w x = some k := by
  obtain ⟨p, n⟩ := k
  have key : ∀ {m : NFTId} {d d' : NFTData}, w.nfts.get m = some d → w'.nfts = w.nfts.insert m d' →
      (p.waits d' = true → p.waits d = true) → False := by
    intro m d d' hd he hw
    simp only [Waiting, he, FMap.get_insert] at h1 h2
    split at h2
    · rename_i e; subst e; rw [hd] at h1; simp at h1 h2; rw [hw h2] at h1; simp at h1
    · rw [h1] at h2; simp at h2
  have hs : w'.nfts = w.nfts → False := by
    intro he; simp only [Waiting, he] at h1 h2; rw [h1] at h2; simp at h2
  cases x <;> simp only [call] at h
  case createNft =>
    have e := (createHelper_nfts h).2
    simp only [Waiting, e, FMap.get_insert] at h1 h2
    split at h2
    · cases p <;> simp [Part.waits] at h2
    · rw [h1] at h2; simp at h2
  case createSecret =>
    simp only [createSecret] at h; inv_ok at h
    obtain ⟨w1, _, h3, h4⟩ := h
    obtain ⟨d, e1, e2⟩ := addSecretHelper_nfts h4
    obtain ⟨e3, e4⟩ := createHelper_nfts h3
    have e5 : w1.nft.nextNft - 1 = w.nft.nextNft := by omega
    rw [e5, e4, FMap.get_insert_self] at e1
    simp only [Option.some.injEq] at e1
    subst e1
    rw [e5, e4] at e2
    simp only [Waiting, e2, FMap.get_insert] at h1 h2
    split at h2
    · rename_i e; subst e
      cases p
      · rfl
      · simp [Part.waits] at h2
    · rw [h1] at h2; simp at h2
  case createCapsule =>
    simp only [createCapsule] at h; inv_ok at h
    obtain ⟨w1, _, h3, h4⟩ := h
    obtain ⟨d, e1, e2⟩ := toCapsuleHelper_nfts h4
    obtain ⟨e3, e4⟩ := createHelper_nfts h3
    have e5 : w1.nft.nextNft - 1 = w.nft.nextNft := by omega
    rw [e5, e4, FMap.get_insert_self] at e1
    simp only [Option.some.injEq] at e1
    subst e1
    rw [e5, e4] at e2
    simp only [Waiting, e2, FMap.get_insert] at h1 h2
    split at h2
    · rename_i e; subst e
      cases p
      · simp [Part.waits] at h2
      · rfl
    · rw [h1] at h2; simp at h2
  case addSecret m _ =>
    obtain ⟨d, e1, e2⟩ := addSecretHelper_nfts h
    cases p
    · by_cases e : m = n
      · subst e; rfl
      · simp only [Waiting, e2, FMap.get_insert, Ne.symm e, if_false] at h1 h2
        rw [h1] at h2; simp at h2
    · exact (key e1 e2 id).elim
  case toCapsule m _ =>
    obtain ⟨d, e1, e2⟩ := toCapsuleHelper_nfts h
    cases p
    · exact (key e1 e2 id).elim
    · by_cases e : m = n
      · subst e; rfl
      · simp only [Waiting, e2, FMap.get_insert, Ne.symm e, if_false] at h1 h2
        rw [h1] at h2; simp at h2
  case notifyKey m =>
    simp only [notifyKey] at h; inv_ok at h
    obtain ⟨d, hd, h⟩ := h
    repeat' (first | (obtain ⟨_, h⟩ := h))
    cases p
    · exact (key hd rfl id).elim
    · by_cases e : m = n
      · subst e; rfl
      · simp only [Waiting, World.putNft, FMap.get_insert, Ne.symm e, if_false] at h1 h2
        rw [h1] at h2; simp at h2
  case burnNft m =>
    simp only [burnNft] at h
    inv_ok at h
    obtain ⟨d, w1, hd, _, _, _, _, _, h6, rfl⟩ := h
    have e := dropFromColl_frame h6
    simp only [Waiting, FMap.get_erase, e.1] at h1 h2
    split at h2
    · simp at h2
    · rw [h1] at h2; simp at h2
  case addSecretShard m =>
    simp only [addSecretShard] at h; inv_ok at h
    obtain ⟨s, d, l, _, hd, _, h3, _, rfl⟩ := h
    exact (key hd rfl (by cases p <;> simp [Part.waits, h3])).elim
  case addCapsuleShard m =>
    simp only [addCapsuleShard] at h; inv_ok at h
    obtain ⟨s, d, l, _, hd, _, h3, _, rfl⟩ := h
    exact (key hd rfl (by cases p <;> simp [Part.waits, h3])).elim
  case transferNft m r =>
    simp only [transferNft] at h; inv_ok at h
    obtain ⟨d, hd, h⟩ := h
    repeat' (first | (obtain ⟨_, h⟩ := h))
    exact (key hd rfl (by cases p <;> exact id)).elim
  case delegateNft =>
    simp only [delegateNft] at h; inv_ok at h
    obtain ⟨d, hd, h⟩ := h
    repeat' (first | (obtain ⟨_, h⟩ := h))
    exact (key hd rfl (by cases p <;> exact id)).elim
  case setRoyalty =>
    simp only [setRoyalty] at h; inv_ok at h
    obtain ⟨d, hd, h⟩ := h
    repeat' (first | (obtain ⟨_, h⟩ := h))
    exact (key hd rfl (by cases p <;> exact id)).elim
  case addToColl =>
    simp only [addToColl] at h; inv_ok at h
    obtain ⟨col, d, _, _, _, _, hd, h⟩ := h
    repeat' (first | (obtain ⟨_, h⟩ := h))
    exact (key hd rfl (by cases p <;> exact id)).elim
  case createColl => simp only [createColl] at h; frame_auto at h; exact (hs rfl).elim
  case burnColl => simp only [burnColl] at h; frame_auto at h; exact (hs rfl).elim
  case closeColl => simp only [closeColl] at h; frame_auto at h; exact (hs rfl).elim
  case limitColl => simp only [limitColl] at h; frame_auto at h; exact (hs rfl).elim
  case setCapsuleData => simp only [setCapsuleData] at h; frame_auto at h; exact (hs rfl).elim
  case setCollData => simp only [setCollData] at h; frame_auto at h; exact (hs rfl).elim

/-- a share that is accepted was missing -/
theorem NftM.call_share (hc : c.Ok) (hr : Reach c w) {p : Part} {n : NFTId}
    (h : NftM.call c w a (p.call n) = .ok w') : missing c (p, n) w' + 1 = missing c (p, n) w := by
  have hp : ∀ {s l}, pushShard c (p.stored w n) s = .ok l →
      (l = none ∧ (p.shares w n).length + 1 = c.shards) ∨
      (∃ t, l = some t ∧ t.length = (p.shares w n).length + 1 ∧ t.length ≤ c.shards) := by
    intro s l h
    unfold Part.shares
    cases hl : p.stored w n with
    | none =>
      rw [hl] at h
      simp only [pushShard] at h; inv_ok at h
      obtain ⟨h1, h2⟩ := h
      split at h2
      · rename_i e; subst h2; simp at e; simp [e]
      · rename_i e; subst h2; simp at e; right; simp; omega
    | some x =>
      rw [hl] at h
      have hk := Part.ok hc hr hl
      simp only [pushShard] at h; inv_ok at h
      obtain ⟨hd, h1, h2, h3, h4, h5⟩ := h
      split at h5
      · rename_i e; subst h5; simp at e; simp [e]
      · rename_i e; subst h5; right; have := hk.2.1; simp; omega
  cases p
  · simp only [Part.call, call, addSecretShard] at h; inv_ok at h
    obtain ⟨s, d, l, _, hd, _, h3, h4, rfl⟩ := h
    rcases hp h4 with ⟨rfl, e⟩ | ⟨t, rfl, e1, e2⟩
    · simp [missing, Waiting, World.putNft, hd, Part.waits, h3]; omega
    · simp [missing, Waiting, World.putNft, hd, Part.waits, h3, Part.shares, Part.stored, FMap.get_set] at e1 ⊢; omega
  · simp only [Part.call, call, addCapsuleShard] at h; inv_ok at h
    obtain ⟨s, d, l, _, hd, _, h3, h4, rfl⟩ := h
    rcases hp h4 with ⟨rfl, e⟩ | ⟨t, rfl, e1, e2⟩
    · simp [missing, Waiting, World.putNft, hd, Part.waits, h3]; omega
    · simp [missing, Waiting, World.putNft, hd, Part.waits, h3, Part.shares, Part.stored, FMap.get_set] at e1 ⊢; omega

/-- a call of the NFT pallet that is no share of `k` adds nothing to what is missing, unless it makes `k` wait -/
theorem NftM.call_missing {x : NftM.Call} (h : NftM.call c w a x = .ok w') {k : Part × NFTId}
    (hx : x ≠ k.1.call k.2) (hb : begins w x ≠ some k) : missing c k w' ≤ missing c k w := by
  obtain ⟨p, n⟩ := k
  by_cases h2 : Waiting (p, n) w' = true
  · by_cases h1 : Waiting (p, n) w = true
    · rcases call_stored h p n with e | e | e
      · simp only [missing, h1, h2, if_true, Part.shares, e]; exact Nat.le_refl _
      · exact absurd e hx
      · subst e
        simp only [call, burnNft] at h
        inv_ok at h
        obtain ⟨d, w1, hd, _, _, _, _, _, h6, rfl⟩ := h
        simp [Waiting] at h2
    · exact absurd (call_begins h (by simpa using h1) h2) hb
  · simp [missing, h2]

theorem dispatch_nft {x : NftM.Call} : dispatch c (.nft x) (.signed a) w = NftM.call c w a x := by
  simp only [dispatch, signedCall]

theorem isOk_iff {α} {r : Except Err α} : r.isOk = true ↔ ∃ v, r = .ok v := by
  cases r <;> simp [Except.isOk, Except.toBool]

theorem Spec.Reported_iff {p : Part} {n : NFTId} {o : Op} : Reported c (p, n) w o = true ↔
    ∃ a, o = .call (.signed a) (.nft (p.call n)) ∧ ∃ w', NftM.call c w a (p.call n) = .ok w' := by
  constructor
  · intro h
    unfold Reported at h
    split at h
    · rename_i a m
      simp only [Accepted, dispatch_nft, Bool.and_eq_true, decide_eq_true_eq, Prod.mk.injEq, isOk_iff] at h
      obtain ⟨⟨rfl, rfl⟩, h⟩ := h
      exact ⟨a, rfl, h⟩
    · rename_i a m
      simp only [Accepted, dispatch_nft, Bool.and_eq_true, decide_eq_true_eq, Prod.mk.injEq, isOk_iff] at h
      obtain ⟨⟨rfl, rfl⟩, h⟩ := h
      exact ⟨a, rfl, h⟩
    · simp at h
  · rintro ⟨a, rfl, h⟩
    cases p
    · simp only [Part.call] at h ⊢; simp [Reported, Accepted, dispatch_nft, isOk_iff, h]
    · simp only [Part.call] at h ⊢; simp [Reported, Accepted, dispatch_nft, isOk_iff, h]

theorem Spec.Begun_iff {k : Part × NFTId} {o : Op} : Begun c k w o = true ↔
    ∃ a x, o = .call (.signed a) (.nft x) ∧ begins w x = some k ∧ ∃ w', NftM.call c w a x = .ok w' := by
  constructor
  · intro h
    unfold Begun at h
    split at h
    · rename_i a x
      simp only [Accepted, dispatch_nft, Bool.and_eq_true, decide_eq_true_eq, isOk_iff] at h
      exact ⟨a, x, rfl, h⟩
    · simp at h
  · rintro ⟨a, x, rfl, h1, h2⟩
    simp [Begun, Accepted, dispatch_nft, isOk_iff, h1, h2]

/-- one operation -/
theorem step_missing (hc : c.Ok) (hr : Reach c w) (o : Op) (ho : o.Ok c) (k : Part × NFTId) :
    (if Reported c k w o then 1 else 0) + missing c k (step c w o) ≤
      missing c k w + c.shards * (if Begun c k w o then 1 else 0) := by
  obtain ⟨p, n⟩ := k
  rcases step_core hc hr o ho with ⟨a, x, rfl, ha, hx⟩ | ⟨h1, h2⟩
  · by_cases hr' : Reported c (p, n) w (.call (.signed a) (.nft x)) = true
    · obtain ⟨a', e, w', h⟩ := Reported_iff.1 hr'
      simp only [Op.call.injEq, Origin.signed.injEq, Call.nft.injEq] at e
      obtain ⟨rfl, rfl⟩ := e
      have := NftM.call_share hc hr hx
      rw [if_pos hr']; omega
    · have hx' : x ≠ p.call n := by
        rintro rfl; exact hr' (Reported_iff.2 ⟨a, rfl, _, hx⟩)
      rw [if_neg hr']
      by_cases hb : begins w x = some (p, n)
      · rw [if_pos (Begun_iff.2 ⟨a, x, rfl, hb, _, hx⟩)]
        have := missing_le (c := c) (p, n) (step c w (.call (.signed a) (.nft x)))
        omega
      · have := NftM.call_missing hx (k := (p, n)) hx' hb
        omega
  · have e : missing c (p, n) (step c w o) = missing c (p, n) w := by
      have h3 := h1 n
      unfold NftSame at h2
      have e1 : Waiting (p, n) (step c w o) = Waiting (p, n) w := by
        unfold Waiting
        dsimp only
        cases h4 : w.nfts.get n <;> cases h5 : (step c w o).nfts.get n <;> rw [h4, h5] at h3 <;> simp at h3
        · simp only [NFTData.core, Prod.mk.injEq] at h3
          cases p <;> simp [Part.waits, h3]
      have e2 : p.shares (step c w o) n = p.shares w n := by
        unfold Part.shares; cases p <;> simp only [Part.stored] <;> rw [h2]
      unfold missing; rw [e1]; dsimp only; rw [e2]
    rw [e]
    by_cases hr' : Reported c (p, n) w o = true
    · obtain ⟨a, rfl, w', h⟩ := Reported_iff.1 hr'
      have hw : step c w (.call (.signed a) (.nft (p.call n))) = w' := by simp [step, dispatch_nft, h, orSame]
      rw [hw] at e
      have := NftM.call_share hc hr h
      omega
    · rw [if_neg hr']; omega

/-- a run -/
theorem run_missing (hc : c.Ok) (k : Part × NFTId) : ∀ (l : List Op) {w : World}, Reach c w → (∀ o ∈ l, o.Ok c) →
    count c (Reported c k) w l + missing c k (run c w l) ≤ missing c k w + c.shards * count c (Begun c k) w l := by
  intro l
  induction l with
  | nil => intro w _ _; simp [count, run]
  | cons o t ih =>
    intro w hr hl
    have h1 := step_missing hc hr o (hl o (by simp)) k
    have h2 := ih (hr.step o (hl o (by simp))) fun x hx => hl x (by simp [hx])
    simp only [count, run, Nat.mul_add]
    omega

/-- which part of which NFT a share belongs to -/
def shareOf : Op → Option (Part × NFTId)
  | .call _ (.nft (.addSecretShard n)) => some (.secret, n)
  | .call _ (.nft (.addCapsuleShard n)) => some (.capsule, n)
  | _ => none

theorem Spec.Gratis_iff {o : Op} : Gratis c w o = true ↔ ∃ k, shareOf o = some k ∧ Reported c k w o = true := by
  constructor
  · intro h
    unfold Gratis at h
    split at h
    · rename_i a x
      simp only [Bool.and_eq_true] at h
      obtain ⟨h1, h2⟩ := h
      unfold Call.free at h1
      split at h1
      · exact ⟨_, rfl, by simp [Reported, h2]⟩
      · exact ⟨_, rfl, by simp [Reported, h2]⟩
      · simp [Accepted, dispatch, signedCall, Except.isOk, Except.toBool] at h2
      · simp at h1
    · simp at h
  · rintro ⟨⟨p, n⟩, _, h⟩
    obtain ⟨a, rfl, w', h⟩ := Reported_iff.1 h
    cases p <;> simp only [Part.call] at h ⊢ <;> simp [Gratis, Call.free, Accepted, dispatch_nft, h, Except.isOk, Except.toBool]

theorem count_gratis (K : Finset (Part × NFTId)) : ∀ (l : List Op) {w : World}, (∀ o ∈ l, ∀ k, shareOf o = some k → k ∈ K) →
    count c (Gratis c) w l ≤ ∑ k ∈ K, count c (Reported c k) w l := by
  intro l
  induction l with
  | nil => simp [count]
  | cons o t ih =>
    intro w hK
    simp only [count, Finset.sum_add_distrib]
    refine Nat.add_le_add ?_ (ih fun x hx => hK x (by simp [hx]))
    split
    · rename_i h
      obtain ⟨k, h1, h2⟩ := Gratis_iff.1 h
      have := Finset.single_le_sum (f := fun k => if Reported c k w o = true then 1 else 0) (fun _ _ => Nat.zero_le _)
        (hK o (by simp) k h1)
      simpa [h2] using this
    · simp

theorem count_begun (K : Finset (Part × NFTId)) : ∀ (l : List Op) {w : World},
    ∑ k ∈ K, count c (Begun c k) w l ≤ count c (Begins c) w l := by
  intro l
  induction l with
  | nil => simp [count]
  | cons o t ih =>
    intro w
    simp only [count, Finset.sum_add_distrib]
    refine Nat.add_le_add ?_ ih
    by_cases hex : ∃ k, Begun c k w o = true
    · obtain ⟨k, hk⟩ := hex
      obtain ⟨a, x, rfl, hb, w', hx⟩ := Begun_iff.1 hk
      have e : Begins c w (.call (.signed a) (.nft x)) = true := by
        simp [Begins, hb, Accepted, dispatch_nft, hx, Except.isOk, Except.toBool]
      rw [if_pos e]
      have : ∀ k', (if Begun c k' w (.call (.signed a) (.nft x)) = true then 1 else 0) ≤ (if k = k' then 1 else 0) := by
        intro k'
        split
        · rename_i h
          obtain ⟨_, _, e, hb', _⟩ := Begun_iff.1 h
          simp only [Op.call.injEq, Origin.signed.injEq, Call.nft.injEq] at e
          obtain ⟨rfl, rfl⟩ := e
          rw [hb] at hb'; simp at hb'; simp [hb']
        · omega
      refine (Finset.sum_le_sum fun k' _ => this k').trans ?_
      rw [Finset.sum_ite_eq]; split <;> omega
    · rw [Finset.sum_eq_zero fun k _ => if_neg fun h => hex ⟨k, h⟩]; omega

/-- NFT `n` exists or existed, and can not be given a secret any more -/
def Sealed (w : World) (n : NFTId) : Prop := n < w.nft.nextNft ∧ ∀ d, w.nfts.get n = some d → d.st.secret = true

theorem step_sealed (hc : c.Ok) (hr : Reach c w) (o : Op) (ho : o.Ok c) {n : NFTId} (h : Sealed w n) :
    Sealed (step c w o) n := by
  have := step_slice_inv (n := n) (P := fun s => s.born = true ∧ ∀ d, s.nft = some d → d.st.secret = true) ?_ hc hr
    ⟨by simpa [slice, below] using h.1, h.2⟩ o ho
  · exact ⟨by simpa [slice, below] using this.1, this.2⟩
  · rintro now off k s s' hk hg ⟨h1, h2⟩ hs
    cases hs <;> first
      | exact ⟨h1, h2⟩
      | (refine ⟨by simp_all, ?_⟩; simp_all)

theorem begun_sealed (hc : c.Ok) (hr : Reach c w) {o : Op} (ho : o.Ok c) {n : NFTId} (h : Begun c (.secret, n) w o = true) :
    ¬ Sealed w n ∧ Sealed (step c w o) n := by
  obtain ⟨a, x, rfl, hb, w', hx⟩ := Begun_iff.1 h
  have e : step c w (.call (.signed a) (.nft x)) = w' := by simp [step, dispatch_nft, hx, orSame]
  rw [e]
  cases x <;> simp [begins] at hb
  case createSecret =>
    subst hb
    refine ⟨fun h => absurd h.1 (Nat.lt_irrefl _), ?_⟩
    simp only [NftM.call, NftM.createSecret] at hx; inv_ok at hx
    obtain ⟨w1, _, h3, h4⟩ := hx
    obtain ⟨d, e1, e2⟩ := NftM.addSecretHelper_nfts h4
    obtain ⟨e3, e4⟩ := NftM.createHelper_nfts h3
    have e5 : w1.nft.nextNft - 1 = w.nft.nextNft := by omega
    have e6 : w'.nft.nextNft = w1.nft.nextNft := by
      simp only [NftM.addSecretHelper] at h4; inv_ok at h4
      obtain ⟨d, b, hd, h⟩ := h4
      repeat' (obtain ⟨_, h⟩ := h)
      rfl
    refine ⟨by omega, fun d' hd' => ?_⟩
    rw [e2, e5, FMap.get_insert_self] at hd'
    simp at hd'; subst hd'; rfl
  case addSecret m data =>
    subst hb
    simp only [NftM.call, NftM.addSecret] at hx
    obtain ⟨d, e1, e2⟩ := NftM.addSecretHelper_nfts hx
    have hlt : m < w.nft.nextNft := by
      by_contra hge
      rw [(hr.inv hc).fresh m (by omega)] at e1; simp at e1
    have e6 : w'.nft.nextNft = w.nft.nextNft ∧ d.st.secret = false := by
      simp only [NftM.addSecretHelper] at hx; inv_ok at hx
      obtain ⟨d', b, hd', h⟩ := hx
      rw [e1] at hd'; simp at hd'; subst hd'
      repeat' (obtain ⟨_, h⟩ := h)
      exact ⟨rfl, by assumption⟩
    refine ⟨fun h => by have := h.2 d e1; rw [e6.2] at this; simp at this, by omega, fun d' hd' => ?_⟩
    rw [e2, FMap.get_insert_self] at hd'
    simp at hd'; subst hd'; rfl

theorem count_sealed (hc : c.Ok) {n : NFTId} : ∀ (l : List Op) {w : World}, Reach c w → (∀ o ∈ l, o.Ok c) →
    (Sealed w n → count c (Begun c (.secret, n)) w l = 0) ∧ count c (Begun c (.secret, n)) w l ≤ 1 := by
  intro l
  induction l with
  | nil => simp [count]
  | cons o t ih =>
    intro w hr hl
    have ho := hl o (by simp)
    obtain ⟨h1, h2⟩ := ih (hr.step o ho) fun x hx => hl x (by simp [hx])
    simp only [count]
    by_cases hb : Begun c (.secret, n) w o = true
    · obtain ⟨h3, h4⟩ := begun_sealed hc hr ho hb
      rw [if_pos hb, h1 h4]
      exact ⟨fun h => absurd h h3, by omega⟩
    · rw [if_neg hb]
      exact ⟨fun h => by rw [h1 (step_sealed hc hr o ho h)], by omega⟩
