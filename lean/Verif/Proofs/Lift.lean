import Verif.Proofs.StepCase
/-
Lifting facts about slices and calls to whole executions.
-/
variable {c : Cfg} {w w' : World} {a : AccountId}

theorem run_append (c : Cfg) (l l' : List Op) (w : World) :
    run c w (l ++ l') = run c (run c w l) l' := by
  induction l generalizing w with
  | nil => rfl
  | cons o t ih => exact ih _

theorem Reach.run (hr : Reach c w) (l : List Op) (hl : ∀ o ∈ l, o.Ok c) :
    Reach c (_root_.run c w l) := by
  induction l generalizing w with
  | nil => exact hr
  | cons o t ih => exact ih (hr.step o (hl o (by simp))) (fun x hx => hl x (by simp [hx]))

/-- Only a new block moves the clock. -/
theorem step_now (w : World) (o : Op) :
    (step c w o).now = w.now ∨ o = .tick ∧ (step c w o).now = w.now + 1 := by
  cases o <;> simp only [step]
  case call o x =>
    left
    cases h : dispatch c x o w with
    | error e => rfl
    | ok w' =>
      show w'.now = w.now
      cases o with
      | signed a =>
        cases x <;> simp only [dispatch, signedCall] at h
        case nft x => exact fr% World.now (NftM.call_frame h)
        case mkt x => exact fr% World.now (MktM.call_frame h)
        case auc x => exact fr% World.now (AucM.call_frame h)
        case rent x => exact fr% World.now (RentM.call_frame h)
        case tr x => exact fr% World.now (TrM.call_frame h)
        case tee x => exact fr% World.now (TeeM.call_frame h)
        case br x => exact fr% World.now (BrM.call_frame h)
        case bal d v l =>
          cases hb : w.bal.transfer c.ed a d v l with
          | error e => simp [hb, Except.map] at h
          | ok b => simp [hb, Except.map] at h; subst h; rfl
        all_goals simp at h
      | root => exact (dispatch_quiet x _ w w' (by simp) h).2
      | ext => exact (dispatch_quiet x _ w w' (by simp) h).2
  case hookAuc => exact Or.inl (fr% World.now (AucM.hook_frame (c := c) w))
  case hookRent => exact Or.inl (fr% World.now (RentM.hook_frame (c := c) w))
  case hookTr => exact Or.inl (fr% World.now (TrM.hook_frame (c := c) w))
  case hookTee => exact Or.inl (fr% World.now (TeeM.hook_frame (c := c) w))
  case tick => simp
  case era e => split <;> exact Or.inl rfl
  case txFee p f t au =>
    cases h : RewM.txFee c w p f t au with
    | error e => exact Or.inl rfl
    | ok w' => exact Or.inl (fr% World.now (RewM.txFee_frame h))
  case eraPayout => exact Or.inl rfl
  case mint a v => exact Or.inl rfl
  case lock a v => exact Or.inl rfl

theorem step_now_le (w : World) (o : Op) : w.now ≤ (step c w o).now := by
  rcases step_now (c := c) w o with h | ⟨_, h⟩ <;> omega

/-- A property of reachable worlds that every operation preserves holds after every run. -/
theorem run_inv {P : World → Prop} (hstep : ∀ w o, Reach c w → o.Ok c → P w → P (step c w o))
    (hr : Reach c w) (hP : P w) : ∀ l : List Op, (∀ o ∈ l, o.Ok c) → P (run c w l) := by
  intro l
  induction l generalizing w with
  | nil => exact fun _ => hP
  | cons o t ih =>
    intro h
    exact ih (hr.step o (h o (by simp))) (hstep w o hr (h o (by simp)) hP)
      (fun x hx => h x (by simp [hx]))

/-- A property of one slice that every slice transition preserves is preserved by every operation. -/
theorem step_slice_inv {P : Slice → Prop} {n : NFTId}
    (hstep : ∀ now off k s s', Kind.Ok c k → Good c s → P s → SliceStep c now off k s s' → P s')
    (hc : c.Ok) (hr : Reach c w) (hP : P (slice w n)) (o : Op) (ho : o.Ok c) :
    P (slice (step c w o) n) := by
  rcases step_slice hc hr o ho with h | ⟨k, _, hk, h⟩
  · rw [h]; exact hP
  · have hg := (hr.inv hc).good n
    have h := h n
    have key : ∀ s', SliceRel c w.now (offered w n) k (slice w n) s' → P s' ∧ Good c s' := by
      intro s' h
      induction h with
      | refl => exact ⟨hP, hg⟩
      | tail _ h ih => exact ⟨hstep _ _ _ _ _ hk ih.2 ih.1 h, ih.2.step hk h⟩
    exact (key _ h).1

theorem run_slice_inv {P : Slice → Prop} {n : NFTId}
    (hstep : ∀ now off k s s', Kind.Ok c k → Good c s → P s → SliceStep c now off k s s' → P s')
    (hc : c.Ok) (hr : Reach c w) (hP : P (slice w n)) (l : List Op) (hl : ∀ o ∈ l, o.Ok c) :
    P (slice (run c w l) n) :=
  run_inv (P := fun w => P (slice w n))
    (fun _ o hr ho hP => step_slice_inv hstep hc hr hP o ho) hr hP l hl

/-- What a call of the NFT pallet leaves under the id `n`. -/
inductive NftWrite (c : Cfg) (w : World) (a : AccountId) (x : NftM.Call) (n : NFTId) : Option NFTData → Prop
  | same : NftWrite c w a x n (w.nfts.get n)
  | new (d : NFTData) : n = w.nft.nextNft → d.owner = a → d.creator = a → NftWrite c w a x n (some d)
  | burn (d : NFTData) : x = .burnNft n → w.nfts.get n = some d → d.owner = a →
      d.st.listed = false → d.st.rented = false → d.st.delegated = false →
      d.st.transmission = false → NftWrite c w a x n none
  | transfer (d : NFTData) (r : AccountId) : x = .transferNft n r → w.nfts.get n = some d →
      d.owner = a → NftWrite c w a x n (some { d with owner := r })
  | secretShard (d : NFTData) (s : ClusterId × AccountId) (l : Option (List (ClusterId × AccountId))) :
      x = .addSecretShard n → w.nfts.get n = some d → NftM.ensureEnclave w a = some s →
      NftM.pushShard c (w.nft.secretShards.get n) s = .ok l → d.st.syncSecret = true →
      NftWrite c w a x n (some { d with st := { d.st with syncSecret := l.isSome } })
  | capsuleShard (d : NFTData) (s : ClusterId × AccountId) (l : Option (List (ClusterId × AccountId))) :
      x = .addCapsuleShard n → w.nfts.get n = some d → NftM.ensureEnclave w a = some s →
      NftM.pushShard c (w.nft.capsuleShards.get n) s = .ok l → d.st.syncCapsule = true →
      NftWrite c w a x n (some { d with st := { d.st with syncCapsule := l.isSome } })
  | edit (d d' : NFTData) : w.nfts.get n = some d → d'.owner = d.owner →
      (d.st.syncSecret = true → d'.st.syncSecret = true) →
      (d.st.syncCapsule = true → d'.st.syncCapsule = true) →
      NftWrite c w a x n (some d')

theorem NftWrite.insert {n m d d' x} (hd : w.nfts.get n = some d) (ho : d'.owner = d.owner)
    (h1 : d.st.syncSecret = true → d'.st.syncSecret = true := by exact id)
    (h2 : d.st.syncCapsule = true → d'.st.syncCapsule = true := by exact id) :
    NftWrite c w a x m ((w.nfts.insert n d').get m) := by
  rw [FMap.get_insert]
  split
  · rename_i e; subst e; exact .edit d d' hd ho h1 h2
  · exact .same

theorem NftM.addSecretHelper_nfts {n data} (h : addSecretHelper c w a n data = .ok w') :
    ∃ d, w.nfts.get n = some d ∧
      w'.nfts = w.nfts.insert n { d with st := { d.st with secret := true, syncSecret := true } } := by
  simp only [addSecretHelper] at h; inv_ok at h
  obtain ⟨d, b, hd, h⟩ := h
  repeat' (obtain ⟨_, h⟩ := h)
  exact ⟨d, hd, rfl⟩

theorem NftM.toCapsuleHelper_nfts {n data} (h : toCapsuleHelper c w a n data = .ok w') :
    ∃ d, w.nfts.get n = some d ∧
      w'.nfts = w.nfts.insert n { d with st := { d.st with capsule := true, syncCapsule := true } } := by
  simp only [toCapsuleHelper] at h; inv_ok at h
  obtain ⟨d, b, hd, h⟩ := h
  repeat' (obtain ⟨_, h⟩ := h)
  exact ⟨d, hd, rfl⟩

theorem NftM.createHelper_nfts {data roy coll sb} (h : createHelper c w a data roy coll sb = .ok w') :
    w'.nft.nextNft = w.nft.nextNft + 1 ∧
    w'.nfts = w.nfts.insert w.nft.nextNft
      { owner := a, creator := a, offchain := data, coll := coll, royalty := roy,
        st := { soulbound := sb } } := by
  obtain ⟨b, w1, _, h2, _, rfl⟩ := createHelper_ok h
  have e : w1.nfts = w.nfts := (pushToColl_frame h2).1
  refine ⟨?_, ?_⟩
  · simp [World.putNft]
  · simp only [World.putNft, e]

theorem NftM.call_nfts {x : NftM.Call} (h : NftM.call c w a x = .ok w') (m : NFTId) :
    NftWrite c w a x m (w'.nfts.get m) := by
  cases x <;> simp only [call] at h
  case createNft =>
    rw [(createHelper_nfts h).2, FMap.get_insert]
    split
    · exact .new _ ‹_› rfl rfl
    · exact .same
  case burnNft n =>
    simp only [burnNft] at h
    inv_ok at h
    obtain ⟨d, w1, hd, h1, h2, h3, h4, h5, h6, rfl⟩ := h
    have e := dropFromColl_frame h6
    simp only [FMap.get_erase, e.1]
    split
    · rename_i e; subst e; exact .burn d rfl hd h1 h2 h4 h3 h5
    · exact .same
  case transferNft n r =>
    simp only [transferNft] at h; inv_ok at h
    obtain ⟨d, hd, h1, h⟩ := h
    repeat' (first | (obtain ⟨_, h⟩ := h))
    simp only [World.putNft, FMap.get_insert]
    split
    · rename_i e; subst e; exact .transfer d r rfl hd h1
    · exact .same
  case createSecret =>
    simp only [createSecret] at h; inv_ok at h
    obtain ⟨w1, _, h1, h2⟩ := h
    obtain ⟨d, e1, e2⟩ := addSecretHelper_nfts h2
    obtain ⟨e3, e4⟩ := createHelper_nfts h1
    have e5 : w1.nft.nextNft - 1 = w.nft.nextNft := by omega
    rw [e5, e4, FMap.get_insert_self] at e1
    simp only [Option.some.injEq] at e1
    subst e1
    rw [e2, e5, e4]
    simp only [FMap.get_insert]
    split
    · exact .new _ ‹_› rfl rfl
    · exact .same
  case createCapsule =>
    simp only [createCapsule] at h; inv_ok at h
    obtain ⟨w1, _, h1, h2⟩ := h
    obtain ⟨d, e1, e2⟩ := toCapsuleHelper_nfts h2
    obtain ⟨e3, e4⟩ := createHelper_nfts h1
    have e5 : w1.nft.nextNft - 1 = w.nft.nextNft := by omega
    rw [e5, e4, FMap.get_insert_self] at e1
    simp only [Option.some.injEq] at e1
    subst e1
    rw [e2, e5, e4]
    simp only [FMap.get_insert]
    split
    · exact .new _ ‹_› rfl rfl
    · exact .same
  case addSecret =>
    obtain ⟨d, e1, e2⟩ := addSecretHelper_nfts h
    rw [e2]; exact .insert e1 rfl (by simp) (by simp)
  case toCapsule =>
    obtain ⟨d, e1, e2⟩ := toCapsuleHelper_nfts h
    rw [e2]; exact .insert e1 rfl (by simp) (by simp)
  case delegateNft =>
    simp only [delegateNft] at h; inv_ok at h
    obtain ⟨d, hd, h⟩ := h
    repeat' (first | (obtain ⟨_, h⟩ := h))
    exact .insert hd rfl
  case setRoyalty =>
    simp only [setRoyalty] at h; inv_ok at h
    obtain ⟨d, hd, h⟩ := h
    repeat' (first | (obtain ⟨_, h⟩ := h))
    exact .insert hd rfl
  case createColl => simp only [createColl] at h; frame_auto at h; exact .same
  case burnColl => simp only [burnColl] at h; frame_auto at h; exact .same
  case closeColl => simp only [closeColl] at h; frame_auto at h; exact .same
  case limitColl => simp only [limitColl] at h; frame_auto at h; exact .same
  case addToColl =>
    simp only [addToColl] at h; inv_ok at h
    obtain ⟨col, d, _, _, _, _, hd, h⟩ := h
    repeat' (first | (obtain ⟨_, h⟩ := h))
    exact .insert hd rfl
  case addSecretShard n =>
    simp only [addSecretShard] at h; inv_ok at h
    obtain ⟨s, d, l, h1, hd, h2, h3, h4, rfl⟩ := h
    simp only [World.putNft, FMap.get_insert]
    split
    · rename_i e; subst e; exact .secretShard d s l rfl hd h1 h4 h3
    · exact .same
  case setCapsuleData => simp only [setCapsuleData] at h; frame_auto at h; exact .same
  case addCapsuleShard n =>
    simp only [addCapsuleShard] at h; inv_ok at h
    obtain ⟨s, d, l, h1, hd, h2, h3, h4, rfl⟩ := h
    simp only [World.putNft, FMap.get_insert]
    split
    · rename_i e; subst e; exact .capsuleShard d s l rfl hd h1 h4 h3
    · exact .same
  case notifyKey =>
    simp only [notifyKey] at h; inv_ok at h
    obtain ⟨d, hd, h⟩ := h
    repeat' (first | (obtain ⟨_, h⟩ := h))
    exact .insert hd rfl (by exact id) (by simp)
  case setCollData => simp only [setCollData] at h; frame_auto at h; exact .same

theorem run_now_le (w : World) (l : List Op) : w.now ≤ (run c w l).now := by
  induction l generalizing w with
  | nil => exact Nat.le_refl _
  | cons o t ih => exact Nat.le_trans (step_now_le w o) (ih _)
