import Verif.Proofs.Lift
/-
Collections: the invariant linking them with NFTs, and what each call does to them.
-/
variable {c : Cfg} {w w' : World} {a : AccountId}

/-- the NFT pallet's storage is the same up to the configurable fees -/
def NftSame (w w' : World) : Prop :=
  w'.nft = { w.nft with
    fee := w'.nft.fee, secretFee := w'.nft.secretFee, capsuleFee := w'.nft.capsuleFee }

theorem NftSame.of_eq (h : w'.nft = w.nft) : NftSame w w' := by unfold NftSame; rw [h]

/-- Every operation is a call of the NFT pallet, or leaves collections and the core of NFTs. -/
theorem step_core (hc : c.Ok) (hr : Reach c w) (o : Op) (ho : o.Ok c) :
    (∃ a x, o = .call (.signed a) (.nft x) ∧ ¬ c.pot a ∧ NftM.call c w a x = .ok (step c w o)) ∨
    (SameCore w (step c w o) ∧ NftSame w (step c w o)) := by
  have hi := hr.inv hc
  have hb := hr.micro.balInv
  have hs := step_case w o ho
  generalize step c w o = w' at hs
  cases hs with
  | nft x ha h => exact Or.inl ⟨_, x, rfl, ha, h⟩
  | mkt x ha h =>
    refine Or.inr ⟨MktM.call_core h, ?_⟩
    exact .of_eq (fr% World.nft (MktM.call_frame h))
  | auc x ha h =>
    refine Or.inr ⟨AucM.call_core h, ?_⟩
    exact .of_eq (fr% World.nft (AucM.call_frame h))
  | tr x ha h =>
    refine Or.inr ⟨TrM.call_core h, ?_⟩
    exact .of_eq (fr% World.nft (TrM.call_frame h))
  | rent x ha h =>
    refine Or.inr ⟨fun n => SliceRel.core (by simp) (RentM.call_slice h hi.rent.dep.ok n), ?_⟩
    exact .of_eq (fr% World.nft (RentM.call_frame h))
  | hookAuc =>
    refine Or.inr ⟨fun n => SliceRel.core (off := fun _ _ => True) (by simp) (AucM.hook_slice (c := c) w n), ?_⟩
    exact .of_eq (fr% World.nft (AucM.hook_frame (c := c) w))
  | hookRent =>
    refine Or.inr ⟨fun n => SliceRel.core (off := fun _ _ => True) (by simp) ((hi.rent.hook hb).2 n), ?_⟩
    exact .of_eq (fr% World.nft (RentM.hook_frame (c := c) w))
  | hookTr =>
    refine Or.inr ⟨fun n => SliceRel.core (off := fun _ _ => True) (by simp)
      (TrM.hook_slice (c := c) w (fun x hx => (hi.tr.inQ x.1 x.2 hx).choose_spec.2.2) n), ?_⟩
    exact .of_eq (fr% World.nft (TrM.hook_frame (c := c) w))
  | quiet _ _ hq => exact Or.inr ⟨.of_eq hq.nfts, hq.nft⟩

/-! ## removal from a collection -/

theorem NftM.swapRemove_perm {l : List NFTId} {n : NFTId} (h : n ∈ l) :
    List.Perm (swapRemove l n) (l.erase n) := by
  rcases List.eq_nil_or_concat l with rfl | ⟨t, z, rfl⟩
  · simp at h
  simp only [List.concat_eq_append] at h ⊢
  have hrep : ∀ t : List NFTId, n ∈ t → List.Perm (t.replace n z) (z :: t.erase n) := by
    intro t
    induction t with
    | nil => simp
    | cons y t ih =>
      intro hm
      rcases eq_or_ne y n with rfl | hy
      · simp
      · have : n ∈ t := by simpa [hy.symm] using hm
        have e : (y == n) = false := by simpa using hy
        have e' : (n == y) = false := by simpa using hy.symm
        rw [List.replace_cons, List.erase_cons, e]
        simp only [Bool.false_eq_true, if_false, e']
        exact ((ih this).cons y).trans (.swap ..)
  unfold swapRemove
  simp only [List.getLast?_append, List.getLast?_singleton, Option.some_or, List.dropLast_concat]
  by_cases hm : n ∈ t
  · rw [if_neg (by simp [hm]), List.erase_append_left _ hm]
    exact (hrep t hm).trans (by simpa using (List.perm_append_comm (l₁ := [z]) (l₂ := t.erase n)))
  · have hz : z = n := by simpa [hm, eq_comm] using h
    subst hz
    rw [if_pos ⟨rfl, hm⟩, List.erase_append_right _ hm]
    simp

theorem NftM.mem_swapRemove {l : List NFTId} {n m : NFTId} (h : n ∈ l) (hn : l.Nodup) :
    m ∈ swapRemove l n ↔ m ∈ l ∧ m ≠ n := by
  rw [(swapRemove_perm h).mem_iff, hn.mem_erase_iff]
  exact and_comm

theorem NftM.swapRemove_nodup {l : List NFTId} {n : NFTId} (h : n ∈ l) (hn : l.Nodup) :
    (swapRemove l n).Nodup := (swapRemove_perm h).nodup_iff.2 (hn.erase n)

theorem NftM.swapRemove_length {l : List NFTId} {n : NFTId} (h : n ∈ l) :
    (swapRemove l n).length + 1 = l.length := by
  rw [(swapRemove_perm h).length_eq, List.length_erase_of_mem h]
  have := List.length_pos_of_mem h
  omega

/-! ## the invariant -/

structure CollInv (c : Cfg) (w : World) : Prop where
  fresh : ∀ k, w.nft.nextColl ≤ k → w.nft.colls.get k = none
  mem : ∀ k col, w.nft.colls.get k = some col →
    ∀ n, n ∈ col.nfts ↔ ∃ d, w.nfts.get n = some d ∧ d.coll = some k
  ex : ∀ n d k, w.nfts.get n = some d → d.coll = some k → w.nft.colls.get k ≠ none
  nodup : ∀ k col, w.nft.colls.get k = some col → col.nfts.Nodup
  cap : ∀ k col, w.nft.colls.get k = some col →
    col.nfts.length ≤ c.collLimit ∧ ∀ l, col.limit = some l → col.nfts.length ≤ l

theorem SameCore.coll (h : SameCore w w') (n : NFTId) :
    (w'.nfts.get n).map NFTData.coll = (w.nfts.get n).map NFTData.coll := by
  have := congrArg (Option.map fun x => x.2.2.1) (h n)
  simpa [Function.comp_def, NFTData.core] using this

theorem coll_iff {k} (h : ∀ n, (w'.nfts.get n).map NFTData.coll = (w.nfts.get n).map NFTData.coll)
    (n : NFTId) : (∃ d, w'.nfts.get n = some d ∧ d.coll = some k) ↔
      ∃ d, w.nfts.get n = some d ∧ d.coll = some k := by
  have := h n
  cases h1 : w'.nfts.get n <;> cases h2 : w.nfts.get n <;> simp_all

/-- a step that changes neither collections nor membership -/
theorem CollInv.frame (h : CollInv c w) (hf : w'.nft.colls = w.nft.colls)
    (hn : w'.nft.nextColl = w.nft.nextColl)
    (hm : ∀ n, (w'.nfts.get n).map NFTData.coll = (w.nfts.get n).map NFTData.coll) :
    CollInv c w' := by
  constructor
  · rw [hf, hn]; exact h.fresh
  · rw [hf]; intro k col hk n
    rw [h.mem k col hk n, coll_iff hm]
  · rw [hf]; intro n d k hd hk
    obtain ⟨d', h1, h2⟩ := (coll_iff (k := k) hm n).1 ⟨d, hd, hk⟩
    exact h.ex n d' k h1 h2
  · rw [hf]; exact h.nodup
  · rw [hf]; exact h.cap

/-- writing an existing NFT without changing its collection -/
theorem coll_insert {n d d'} (hd : w.nfts.get n = some d) (h : w'.nfts = w.nfts.insert n d')
    (hc : d'.coll = d.coll) (m : NFTId) :
    (w'.nfts.get m).map NFTData.coll = (w.nfts.get m).map NFTData.coll := by
  rw [h, FMap.get_insert]
  split
  · rename_i e; subst e; simp [hd, hc]
  · rfl

/-- changing a collection without changing its members -/
theorem CollInv.edit (h : CollInv c w) {k col col'} (hk : w.nft.colls.get k = some col)
    (hn : col'.nfts = col.nfts) (hf : w'.nft.colls = w.nft.colls.insert k col')
    (hx : w'.nft.nextColl = w.nft.nextColl) (hs : w'.nfts = w.nfts)
    (hl : ∀ l, col'.limit = some l → col.nfts.length ≤ l) : CollInv c w' := by
  have hg : ∀ k' x', w'.nft.colls.get k' = some x' → ∃ x, w.nft.colls.get k' = some x ∧
      x'.nfts = x.nfts ∧ ((k' = k ∧ x' = col' ∧ x = col) ∨ x' = x) := by
    intro k' x' h'
    rw [hf, FMap.get_insert] at h'
    split at h'
    · rename_i e; subst e; simp at h'; subst h'
      exact ⟨col, hk, hn, Or.inl ⟨rfl, rfl, rfl⟩⟩
    · exact ⟨x', h', rfl, Or.inr rfl⟩
  constructor
  · intro k' h'
    rw [hx] at h'
    have := h.fresh k' h'
    rw [hf, FMap.get_insert]
    split
    · rename_i e; subst e; rw [this] at hk; simp at hk
    · exact this
  · intro k' x' h' n
    obtain ⟨x, h1, h2, _⟩ := hg k' x' h'
    rw [h2, hs]; exact h.mem k' x h1 n
  · intro n d k' hd hk'
    rw [hs] at hd
    have := h.ex n d k' hd hk'
    rw [hf, FMap.get_insert]
    split <;> simp [this]
  · intro k' x' h'
    obtain ⟨x, h1, h2, _⟩ := hg k' x' h'
    rw [h2]; exact h.nodup k' x h1
  · intro k' x' h'
    obtain ⟨x, h1, h2, h3⟩ := hg k' x' h'
    have := h.cap k' x h1
    rw [h2]
    refine ⟨this.1, ?_⟩
    rcases h3 with ⟨_, rfl, rfl⟩ | rfl
    · exact hl
    · exact this.2

/-- an NFT without collection enters collection `k` -/
theorem CollInv.push (h : CollInv c w) {k col n d'} (hk : w.nft.colls.get k = some col)
    (hn : ∀ d, w.nfts.get n = some d → d.coll = none) (hd : d'.coll = some k)
    (hf : w'.nft.colls = w.nft.colls.insert k { col with nfts := col.nfts ++ [n] })
    (hx : w'.nft.nextColl = w.nft.nextColl) (hs : w'.nfts = w.nfts.insert n d')
    (h1 : col.nfts.length < NftM.collCap c col) (h2 : col.nfts.length < c.collLimit) :
    CollInv c w' := by
  have hnot : ∀ k' x, w.nft.colls.get k' = some x → n ∉ x.nfts := by
    intro k' x hx hm
    obtain ⟨d, e1, e2⟩ := (h.mem k' x hx n).1 hm
    rw [hn d e1] at e2; simp at e2
  constructor
  · intro k' h'
    rw [hx] at h'
    have := h.fresh k' h'
    rw [hf, FMap.get_insert]
    split
    · rename_i e; subst e; rw [this] at hk; simp at hk
    · exact this
  · intro k' x' h' m
    rw [hf, FMap.get_insert] at h'
    rw [hs]
    split at h'
    · rename_i e; subst e; simp at h'; subst h'
      simp only [List.mem_append, List.mem_singleton, FMap.get_insert]
      rw [h.mem k' col hk m]
      rcases eq_or_ne m n with rfl | hne
      · simp [hd]
      · simp [hne]
    · rename_i hne
      rw [h.mem k' x' h' m, FMap.get_insert]
      rcases eq_or_ne m n with rfl | hne'
      · simp only [if_true, Option.some.injEq, exists_eq_left', hd]
        constructor
        · rintro ⟨d, e1, e2⟩; rw [hn d e1] at e2; simp at e2
        · intro e; exact absurd e.symm hne
      · rw [if_neg hne']
  · intro m d k' hm hk'
    rw [hf, FMap.get_insert]
    split
    · simp
    · rw [hs, FMap.get_insert] at hm
      split at hm
      · simp at hm; subst hm; rw [hd] at hk'; simp at hk'; omega
      · exact h.ex m d k' hm hk'
  · intro k' x' h'
    rw [hf, FMap.get_insert] at h'
    split at h'
    · rename_i e; subst e; simp at h'; subst h'
      have := hnot _ _ hk
      simp only [List.nodup_append, List.nodup_cons, List.not_mem_nil, not_false_eq_true,
        List.nodup_nil, and_self, true_and, List.mem_singleton]
      exact ⟨h.nodup _ _ hk, fun x hx y hy e => this (by rw [← hy, ← e]; exact hx)⟩
    · exact h.nodup k' x' h'
  · intro k' x' h'
    rw [hf, FMap.get_insert] at h'
    split at h'
    · rename_i e; subst e; simp at h'; subst h'
      simp only [List.length_append, List.length_cons, List.length_nil]
      refine ⟨h2, fun l hl => ?_⟩
      simp only [NftM.collCap, hl, Option.getD_some] at h1
      exact h1
    · exact h.cap k' x' h'

theorem CollInv.createHelper (h : CollInv c w) (hfr : ∀ n, w.nft.nextNft ≤ n → w.nfts.get n = none)
    {data roy coll sb} (hx : NftM.createHelper c w a data roy coll sb = .ok w') : CollInv c w' := by
  obtain ⟨b, w1, _, h2, _, rfl⟩ := NftM.createHelper_ok hx
  cases coll with
  | none =>
    simp only [NftM.pushToColl] at h2; inv_ok at h2; subst h2
    constructor
    · exact h.fresh
    · intro k col hk n
      simp only [World.putNft, World.putBal, FMap.get_insert] at hk ⊢
      rw [h.mem k col hk n]
      split
      · rename_i e
        have := hfr n (by omega)
        simp [this]
      · rfl
    · intro n d k hd hk
      simp only [World.putNft, World.putBal, FMap.get_insert] at hd ⊢
      split at hd
      · simp at hd; subst hd; simp at hk
      · exact h.ex n d k hd hk
    · exact h.nodup
    · exact h.cap
  | some k =>
    simp only [NftM.pushToColl] at h2; inv_ok at h2
    obtain ⟨col, hk, ho, hcl, h1, h3, rfl⟩ := h2
    refine h.push (k := k) (n := w.nft.nextNft) hk ?_ ?_ rfl rfl rfl h1 h3
    · intro d hd; have := hfr w.nft.nextNft (Nat.le_refl _); rw [this] at hd; simp at hd
    · rfl

theorem CollInv.nftCall (h : CollInv c w) (hfr : ∀ n, w.nft.nextNft ≤ n → w.nfts.get n = none)
    {x : NftM.Call} (hx : NftM.call c w a x = .ok w') : CollInv c w' := by
  have hs : ∀ {w w' : World} {n data}, CollInv c w → NftM.addSecretHelper c w a n data = .ok w' →
      CollInv c w' := by
    intro w w' n data hi h
    simp only [NftM.addSecretHelper] at h; inv_ok at h
    obtain ⟨d, b, hd, h⟩ := h
    repeat' (obtain ⟨_, h⟩ := h)
    exact hi.frame rfl rfl (coll_insert hd rfl rfl)
  have ht : ∀ {w w' : World} {n data}, CollInv c w → NftM.toCapsuleHelper c w a n data = .ok w' →
      CollInv c w' := by
    intro w w' n data hi h
    simp only [NftM.toCapsuleHelper] at h; inv_ok at h
    obtain ⟨d, b, hd, h⟩ := h
    repeat' (obtain ⟨_, h⟩ := h)
    exact hi.frame rfl rfl (coll_insert hd rfl rfl)
  cases x <;> simp only [NftM.call] at hx
  case createNft => exact h.createHelper hfr hx
  case createSecret =>
    simp only [NftM.createSecret] at hx; inv_ok at hx
    obtain ⟨w1, _, h1, h2⟩ := hx
    exact hs (h.createHelper hfr h1) h2
  case createCapsule =>
    simp only [NftM.createCapsule] at hx; inv_ok at hx
    obtain ⟨w1, _, h1, h2⟩ := hx
    exact ht (h.createHelper hfr h1) h2
  case addSecret => exact hs h hx
  case toCapsule => exact ht h hx
  case transferNft =>
    simp only [NftM.transferNft] at hx; inv_ok at hx
    obtain ⟨d, hd, hx⟩ := hx
    repeat' (obtain ⟨_, hx⟩ := hx)
    exact h.frame rfl rfl (coll_insert hd rfl rfl)
  case delegateNft =>
    simp only [NftM.delegateNft] at hx; inv_ok at hx
    obtain ⟨d, hd, hx⟩ := hx
    repeat' (obtain ⟨_, hx⟩ := hx)
    exact h.frame rfl rfl (coll_insert hd rfl rfl)
  case setRoyalty =>
    simp only [NftM.setRoyalty] at hx; inv_ok at hx
    obtain ⟨d, hd, hx⟩ := hx
    repeat' (obtain ⟨_, hx⟩ := hx)
    exact h.frame rfl rfl (coll_insert hd rfl rfl)
  case notifyKey =>
    simp only [NftM.notifyKey] at hx; inv_ok at hx
    obtain ⟨d, hd, hx⟩ := hx
    repeat' (obtain ⟨_, hx⟩ := hx)
    exact h.frame rfl rfl (coll_insert hd rfl rfl)
  case setCapsuleData =>
    simp only [NftM.setCapsuleData] at hx; inv_ok at hx
    obtain ⟨d, hd, hx⟩ := hx
    repeat' (obtain ⟨_, hx⟩ := hx)
    exact h.frame rfl rfl (fun _ => rfl)
  case addSecretShard =>
    simp only [NftM.addSecretShard] at hx; inv_ok at hx
    obtain ⟨s, d, l, _, hd, hx⟩ := hx
    repeat' (obtain ⟨_, hx⟩ := hx)
    exact h.frame rfl rfl (coll_insert hd rfl rfl)
  case addCapsuleShard =>
    simp only [NftM.addCapsuleShard] at hx; inv_ok at hx
    obtain ⟨s, d, l, _, hd, hx⟩ := hx
    repeat' (obtain ⟨_, hx⟩ := hx)
    exact h.frame rfl rfl (coll_insert hd rfl rfl)
  case closeColl =>
    simp only [NftM.closeColl] at hx; inv_ok at hx
    obtain ⟨col, hk, _, rfl⟩ := hx
    exact h.edit (col' := { col with closed := true }) hk rfl rfl rfl rfl (h.cap _ _ hk).2
  case limitColl k lim =>
    simp only [NftM.limitColl] at hx; inv_ok at hx
    obtain ⟨col, hk, _, _, _, h1, h2, rfl⟩ := hx
    refine h.edit (col' := { col with limit := some lim }) hk rfl rfl rfl rfl ?_
    intro l hl; simp at hl; subst hl; exact h1
  case setCollData k data =>
    simp only [NftM.setCollData] at hx; inv_ok at hx
    obtain ⟨col, hk, _, rfl⟩ := hx
    exact h.edit (col' := { col with offchain := data }) hk rfl rfl rfl rfl (h.cap _ _ hk).2
  case addToColl n k =>
    simp only [NftM.addToColl] at hx; inv_ok at hx
    obtain ⟨col, d, hk, _, _, h1, hd, _, h2, h3, rfl⟩ := hx
    refine h.push (k := k) (n := n) (d' := { d with coll := some k }) hk ?_ rfl rfl rfl rfl h1 h3
    intro d' hd'; rw [hd] at hd'; simp at hd'; subst hd'; exact h2
  case createColl =>
    simp only [NftM.createColl] at hx; inv_ok at hx
    obtain ⟨nx, h1, h2, rfl⟩ := hx
    have hnx : nx = w.nft.nextColl + 1 := by split at h2 <;> simp at h2; exact h2.symm
    subst hnx
    have hno : ∀ n d, w.nfts.get n = some d → d.coll ≠ some w.nft.nextColl := by
      intro n d hd hk
      exact h.ex n d _ hd hk (h.fresh _ (Nat.le_refl _))
    constructor
    · intro k hk
      simp only at hk ⊢
      rw [FMap.get_insert_ne _ _ (by omega)]
      exact h.fresh k (by omega)
    · intro k col hk n
      simp only [FMap.get_insert] at hk ⊢
      split at hk
      · rename_i e; subst e; simp at hk; subst hk
        simp only [List.not_mem_nil, false_iff, not_exists, not_and]
        exact hno n
      · exact h.mem k col hk n
    · intro n d k hd hk
      simp only [FMap.get_insert] at hd ⊢
      split
      · simp
      · exact h.ex n d k hd hk
    · intro k col hk
      simp only [FMap.get_insert] at hk
      split at hk
      · simp at hk; subst hk; simp
      · exact h.nodup k col hk
    · intro k col hk
      simp only [FMap.get_insert] at hk
      split at hk
      · simp at hk; subst hk; simp
      · exact h.cap k col hk
  case burnColl k =>
    simp only [NftM.burnColl] at hx; inv_ok at hx
    obtain ⟨col, hk, _, hn, rfl⟩ := hx
    constructor
    · intro k' hk'
      simp only [FMap.get_erase]
      split
      · rfl
      · exact h.fresh k' hk'
    · intro k' x hx n
      simp only [FMap.get_erase] at hx
      split at hx
      · simp at hx
      · exact h.mem k' x hx n
    · intro n d k' hd hk'
      simp only [FMap.get_erase] at hd ⊢
      split
      · rename_i e; subst e
        have := (h.mem _ col hk n).2 ⟨d, hd, hk'⟩
        rw [hn] at this; simp at this
      · exact h.ex n d k' hd hk'
    · intro k' x hx
      simp only [FMap.get_erase] at hx
      split at hx
      · simp at hx
      · exact h.nodup k' x hx
    · intro k' x hx
      simp only [FMap.get_erase] at hx
      split at hx
      · simp at hx
      · exact h.cap k' x hx
  case burnNft n =>
    simp only [NftM.burnNft] at hx
    inv_ok at hx
    obtain ⟨d, w1, hd, _, _, _, _, _, h5, rfl⟩ := hx
    cases hc : d.coll with
    | none =>
      rw [hc] at h5
      simp only [NftM.dropFromColl] at h5; inv_ok at h5; subst h5
      constructor
      · exact h.fresh
      · intro k col hk m
        simp only [FMap.get_erase] at hk ⊢
        rw [h.mem k col hk m]
        split
        · rename_i e; subst e; simp [hd, hc]
        · rfl
      · intro m d' k hd' hk
        simp only [FMap.get_erase] at hd'
        split at hd'
        · simp at hd'
        · exact h.ex m d' k hd' hk
      · exact h.nodup
      · exact h.cap
    | some k =>
      rw [hc] at h5
      simp only [NftM.dropFromColl] at h5; inv_ok at h5
      obtain ⟨col, hk, hm, rfl⟩ := h5
      constructor
      · intro k' hk'
        simp only [FMap.get_insert] at hk' ⊢
        split
        · rename_i e; subst e; rw [h.fresh _ hk'] at hk; simp at hk
        · exact h.fresh k' hk'
      · intro k' x hx m
        simp only [FMap.get_insert, FMap.get_erase] at hx ⊢
        split at hx
        · rename_i e; subst e; simp at hx; subst hx
          simp only [NftM.mem_swapRemove hm (h.nodup _ _ hk)]
          rw [h.mem _ _ hk m]
          rcases eq_or_ne m n with rfl | hne
          · simp
          · simp [hne]
        · rename_i hne
          rw [h.mem k' x hx m]
          split
          · rename_i e; subst e; simp [hd, hc, Ne.symm hne]
          · rfl
      · intro m d' k' hd' hk'
        simp only [FMap.get_erase, FMap.get_insert] at hd' ⊢
        split at hd'
        · simp at hd'
        · have := h.ex m d' k' hd' hk'
          split
          · simp
          · exact this
      · intro k' x hx
        simp only [FMap.get_insert] at hx
        split at hx
        · simp at hx; subst hx; exact NftM.swapRemove_nodup hm (h.nodup _ _ hk)
        · exact h.nodup k' x hx
      · intro k' x hx
        simp only [FMap.get_insert] at hx
        split at hx
        · simp at hx; subst hx
          have e := NftM.swapRemove_length hm
          have := h.cap _ _ hk
          refine ⟨by simp only; omega, fun l hl => ?_⟩
          have := this.2 l hl
          simp only; omega
        · exact h.cap k' x hx

theorem CollInv.init (hg : Genesis c w) : CollInv c w := by
  constructor
  · rw [hg.nft.2.2.1]; simp
  · rw [hg.nft.2.2.1]; simp
  · rw [hg.nfts]; simp
  · rw [hg.nft.2.2.1]; simp
  · rw [hg.nft.2.2.1]; simp

theorem Reach.coll (hc : c.Ok) (hr : Reach c w) : CollInv c w := by
  induction hr with
  | init hg => exact .init hg
  | @step w o hr ho ih =>
    rcases step_core hc hr o ho with ⟨a, x, rfl, ha, h⟩ | ⟨h1, h2⟩
    · exact ih.nftCall (hr.inv hc).fresh h
    · unfold NftSame at h2
      exact ih.frame (by rw [h2]) (by rw [h2]) h1.coll

/-! ## what an operation does to an existing collection -/

/-- the fate of collection `k` under a call -/
inductive CollWrite (w : World) (a : AccountId) (x : NftM.Call) (k : CollId) (col : Coll) :
    Option Coll → Prop
  | same : CollWrite w a x k col (some col)
  | burn : x = .burnColl k → col.owner = a → col.nfts = [] → CollWrite w a x k col none
  | edit (col' : Coll) : col'.owner = col.owner → (col.closed = true → col'.closed = true) →
      (∀ l, col.limit = some l → col'.limit = some l) →
      (∀ n ∈ col'.nfts, n ∈ col.nfts ∨ col.closed = false ∧ col.owner = a) →
      col'.nfts.length ≤ col.nfts.length ∨ col.closed = false →
      CollWrite w a x k col (some col')

theorem CollWrite.insert {x k col k' col1 col'} (hk : w.nft.colls.get k = some col)
    (hk' : w.nft.colls.get k' = some col1) (h1 : col'.owner = col1.owner)
    (h2 : col1.closed = true → col'.closed = true)
    (h3 : ∀ l, col1.limit = some l → col'.limit = some l)
    (h4 : ∀ n ∈ col'.nfts, n ∈ col1.nfts ∨ col1.closed = false ∧ col1.owner = a)
    (h5 : col'.nfts.length ≤ col1.nfts.length ∨ col1.closed = false) :
    CollWrite w a x k col ((w.nft.colls.insert k' col').get k) := by
  rw [FMap.get_insert]
  split
  · rename_i e; subst e
    rw [hk] at hk'; simp at hk'; subst hk'
    exact .edit _ h1 h2 h3 h4 h5
  · rw [hk]; exact .same

theorem NftM.createHelper_colls {data roy coll sb k col x}
    (hk : w.nft.colls.get k = some col) (h : createHelper c w a data roy coll sb = .ok w') :
    CollWrite w a x k col (w'.nft.colls.get k) := by
  obtain ⟨b, w1, _, h2, _, rfl⟩ := createHelper_ok h
  cases coll with
  | none =>
    simp only [pushToColl] at h2; inv_ok at h2; subst h2
    simp only [World.putNft, World.putBal, hk]; exact .same
  | some k' =>
    simp only [pushToColl] at h2; inv_ok at h2
    obtain ⟨col1, hk', ho, hcl, h1, h3, rfl⟩ := h2
    exact CollWrite.insert hk hk' rfl id (fun _ => id) (fun n _ => Or.inr ⟨hcl, ho⟩) (Or.inr hcl)

theorem NftM.call_colls (hi : CollInv c w) {x k col} (hk : w.nft.colls.get k = some col)
    (h : NftM.call c w a x = .ok w') : CollWrite w a x k col (w'.nft.colls.get k) := by
  have hs : ∀ {w w' : World} {n data}, addSecretHelper c w a n data = .ok w' →
      w'.nft.colls = w.nft.colls := by
    intro w w' n data h
    simp only [addSecretHelper] at h; frame_auto at h; rfl
  have ht : ∀ {w w' : World} {n data}, toCapsuleHelper c w a n data = .ok w' →
      w'.nft.colls = w.nft.colls := by
    intro w w' n data h
    simp only [toCapsuleHelper] at h; frame_auto at h; rfl
  cases x <;> simp only [call] at h
  case createNft => exact createHelper_colls hk h
  case createSecret =>
    simp only [createSecret] at h; inv_ok at h
    obtain ⟨w1, _, h1, h2⟩ := h
    rw [hs h2]; exact createHelper_colls hk h1
  case createCapsule =>
    simp only [createCapsule] at h; inv_ok at h
    obtain ⟨w1, _, h1, h2⟩ := h
    rw [ht h2]; exact createHelper_colls hk h1
  case addSecret => rw [hs h, hk]; exact .same
  case toCapsule => rw [ht h, hk]; exact .same
  case transferNft => simp only [transferNft] at h; frame_auto at h; exact hk ▸ .same
  case delegateNft => simp only [delegateNft] at h; frame_auto at h; exact hk ▸ .same
  case setRoyalty => simp only [setRoyalty] at h; frame_auto at h; exact hk ▸ .same
  case notifyKey => simp only [notifyKey] at h; frame_auto at h; exact hk ▸ .same
  case setCapsuleData => simp only [setCapsuleData] at h; frame_auto at h; exact hk ▸ .same
  case addSecretShard => simp only [addSecretShard] at h; frame_auto at h; exact hk ▸ .same
  case addCapsuleShard => simp only [addCapsuleShard] at h; frame_auto at h; exact hk ▸ .same
  case closeColl =>
    simp only [closeColl] at h; inv_ok at h
    obtain ⟨col1, hk1, _, rfl⟩ := h
    exact .insert hk hk1 rfl (by simp) (fun _ => id) (fun _ => Or.inl) (Or.inl (Nat.le_refl _))
  case limitColl =>
    simp only [limitColl] at h; inv_ok at h
    obtain ⟨col1, hk1, _, h1, _, _, _, rfl⟩ := h
    exact .insert hk hk1 rfl id (fun l hl => by rw [h1] at hl; simp at hl) (fun _ => Or.inl)
      (Or.inl (Nat.le_refl _))
  case setCollData =>
    simp only [setCollData] at h; inv_ok at h
    obtain ⟨col1, hk1, _, rfl⟩ := h
    exact .insert hk hk1 rfl id (fun _ => id) (fun _ => Or.inl) (Or.inl (Nat.le_refl _))
  case addToColl =>
    simp only [addToColl] at h; inv_ok at h
    obtain ⟨col1, d, hk1, ho, hcl, h1, hd, _, h2, h3, rfl⟩ := h
    exact .insert hk hk1 rfl id (fun _ => id) (fun n _ => Or.inr ⟨hcl, ho⟩) (Or.inr hcl)
  case createColl =>
    simp only [createColl] at h; inv_ok at h
    obtain ⟨nx, h1, h2, rfl⟩ := h
    simp only [FMap.get_insert]
    split
    · rename_i e; subst e; rw [hi.fresh _ (Nat.le_refl _)] at hk; simp at hk
    · rw [hk]; exact .same
  case burnColl k' =>
    simp only [burnColl] at h; inv_ok at h
    obtain ⟨col1, hk1, ho, hn, rfl⟩ := h
    simp only [FMap.get_erase]
    split
    · rename_i e; subst e; rw [hk] at hk1; simp at hk1; subst hk1; exact .burn rfl ho hn
    · rw [hk]; exact .same
  case burnNft n =>
    simp only [burnNft] at h
    inv_ok at h
    obtain ⟨d, w1, hd, _, _, _, _, _, h5, rfl⟩ := h
    cases hc : d.coll with
    | none =>
      rw [hc] at h5
      simp only [dropFromColl] at h5; inv_ok at h5; subst h5
      simp only [hk]; exact .same
    | some k' =>
      rw [hc] at h5
      simp only [dropFromColl] at h5; inv_ok at h5
      obtain ⟨col1, hk1, hm, rfl⟩ := h5
      refine .insert hk hk1 rfl id (fun _ => id) ?_ (Or.inl ?_)
      · intro m hm'
        exact Or.inl ((mem_swapRemove hm (hi.nodup _ _ hk1)).1 hm').1
      · have := swapRemove_length hm; simp only; omega

/-- collection ids are never reused -/
theorem step_nextColl (hc : c.Ok) (hr : Reach c w) (o : Op) (ho : o.Ok c) :
    w.nft.nextColl ≤ (step c w o).nft.nextColl ∧
    ∀ k, k < w.nft.nextColl → w.nft.colls.get k = none → (step c w o).nft.colls.get k = none := by
  rcases step_core hc hr o ho with ⟨a, x, rfl, ha, h⟩ | ⟨h1, h2⟩
  · have hi := hr.coll hc
    generalize step c w _ = w' at h
    have hp : ∀ {w w' : World} {data roy coll sb}, NftM.createHelper c w a data roy coll sb = .ok w' →
        w'.nft.nextColl = w.nft.nextColl ∧
        ∀ k, w.nft.colls.get k = none → w'.nft.colls.get k = none := by
      intro w w' data roy coll sb h
      obtain ⟨b, w1, _, h2, _, rfl⟩ := NftM.createHelper_ok h
      cases coll with
      | none =>
        simp only [NftM.pushToColl] at h2; inv_ok at h2; subst h2; exact ⟨rfl, fun _ => id⟩
      | some k' =>
        simp only [NftM.pushToColl] at h2; inv_ok at h2
        obtain ⟨col1, hk', ho, hcl, h1, h3, rfl⟩ := h2
        refine ⟨rfl, fun k hk => ?_⟩
        simp only [World.putNft, World.putBal, FMap.get_insert] at hk' ⊢
        split
        · rename_i e; subst e; rw [hk] at hk'; simp at hk'
        · exact hk
    have hs : ∀ {w w' : World} {n data}, NftM.addSecretHelper c w a n data = .ok w' →
        w'.nft.colls = w.nft.colls ∧ w'.nft.nextColl = w.nft.nextColl := by
      intro w w' n data h
      simp only [NftM.addSecretHelper] at h; frame_auto at h; exact ⟨rfl, rfl⟩
    have ht : ∀ {w w' : World} {n data}, NftM.toCapsuleHelper c w a n data = .ok w' →
        w'.nft.colls = w.nft.colls ∧ w'.nft.nextColl = w.nft.nextColl := by
      intro w w' n data h
      simp only [NftM.toCapsuleHelper] at h; frame_auto at h; exact ⟨rfl, rfl⟩
    have hins : ∀ {k' : CollId} {col col' : Coll} {k : CollId}, w.nft.colls.get k' = some col →
        w.nft.colls.get k = none → (w.nft.colls.insert k' col').get k = none := by
      intro k' col col' k h1 h2
      rw [FMap.get_insert]
      split
      · rename_i e; subst e; rw [h2] at h1; simp at h1
      · exact h2
    cases x <;> simp only [NftM.call] at h
    case createNft => exact ⟨Nat.le_of_eq (hp h).1.symm, fun k _ => (hp h).2 k⟩
    case createSecret =>
      simp only [NftM.createSecret] at h; inv_ok at h
      obtain ⟨w1, _, h1, h2⟩ := h
      rw [(hs h2).1, (hs h2).2]
      exact ⟨Nat.le_of_eq (hp h1).1.symm, fun k _ => (hp h1).2 k⟩
    case createCapsule =>
      simp only [NftM.createCapsule] at h; inv_ok at h
      obtain ⟨w1, _, h1, h2⟩ := h
      rw [(ht h2).1, (ht h2).2]
      exact ⟨Nat.le_of_eq (hp h1).1.symm, fun k _ => (hp h1).2 k⟩
    case addSecret => rw [(hs h).1, (hs h).2]; exact ⟨Nat.le_refl _, fun _ _ => id⟩
    case toCapsule => rw [(ht h).1, (ht h).2]; exact ⟨Nat.le_refl _, fun _ _ => id⟩
    case transferNft => simp only [NftM.transferNft] at h; frame_auto at h; exact ⟨Nat.le_refl _, fun _ _ => id⟩
    case delegateNft => simp only [NftM.delegateNft] at h; frame_auto at h; exact ⟨Nat.le_refl _, fun _ _ => id⟩
    case setRoyalty => simp only [NftM.setRoyalty] at h; frame_auto at h; exact ⟨Nat.le_refl _, fun _ _ => id⟩
    case notifyKey => simp only [NftM.notifyKey] at h; frame_auto at h; exact ⟨Nat.le_refl _, fun _ _ => id⟩
    case setCapsuleData => simp only [NftM.setCapsuleData] at h; frame_auto at h; exact ⟨Nat.le_refl _, fun _ _ => id⟩
    case addSecretShard => simp only [NftM.addSecretShard] at h; frame_auto at h; exact ⟨Nat.le_refl _, fun _ _ => id⟩
    case addCapsuleShard => simp only [NftM.addCapsuleShard] at h; frame_auto at h; exact ⟨Nat.le_refl _, fun _ _ => id⟩
    case closeColl =>
      simp only [NftM.closeColl] at h; inv_ok at h
      obtain ⟨col1, hk1, _, rfl⟩ := h
      exact ⟨Nat.le_refl _, fun _ _ => hins hk1⟩
    case limitColl =>
      simp only [NftM.limitColl] at h; inv_ok at h
      obtain ⟨col1, hk1, _, h1, _, _, _, rfl⟩ := h
      exact ⟨Nat.le_refl _, fun _ _ => hins hk1⟩
    case setCollData =>
      simp only [NftM.setCollData] at h; inv_ok at h
      obtain ⟨col1, hk1, _, rfl⟩ := h
      exact ⟨Nat.le_refl _, fun _ _ => hins hk1⟩
    case addToColl =>
      simp only [NftM.addToColl] at h; inv_ok at h
      obtain ⟨col1, d, hk1, ho, hcl, h1, hd, _, h2, h3, rfl⟩ := h
      exact ⟨Nat.le_refl _, fun _ _ => hins hk1⟩
    case createColl =>
      simp only [NftM.createColl] at h; inv_ok at h
      obtain ⟨nx, h1, h2, rfl⟩ := h
      have hnx : nx = w.nft.nextColl + 1 := by split at h2 <;> simp at h2; exact h2.symm
      subst hnx
      refine ⟨Nat.le_succ _, fun k h1 h2 => ?_⟩
      simp only
      rw [FMap.get_insert_ne _ _ (by omega)]; exact h2
    case burnColl k' =>
      simp only [NftM.burnColl] at h; inv_ok at h
      obtain ⟨col1, hk1, ho, hn, rfl⟩ := h
      refine ⟨Nat.le_refl _, fun k _ hk => ?_⟩
      simp only [FMap.get_erase]; split <;> simp [hk]
    case burnNft n =>
      simp only [NftM.burnNft] at h
      inv_ok at h
      obtain ⟨d, w1, hd, _, _, _, _, _, h5, rfl⟩ := h
      cases hc : d.coll with
      | none =>
        rw [hc] at h5
        simp only [NftM.dropFromColl] at h5; inv_ok at h5; subst h5
        exact ⟨Nat.le_refl _, fun _ _ => id⟩
      | some k' =>
        rw [hc] at h5
        simp only [NftM.dropFromColl] at h5; inv_ok at h5
        obtain ⟨col1, hk1, hm, rfl⟩ := h5
        exact ⟨Nat.le_refl _, fun _ _ => hins hk1⟩
  · unfold NftSame at h2
    rw [h2]
    exact ⟨Nat.le_refl _, fun _ _ => id⟩
