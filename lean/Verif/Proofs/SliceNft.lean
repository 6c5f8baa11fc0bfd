import Verif.Proofs.Slice
import Mathlib.Tactic.Common
/-
The NFT pallet's calls as slice transitions.
-/
variable {c : Cfg} {w w' : World} {a : AccountId} {off : AccountId → AccountId → Prop}

theorem SliceRel.of_eq {now k s s'} (h : s' = s) : SliceRel c now off k s s' := by
  subst h; exact .refl

theorem SliceRel.one {now k s s' t} (h : SliceStep c now off k s t) (e : s' = t) :
    SliceRel c now off k s s' := by
  subst e; exact .single h

/-- Case distinction `k = n`; closes the case `k ≠ n`, where nothing changed. -/
macro "slice_at " k:ident n:ident : tactic =>
  `(tactic| (rcases eq_or_ne $k $n with he | hk; swap
             · refine SliceRel.of_eq ?_
               simp [slice, World.putNft, World.putBal, World.ev, FMap.get_insert, FMap.get_erase,
                 FMap.get_set, hk]
             subst he))

/-- Closes the equation of slices. -/
macro "slice_eq" : tactic =>
  `(tactic| (ext1 <;> simp_all [slice, World.putNft, World.putBal, World.ev, FMap.get_insert,
    FMap.get_erase, FMap.get_set]))

namespace NftM

theorem slice_same (h1 : w'.nfts = w.nfts) (h2 : w'.nft.deleg = w.nft.deleg)
    (h3 : w'.nft.secretData = w.nft.secretData) (h4 : w'.nft.secretShards = w.nft.secretShards)
    (h5 : w'.nft.capsuleData = w.nft.capsuleData) (h6 : w'.nft.capsuleShards = w.nft.capsuleShards)
    (h7 : w'.mkt.sales = w.mkt.sales) (h8 : w'.auc.auctions = w.auc.auctions)
    (h9 : w'.rent.contracts = w.rent.contracts) (h10 : w'.tr.trans = w.tr.trans)
    (h11 : w'.tr.consents = w.tr.consents) (h12 : w'.nft.nextNft = w.nft.nextNft) (n : NFTId) : slice w' n = slice w n := by
  simp [slice, *]

theorem dropFromColl_frame {n k} (h : dropFromColl w n k = .ok w') :
    w'.nfts = w.nfts ∧ w'.mkt = w.mkt ∧ w'.auc = w.auc ∧ w'.rent = w.rent ∧ w'.tr = w.tr ∧
    w'.tee = w.tee ∧ w'.br = w.br ∧ w'.rew = w.rew ∧ w'.evs = w.evs ∧ w'.now = w.now ∧
    w'.active = w.active ∧ w'.bal = w.bal ∧ w'.nft = { w.nft with colls := w'.nft.colls } := by
  unfold dropFromColl at h
  split at h
  · inv_ok at h; subst h; simp
  · inv_ok at h; obtain ⟨_, _, _, rfl⟩ := h; simp

theorem pushToColl_frame {n k} (h : pushToColl c w a n k = .ok w') :
    w'.nfts = w.nfts ∧ w'.mkt = w.mkt ∧ w'.auc = w.auc ∧ w'.rent = w.rent ∧ w'.tr = w.tr ∧
    w'.tee = w.tee ∧ w'.br = w.br ∧ w'.rew = w.rew ∧ w'.evs = w.evs ∧ w'.now = w.now ∧
    w'.active = w.active ∧ w'.bal = w.bal ∧ w'.nft = { w.nft with colls := w'.nft.colls } := by
  unfold pushToColl at h
  split at h
  · inv_ok at h; subst h; simp
  · inv_ok at h; obtain ⟨_, _, _, _, _, _, rfl⟩ := h; simp

theorem burn_slice {n} (h : burnNft w a n = .ok w') (k : NFTId) :
    SliceRel c w.now off (.signed .nft a) (slice w k) (slice w' k) := by
  unfold burnNft at h
  inv_ok at h
  obtain ⟨d, w1, hd, ho, h1, h2, h3, h4, h5, rfl⟩ := h
  obtain ⟨e1, e2, e3, e4, e5, -, -, -, -, -, -, -, e6⟩ := dropFromColl_frame h5
  have s1 : w1.nft.deleg = w.nft.deleg := by rw [e6]
  have s2 : w1.nft.secretData = w.nft.secretData := by rw [e6]
  have s3 : w1.nft.secretShards = w.nft.secretShards := by rw [e6]
  have s4 : w1.nft.capsuleData = w.nft.capsuleData := by rw [e6]
  have s5 : w1.nft.capsuleShards = w.nft.capsuleShards := by rw [e6]
  have s6 : w1.nft.nextNft = w.nft.nextNft := by rw [e6]
  clear e6 h5
  rcases eq_or_ne k n with rfl | hk
  · refine .one (.burn hd ho h1 h2 h3 h4) ?_
    ext1 <;> simp [slice, *] <;> split <;> simp
  · refine .of_eq ?_
    simp [slice, *, FMap.get_erase]
    refine ⟨?_, ?_, ?_, ?_⟩ <;> split <;> simp [FMap.get_erase, hk]

theorem transfer_slice {n r} (h : transferNft w a n r = .ok w') (k : NFTId) :
    SliceRel c w.now off (.signed .nft a) (slice w k) (slice w' k) := by
  unfold transferNft at h
  inv_ok at h
  obtain ⟨d, hd, ho, h1, h2, h3, h4, h5, h6, h7, h8, rfl⟩ := h
  slice_at k n
  exact .one (.transfer hd ho h1 h2 h3 h4 h5 h6 h7 h8) (by slice_eq)

theorem delegate_slice {n r} (h : delegateNft w a n r = .ok w') (k : NFTId) :
    SliceRel c w.now off (.signed .nft a) (slice w k) (slice w' k) := by
  unfold delegateNft at h
  inv_ok at h
  obtain ⟨d, hd, ho, h1, h2, h3, h4, h5, rfl⟩ := h
  slice_at k n
  refine .one (.delegate (if r.getD a ≠ a then some (r.getD a) else none) hd ho h1 h2 h3 h4 h5) ?_
  ext1 <;> simp [slice, World.putNft, FMap.get_set]
  by_cases e : r.getD a = a <;> simp [e]

theorem royalty_slice {n r} (h : setRoyalty w a n r = .ok w') (k : NFTId) :
    SliceRel c w.now off (.signed .nft a) (slice w k) (slice w' k) := by
  unfold setRoyalty at h
  inv_ok at h
  obtain ⟨d, hd, ho, h1, h2, h3, h4, h5, h6, h7, rfl⟩ := h
  slice_at k n
  exact .one (.royalty (roy := r) hd ho h1 h2 h3 h4 h5 h6 h7) (by slice_eq)

theorem addToColl_slice {n j} (h : addToColl c w a n j = .ok w') (k : NFTId) :
    SliceRel c w.now off (.signed .nft a) (slice w k) (slice w' k) := by
  unfold addToColl at h
  inv_ok at h
  obtain ⟨col, d, _, _, _, _, hd, ho, h1, _, rfl⟩ := h
  slice_at k n
  exact .one (.addToColl j hd ho h1) (by slice_eq)

theorem addSecret_slice {n data} (h : addSecretHelper c w a n data = .ok w') (k : NFTId) :
    SliceRel c w.now off (.signed .nft a) (slice w k) (slice w' k) := by
  unfold addSecretHelper at h
  inv_ok at h
  obtain ⟨d, b, hd, ho, h1, h2, h3, h4, h5, h6, _, rfl⟩ := h
  slice_at k n
  exact .one (.addSecret (data := data) hd ho h1 h2 h3 h4 h5 h6) (by slice_eq)

theorem toCapsule_slice {n data} (h : toCapsuleHelper c w a n data = .ok w') (k : NFTId) :
    SliceRel c w.now off (.signed .nft a) (slice w k) (slice w' k) := by
  unfold toCapsuleHelper at h
  inv_ok at h
  obtain ⟨d, b, hd, ho, h1, h2, h3, h4, h5, h6, _, rfl⟩ := h
  slice_at k n
  exact .one (.toCapsule (data := data) hd ho h1 h2 h3 h4 h5 h6) (by slice_eq)

theorem secretShard_slice {n} (h : addSecretShard c w a n = .ok w') (k : NFTId) :
    SliceRel c w.now off (.signed .nft a) (slice w k) (slice w' k) := by
  unfold addSecretShard at h
  inv_ok at h
  obtain ⟨s, d, l, _, hd, h1, h2, h3, rfl⟩ := h
  slice_at k n
  exact .one (.secretShard l hd h1 h2 h3) (by slice_eq)

theorem capsuleShard_slice {n} (h : addCapsuleShard c w a n = .ok w') (k : NFTId) :
    SliceRel c w.now off (.signed .nft a) (slice w k) (slice w' k) := by
  unfold addCapsuleShard at h
  inv_ok at h
  obtain ⟨s, d, l, _, hd, h1, h2, h3, rfl⟩ := h
  slice_at k n
  exact .one (.capsuleShard l hd h1 h2 h3) (by slice_eq)

theorem capsuleData_slice {n data} (h : setCapsuleData w a n data = .ok w') (k : NFTId) :
    SliceRel c w.now off (.signed .nft a) (slice w k) (slice w' k) := by
  unfold setCapsuleData at h
  inv_ok at h
  obtain ⟨d, hd, ho, h1, h2, h3, h4, h5, h6, rfl⟩ := h
  slice_at k n
  exact .one (.capsuleData (data := data) hd ho h1) (by slice_eq)

theorem notifyKey_slice {n} (h : notifyKey w a n = .ok w') (k : NFTId) :
    SliceRel c w.now off (.signed .nft a) (slice w k) (slice w' k) := by
  unfold notifyKey at h
  inv_ok at h
  obtain ⟨d, hd, ho, h1, h2, h3, h4, h5, h6, h7, rfl⟩ := h
  slice_at k n
  exact .one (.notifyKey hd ho h1 h2 h3 h4 h5 h6 h7) (by slice_eq)

/-- What `create_nft_helper` does. -/
theorem createHelper_ok {data roy coll sb} (h : createHelper c w a data roy coll sb = .ok w') :
    ∃ b w1, w.bal.payFee c.ed a w.nft.fee = .ok b ∧
      pushToColl c (w.putBal b) a w.nft.nextNft coll = .ok w1 ∧
      w.nft.nextNft + 1 ≤ U32MAX ∧
      w' = ({ w1 with nft := { w1.nft with nextNft := w.nft.nextNft + 1 } } : World).putNft
        w.nft.nextNft
        { owner := a, creator := a, offchain := data, coll := coll, royalty := roy,
          st := { soulbound := sb } } := by
  unfold createHelper nextNftId at h
  inv_ok at h
  obtain ⟨b, w1, x, y, h1, h2, h3, rfl, rfl⟩ := h
  have e := (pushToColl_frame h2).2.2.2.2.2.2.2.2.2.2.2.2
  have e' : w1.nft.nextNft = w.nft.nextNft := by rw [e]; rfl
  split at h3
  · simp only [Option.some.injEq] at h3
    subst h3
    exact ⟨b, w1, h1, h2, by rw [← e']; assumption, by simp [e']⟩
  · simp at h3

theorem create_slice {data roy coll sb} (h : createHelper c w a data roy coll sb = .ok w')
    (hf : w.nfts.get w.nft.nextNft = none) (k : NFTId) :
    SliceRel c w.now off (.signed .nft a) (slice w k) (slice w' k) := by
  obtain ⟨b, w1, _, h2, _, rfl⟩ := createHelper_ok h
  obtain ⟨e1, e2, e3, e4, e5, -, -, -, -, -, -, -, e6⟩ := pushToColl_frame h2
  have s1 : w1.nft.deleg = w.nft.deleg := by rw [e6]; rfl
  have s2 : w1.nft.secretData = w.nft.secretData := by rw [e6]; rfl
  have s3 : w1.nft.secretShards = w.nft.secretShards := by rw [e6]; rfl
  have s4 : w1.nft.capsuleData = w.nft.capsuleData := by rw [e6]; rfl
  have s5 : w1.nft.capsuleShards = w.nft.capsuleShards := by rw [e6]; rfl
  have s6 : w1.nfts = w.nfts := e1
  have s7 : w1.mkt = w.mkt := e2
  have s8 : w1.auc = w.auc := e3
  have s9 : w1.rent = w.rent := e4
  have s10 : w1.tr = w.tr := e5
  clear e1 e2 e3 e4 e5 e6
  rcases eq_or_ne k w.nft.nextNft with rfl | hk
  · refine .one (.mint (data := data) (roy := roy) (coll := coll) (sb := sb) hf (by simp [slice, below])) ?_
    ext1 <;> simp [slice, World.putNft, *, below]
  · refine .of_eq ?_
    ext1 <;> simp [slice, World.putNft, FMap.get_insert, *, below]
    omega

theorem call_slice {x : Call} (h : call c w a x = .ok w')
    (hf : w.nfts.get w.nft.nextNft = none) (k : NFTId) :
    SliceRel c w.now off (.signed .nft a) (slice w k) (slice w' k) := by
  cases x with
  | createNft data r j s => exact create_slice h hf k
  | burnNft n => exact burn_slice h k
  | transferNft n r => exact transfer_slice h k
  | delegateNft n r => exact delegate_slice h k
  | setRoyalty n r => exact royalty_slice h k
  | createColl data l =>
    simp only [call, createColl] at h; inv_ok at h
    obtain ⟨_, _, _, rfl⟩ := h
    exact .of_eq (slice_same rfl rfl rfl rfl rfl rfl rfl rfl rfl rfl rfl rfl _)
  | burnColl j =>
    simp only [call, burnColl] at h; inv_ok at h
    obtain ⟨_, _, _, _, rfl⟩ := h
    exact .of_eq (slice_same rfl rfl rfl rfl rfl rfl rfl rfl rfl rfl rfl rfl _)
  | closeColl j =>
    simp only [call, closeColl] at h; inv_ok at h
    obtain ⟨_, _, _, rfl⟩ := h
    exact .of_eq (slice_same rfl rfl rfl rfl rfl rfl rfl rfl rfl rfl rfl rfl _)
  | limitColl j l =>
    simp only [call, limitColl] at h; inv_ok at h
    obtain ⟨_, _, _, _, _, _, _, rfl⟩ := h
    exact .of_eq (slice_same rfl rfl rfl rfl rfl rfl rfl rfl rfl rfl rfl rfl _)
  | addToColl n j => exact addToColl_slice h k
  | addSecret n data => exact addSecret_slice h k
  | createSecret data s r j sb =>
    simp only [call, createSecret] at h; inv_ok at h
    obtain ⟨w1, _, h1, h2⟩ := h
    have hn : w1.now = w.now := by
      obtain ⟨b, w2, _, h3, _, rfl⟩ := createHelper_ok h1
      exact (pushToColl_frame h3).2.2.2.2.2.2.2.2.2.1
    exact (create_slice h1 hf k).trans (hn ▸ addSecret_slice h2 k)
  | addSecretShard n => exact secretShard_slice h k
  | toCapsule n data => exact toCapsule_slice h k
  | createCapsule data s r j sb =>
    simp only [call, createCapsule] at h; inv_ok at h
    obtain ⟨w1, _, h1, h2⟩ := h
    have hn : w1.now = w.now := by
      obtain ⟨b, w2, _, h3, _, rfl⟩ := createHelper_ok h1
      exact (pushToColl_frame h3).2.2.2.2.2.2.2.2.2.1
    exact (create_slice h1 hf k).trans (hn ▸ toCapsule_slice h2 k)
  | setCapsuleData n data => exact capsuleData_slice h k
  | addCapsuleShard n => exact capsuleShard_slice h k
  | notifyKey n => exact notifyKey_slice h k
  | setCollData j data =>
    simp only [call, setCollData] at h; inv_ok at h
    obtain ⟨_, _, _, rfl⟩ := h
    exact .of_eq (slice_same rfl rfl rfl rfl rfl rfl rfl rfl rfl rfl rfl rfl _)

end NftM
