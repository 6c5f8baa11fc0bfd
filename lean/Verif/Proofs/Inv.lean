import Verif.Proofs.TrInv
import Verif.Proofs.RentHook
import Verif.Proofs.SliceMkt
/-
The joint invariant of all reachable worlds.
-/
variable {c : Cfg} {w w' : World} {a : AccountId}

structure WInv (c : Cfg) (w : World) : Prop where
  good : ∀ n, Good c (slice w n)
  fresh : ∀ n, w.nft.nextNft ≤ n → w.nfts.get n = none
  rent : RentM.RInv c w
  tr : TrM.TrInv c w.tr

theorem Good.rel {now off k} {s s' : Slice} (hk : k.Ok c) (hg : Good c s)
    (h : SliceRel c now off k s s') : Good c s' := by
  induction h with
  | refl => exact hg
  | tail _ h ih => exact ih.step hk h

/-- transitions that are not the rent pallet's -/
def Kind.other : Kind → Prop
  | .rent _ => False
  | .hookRent => False
  | _ => True

theorem Good.some_of {s : Slice} (hg : Good c s) (h : s ≠ .blank s.born) : ∃ d, s.nft = some d := by
  cases e : s.nft with
  | some d => exact ⟨d, rfl⟩
  | none => exact absurd (hg.gone e) h

/-- Nobody else touches an NFT that a pallet account owns. -/
theorem SliceStep.pot_stuck {now off k} {s s' : Slice} {d : NFTData} (hk : k.Ok c) (ho : k.other)
    (hg : Good c s) (hd : s.nft = some d) (hp : c.pot d.owner) (h : SliceStep c now off k s s') :
    False := by
  have g := hg.nft d hd
  have p := g.pot hp
  have hs : s.sale = none ∧ s.auc = none ∧ s.con = none ∧ s.tr = none := by
    have h1 := g.listed; have h2 := g.rented; have h3 := g.trans
    rw [p.1] at h1; rw [p.2.1] at h2; rw [p.2.2.1] at h3
    simp at h1 h2 h3
    grind
  have hne : ∀ p b, k = .signed p b → d.owner ≠ b := by
    rintro _ b rfl e; exact hk (e ▸ hp)
  cases h <;> simp only [Kind.other] at ho <;> grind

theorem SliceRel.pot_stuck {now off k} {s s' : Slice} {d : NFTData} (hk : k.Ok c) (ho : k.other)
    (hg : Good c s) (hd : s.nft = some d) (hp : c.pot d.owner) (h : SliceRel c now off k s s') :
    s' = s := by
  induction h with
  | refl => rfl
  | tail _ h ih => subst ih; exact (h.pot_stuck hk ho hg hd hp).elim

/-- Nobody else moves an NFT under contract or changes its contract. -/
theorem SliceStep.con_stays {now off k} {s s' : Slice} {x : Contract} (ho : k.other)
    (hg : Good c s) (hx : s.con = some x) (h : SliceStep c now off k s s') :
    s'.con = some x ∧ ∀ d, s.nft = some d → ∃ d', s'.nft = some d' ∧ d'.owner = d.owner ∧
      d'.st.rented = d.st.rented := by
  obtain ⟨d, hd⟩ := hg.some_of (fun e => by rw [e] at hx; simp [Slice.blank] at hx)
  have g := hg.nft d hd
  have hr := g.rented.2 (by rw [hx]; simp)
  have hl : d.st.listed = false := by
    cases e : d.st.listed
    · rfl
    · have := (g.exL e).1; rw [hr] at this; simp at this
  have e := g.exR hr
  have hs : s.sale = none ∧ s.auc = none ∧ s.tr = none := by
    have h1 := g.listed; have h3 := g.trans
    rw [hl] at h1; rw [e.1] at h3
    simp at h1 h3
    grind
  cases h <;> simp only [Kind.other] at ho <;> grind

theorem SliceRel.con_stays {now off k} {s s' : Slice} {x : Contract} (hk : k.Ok c) (ho : k.other)
    (hg : Good c s) (hx : s.con = some x) (h : SliceRel c now off k s s') :
    s'.con = some x ∧ ∀ d, s.nft = some d → ∃ d', s'.nft = some d' ∧ d'.owner = d.owner ∧
      d'.st.rented = d.st.rented := by
  induction h with
  | refl => exact ⟨hx, fun d hd => ⟨d, hd, rfl, rfl⟩⟩
  | tail h0 h ih =>
    obtain ⟨h1, h2⟩ := h.con_stays ho (hg.rel hk h0) ih.1
    refine ⟨h1, fun d hd => ?_⟩
    obtain ⟨d1, e1, e2, e3⟩ := ih.2 d hd
    obtain ⟨d2, f1, f2, f3⟩ := h2 d1 e1
    exact ⟨d2, f1, f2.trans e2, f3.trans e3⟩

/-- A step of another pallet. -/
theorem WInv.other (h : WInv c w) {k : Kind} {off : NFTId → AccountId → AccountId → Prop} (hk : k.Ok c) (ho : k.other)
    (hs : ∀ n, SliceRel c w.now (off n) k (slice w n) (slice w' n))
    (hr : w'.rent = w.rent) (hn : w'.now = w.now)
    (hb : w.bal.freeOf c.rentPot ≤ w'.bal.freeOf c.rentPot)
    (hf : ∀ n, w'.nft.nextNft ≤ n → w'.nfts.get n = none) (ht : TrM.TrInv c w'.tr) : WInv c w' := by
  refine ⟨fun n => (h.good n).rel hk (hs n), hf, ⟨?_, ?_, ?_⟩, ht⟩
  · rw [hr, hn]; exact h.rent.q
  · refine h.rent.dep.frame (by rw [hr]) ?_ ?_
    · rintro m ⟨d, h1, h2, h3⟩
      have := SliceRel.pot_stuck hk ho (h.good m) (d := d) h1 (by rw [h2]; exact Or.inr (Or.inl rfl)) (hs m)
      exact ⟨d, (congrArg Slice.nft this).trans h1, h2, h3⟩
    · intro n x d hx hd
      exact (SliceRel.con_stays hk ho (h.good n) hx (hs n)).2 d hd
  · simp only [RentM.owedAll, hr]; exact Nat.le_trans h.rent.solv hb

/-- A step that concerns no NFT. -/
theorem WInv.plain (h : WInv c w) (hs : ∀ n, slice w' n = slice w n) (hr : w'.rent = w.rent)
    (hn : w.now ≤ w'.now) (hb : w.bal.freeOf c.rentPot ≤ w'.bal.freeOf c.rentPot)
    (hx : w'.nft.nextNft = w.nft.nextNft) (ht : TrM.TrInv c w'.tr) : WInv c w' := by
  have e : ∀ n, w'.nfts.get n = w.nfts.get n := fun n => congrArg Slice.nft (hs n)
  refine ⟨fun n => by rw [hs n]; exact h.good n, ?_, ⟨?_, ?_, ?_⟩, ht⟩
  · intro n hn; rw [e]; exact h.fresh n (hx ▸ hn)
  · rw [hr]; exact h.rent.q.later hn
  · refine h.rent.dep.frame (by rw [hr]) ?_ ?_
    · rintro m ⟨d, h1, h2, h3⟩; exact ⟨d, by rw [e]; exact h1, h2, h3⟩
    · intro n x d hx hd; exact ⟨d, by rw [e]; exact hd, rfl, rfl⟩
  · simp only [RentM.owedAll, hr]; exact Nat.le_trans h.rent.solv hb

/-! ## which NFTs exist -/

/-- what only the NFT pallet changes -/
def NFTData.core (d : NFTData) : AccountId × Data × Option CollId × Permill × Bool × Bool × Bool × Bool × Bool :=
  (d.creator, d.offchain, d.coll, d.royalty, d.st.soulbound, d.st.secret, d.st.capsule,
    d.st.syncSecret, d.st.syncCapsule)

/-- existence and core of all NFTs are the same -/
def SameCore (w w' : World) : Prop :=
  ∀ n, (w'.nfts.get n).map NFTData.core = (w.nfts.get n).map NFTData.core

theorem SameCore.dom (h : SameCore w w') {n} (hn : w.nfts.get n = none) : w'.nfts.get n = none := by
  have := h n; rw [hn] at this; simpa using this

theorem SameCore.of_eq (h : w'.nfts = w.nfts) : SameCore w w' := fun n => by rw [h]

theorem SameCore.insert {n d d'} (hd : w.nfts.get n = some d)
    (h : w'.nfts = w.nfts.insert n d') (hc : d'.core = d.core) : SameCore w w' := by
  intro m
  rw [h, FMap.get_insert]
  split
  · rename_i e; subst e; simp [hd, hc]
  · rfl

theorem MktM.call_core {x : MktM.Call} (h : MktM.call c w a x = .ok w') : SameCore w w' := by
  cases x <;> simp only [call] at h
  case create => simp only [create] at h; frame_auto at h; exact .of_eq rfl
  case setOwner => simp only [setOwner] at h; frame_auto at h; exact .of_eq rfl
  case setKind => simp only [setKind] at h; frame_auto at h; exact .of_eq rfl
  case setConfig => simp only [setConfig] at h; frame_auto at h; exact .of_eq rfl
  case list =>
    simp only [list] at h; inv_ok at h
    obtain ⟨d, k, b, hd, h⟩ := h
    repeat' (first | (obtain ⟨_, h⟩ := h))
    exact .insert hd rfl rfl
  case unlist =>
    simp only [unlist] at h; inv_ok at h
    obtain ⟨d, k, hd, h⟩ := h
    repeat' (first | (obtain ⟨_, h⟩ := h))
    exact .insert hd rfl rfl
  case buy =>
    simp only [buy] at h; inv_ok at h
    obtain ⟨d, s, k, b1, b2, b3, hd, h⟩ := h
    repeat' (first | (obtain ⟨_, h⟩ := h))
    exact .insert hd rfl rfl

theorem AucM.call_core {x : AucM.Call} (h : AucM.call c w a x = .ok w') : SameCore w w' := by
  cases x <;> simp only [call] at h
  case create =>
    simp only [create] at h; inv_ok at h
    obtain ⟨d, k, q, _, _, _, _, _, _, hd, h⟩ := h
    repeat' (first | (obtain ⟨_, h⟩ := h))
    exact .insert hd rfl rfl
  case cancel =>
    simp only [cancel] at h; inv_ok at h
    obtain ⟨d, k, hd, h⟩ := h
    repeat' (first | (obtain ⟨_, h⟩ := h))
    exact .insert hd rfl rfl
  case end_ =>
    simp only [end_] at h; inv_ok at h
    obtain ⟨d, k, top, b, hd, h⟩ := h
    repeat' (first | (obtain ⟨_, h⟩ := h))
    exact .insert hd rfl rfl
  case addBid => simp only [addBid] at h; frame_auto at h; exact .of_eq rfl
  case removeBid => simp only [removeBidCall] at h; frame_auto at h; exact .of_eq rfl
  case buyItNow =>
    simp only [buyItNow] at h; inv_ok at h
    obtain ⟨d, k, top, b, hd, h⟩ := h
    repeat' (first | (obtain ⟨_, h⟩ := h))
    exact .insert hd rfl rfl
  case claim => simp only [claim] at h; frame_auto at h; exact .of_eq rfl

theorem TrM.call_core {x : TrM.Call} (h : TrM.call c w a x = .ok w') : SameCore w w' := by
  cases x <;> simp only [call] at h
  case set =>
    simp only [set] at h; inv_ok at h
    obtain ⟨d, q, b, _, hd, h⟩ := h
    repeat' (first | (obtain ⟨_, h⟩ := h))
    exact .insert hd rfl rfl
  case remove =>
    simp only [remove] at h; inv_ok at h
    obtain ⟨d, t, hd, h⟩ := h
    repeat' (first | (obtain ⟨_, h⟩ := h))
    exact .insert hd rfl rfl
  case resetTimer => simp only [resetTimer] at h; frame_auto at h; exact .of_eq rfl
  case addConsent n =>
    obtain ⟨d, t, x, hd, h1, ht, hcd, h2, h3, h4, h5, h6⟩ := addConsent_ok h
    rcases h6 with ⟨h6, rfl⟩ | ⟨h6, _, rfl⟩ | ⟨h6, e, q, h7, h8, h9, h10, rfl⟩
    · exact .of_eq rfl
    · exact .insert hd rfl rfl
    · exact .of_eq rfl

/-- hooks and the rent pallet leave the core -/
theorem SliceStep.core {now off k} {s s' : Slice} (hk : ∀ p b, k ≠ .signed p b)
    (h : SliceStep c now off k s s') : s'.nft.map NFTData.core = s.nft.map NFTData.core := by
  cases h <;> simp_all [NFTData.core]

theorem SliceRel.core {now off k} {s s' : Slice} (hk : ∀ p b, k ≠ .signed p b)
    (h : SliceRel c now off k s s') : s'.nft.map NFTData.core = s.nft.map NFTData.core := by
  induction h with
  | refl => rfl
  | tail _ h ih => rw [h.core hk, ih]

theorem NftM.createHelper_fresh {data roy coll sb} (h : createHelper c w a data roy coll sb = .ok w')
    (hf : ∀ n, w.nft.nextNft ≤ n → w.nfts.get n = none) :
    ∀ n, w'.nft.nextNft ≤ n → w'.nfts.get n = none := by
  obtain ⟨b, w1, _, h2, _, rfl⟩ := createHelper_ok h
  have e : w1.nfts = w.nfts := (pushToColl_frame h2).1
  intro n hn
  simp only [World.putNft] at hn ⊢
  rw [FMap.get_insert_ne _ _ (by omega), e]
  exact hf n (by omega)

/-- existing NFTs stay below the counter when an existing NFT is written -/
theorem fresh_insert {n d d'} (hd : w.nfts.get n = some d)
    (hf : ∀ n, w.nft.nextNft ≤ n → w.nfts.get n = none)
    (h : w'.nfts = w.nfts.insert n d') (hx : w'.nft.nextNft = w.nft.nextNft) :
    ∀ n, w'.nft.nextNft ≤ n → w'.nfts.get n = none := by
  intro m hm
  rw [hx] at hm
  rw [h, FMap.get_insert_ne]
  · exact hf m hm
  · rintro rfl; rw [hf m hm] at hd; simp at hd

theorem NftM.call_fresh {x : NftM.Call} (h : NftM.call c w a x = .ok w')
    (hf : ∀ n, w.nft.nextNft ≤ n → w.nfts.get n = none) :
    ∀ n, w'.nft.nextNft ≤ n → w'.nfts.get n = none := by
  have hs : ∀ {w w' : World} {n data}, addSecretHelper c w a n data = .ok w' →
      (∀ n, w.nft.nextNft ≤ n → w.nfts.get n = none) →
      ∀ n, w'.nft.nextNft ≤ n → w'.nfts.get n = none := by
    intro w w' n data h hf
    simp only [addSecretHelper] at h; inv_ok at h
    obtain ⟨d, b, hd, h⟩ := h
    repeat' (first | (obtain ⟨_, h⟩ := h))
    exact fresh_insert hd hf rfl rfl
  have ht : ∀ {w w' : World} {n data}, toCapsuleHelper c w a n data = .ok w' →
      (∀ n, w.nft.nextNft ≤ n → w.nfts.get n = none) →
      ∀ n, w'.nft.nextNft ≤ n → w'.nfts.get n = none := by
    intro w w' n data h hf
    simp only [toCapsuleHelper] at h; inv_ok at h
    obtain ⟨d, b, hd, h⟩ := h
    repeat' (first | (obtain ⟨_, h⟩ := h))
    exact fresh_insert hd hf rfl rfl
  cases x <;> simp only [call] at h
  case createNft => exact createHelper_fresh h hf
  case burnNft n =>
    simp only [burnNft] at h
    inv_ok at h
    obtain ⟨d, w1, _, _, _, _, _, _, h5, rfl⟩ := h
    have e := dropFromColl_frame h5
    have e1 : w1.nft.nextNft = w.nft.nextNft := by rw [e.2.2.2.2.2.2.2.2.2.2.2.2]
    intro m hm
    simp only [e1] at hm
    simp only [FMap.get_erase, e.1]
    split
    · rfl
    · exact hf m hm
  case transferNft =>
    simp only [transferNft] at h; inv_ok at h
    obtain ⟨d, hd, h⟩ := h
    repeat' (first | (obtain ⟨_, h⟩ := h))
    exact fresh_insert hd hf rfl rfl
  case delegateNft =>
    simp only [delegateNft] at h; inv_ok at h
    obtain ⟨d, hd, h⟩ := h
    repeat' (first | (obtain ⟨_, h⟩ := h))
    exact fresh_insert hd hf rfl rfl
  case setRoyalty =>
    simp only [setRoyalty] at h; inv_ok at h
    obtain ⟨d, hd, h⟩ := h
    repeat' (first | (obtain ⟨_, h⟩ := h))
    exact fresh_insert hd hf rfl rfl
  case createColl => simp only [createColl] at h; frame_auto at h; exact hf
  case burnColl => simp only [burnColl] at h; frame_auto at h; exact hf
  case closeColl => simp only [closeColl] at h; frame_auto at h; exact hf
  case limitColl => simp only [limitColl] at h; frame_auto at h; exact hf
  case addToColl =>
    simp only [addToColl] at h; inv_ok at h
    obtain ⟨col, d, _, _, _, _, hd, h⟩ := h
    repeat' (first | (obtain ⟨_, h⟩ := h))
    exact fresh_insert hd hf rfl rfl
  case addSecret => exact hs h hf
  case createSecret =>
    simp only [createSecret] at h; inv_ok at h
    obtain ⟨w1, _, h1, h2⟩ := h
    exact hs h2 (createHelper_fresh h1 hf)
  case addSecretShard =>
    simp only [addSecretShard] at h; inv_ok at h
    obtain ⟨s, d, l, _, hd, h⟩ := h
    repeat' (first | (obtain ⟨_, h⟩ := h))
    exact fresh_insert hd hf rfl rfl
  case toCapsule => exact ht h hf
  case createCapsule =>
    simp only [createCapsule] at h; inv_ok at h
    obtain ⟨w1, _, h1, h2⟩ := h
    exact ht h2 (createHelper_fresh h1 hf)
  case setCapsuleData => simp only [setCapsuleData] at h; frame_auto at h; exact hf
  case addCapsuleShard =>
    simp only [addCapsuleShard] at h; inv_ok at h
    obtain ⟨s, d, l, _, hd, h⟩ := h
    repeat' (first | (obtain ⟨_, h⟩ := h))
    exact fresh_insert hd hf rfl rfl
  case notifyKey =>
    simp only [notifyKey] at h; inv_ok at h
    obtain ⟨d, hd, h⟩ := h
    repeat' (first | (obtain ⟨_, h⟩ := h))
    exact fresh_insert hd hf rfl rfl
  case setCollData => simp only [setCollData] at h; frame_auto at h; exact hf

/-! ## the invariant is preserved -/

theorem not_pot_ne {p : AccountId} (ha : ¬ c.pot a) (hp : c.pot p) : p ≠ a := by
  rintro rfl; exact ha hp

theorem Cfg.pot_rent : c.pot c.rentPot := Or.inr (Or.inl rfl)
theorem Cfg.pot_auc : c.pot c.aucPot := Or.inl rfl
theorem Cfg.pot_tee : c.pot c.teePot := Or.inr (Or.inr (Or.inl rfl))
theorem Cfg.pot_rew : c.pot c.rewPot := Or.inr (Or.inr (Or.inr rfl))

/-- Who takes money out of a pallet account: only its own pallet. -/
theorem Micro.pot_free {p : AccountId} (hr : RentM.RInv c w) (hp : c.pot p) (h : Micro c w w') :
    w.bal.freeOf p ≤ w'.bal.freeOf p ∨
    (p = c.aucPot ∧ ((∃ a x, ¬ c.pot a ∧ AucM.call c w a x = .ok w') ∨ w' = AucM.hook c w)) ∨
    (p = c.rentPot ∧ ((∃ a x, ¬ c.pot a ∧ RentM.call c w a x = .ok w') ∨ w' = RentM.hook c w)) ∨
    (p = c.teePot ∧ ∃ a x, ¬ c.pot a ∧ TeeM.call c w a x = .ok w') ∨
    (p = c.rewPot ∧ w' = (RewM.eraPayout c w).1) := by
  cases h with
  | nft x ha h => exact Or.inl ((NftM.call_pays h).mono.free _ (not_pot_ne ha hp))
  | mkt x ha h => exact Or.inl ((MktM.call_pays h).mono.free _ (not_pot_ne ha hp))
  | @auc _ y x ha h =>
    by_cases e : p = c.aucPot
    · exact Or.inr (Or.inl ⟨e, Or.inl ⟨y, x, ha, h⟩⟩)
    · refine Or.inl ((AucM.call_pays h).mono.free _ ?_)
      rintro (e' | e')
      · exact ha (e' ▸ hp)
      · exact e e'
  | @rent _ y x ha h =>
    by_cases e : p = c.rentPot
    · exact Or.inr (Or.inr (Or.inl ⟨e, Or.inl ⟨y, x, ha, h⟩⟩))
    · refine Or.inl ((RentM.call_pays h).mono.free _ ?_)
      cases x <;> simp only [RentM.payer] <;> rintro (e' | e')
      case acceptOffer.inr =>
        obtain ⟨rfl, l, hl, hm⟩ := e'
        exact hr.q.offersOk _ _ hl _ hm hp
      all_goals first | exact e e' | exact ha (e' ▸ hp)
  | tr x ha h => exact Or.inl ((TrM.call_pays h).mono.free _ (not_pot_ne ha hp))
  | @tee _ y x ha h =>
    by_cases e : p = c.teePot
    · exact Or.inr (Or.inr (Or.inr (Or.inl ⟨e, y, x, ha, h⟩)))
    · rcases TeeM.call_bal h with ⟨_, h⟩ | ⟨m, e, hm⟩
      · exact Or.inl (h.mono.free _ e)
      · rw [e]; exact Or.inl (Nat.le_refl _)
  | br x ha h =>
    refine Or.inl ?_
    cases x <;> simp only [BrM.call] at h
    case vote k t =>
      simp only [BrM.voteFor] at h; inv_ok at h
      obtain ⟨y, _, _, _, rfl⟩ := h
      cases y.2
      · exact Nat.le_refl _
      · exact (Bal.mint_mono ..).free _ (S := fun _ => False) (by simp)
    case deposit =>
      simp only [BrM.deposit] at h; inv_ok at h
      obtain ⟨b1, b2, _, _, h3, h4, rfl⟩ := h
      have m1 := (Bal.payFee_mono h3).free _ (not_pot_ne ha hp)
      have m2 := (Bal.withdraw_mono h4).free _ (not_pot_ne ha hp)
      exact Nat.le_trans m1 m2
  | bal ha h => exact Or.inl ((Bal.transfer_mono h).free _ (not_pot_ne ha hp))
  | nftFee => exact Or.inl (Nat.le_refl _)
  | secretFee => exact Or.inl (Nat.le_refl _)
  | capsuleFee => exact Or.inl (Nat.le_refl _)
  | mktFee => exact Or.inl (Nat.le_refl _)
  | trFee k => cases k <;> exact Or.inl (Nat.le_refl _)
  | teeRoot x h =>
    have := congrArg World.bal (TeeM.root_frame h)
    rw [this]; exact Or.inl (Nat.le_refl _)
  | ext x h =>
    have := congrArg World.bal (BrM.ext_frame h)
    rw [this]; exact Or.inl (Nat.le_refl _)
  | mandated => exact Or.inl (Nat.le_refl _)
  | hookAuc =>
    by_cases e : p = c.aucPot
    · exact Or.inr (Or.inl ⟨e, Or.inr rfl⟩)
    · exact Or.inl ((AucM.hook_pays w).mono.free _ e)
  | hookRent =>
    by_cases e : p = c.rentPot
    · exact Or.inr (Or.inr (Or.inl ⟨e, Or.inr rfl⟩))
    · refine Or.inl ((RentM.hook_pays w).mono.free _ ?_)
      rintro (e' | ⟨n, k, hk, hx⟩)
      · exact e e'
      · exact (hr.q.con n k hk).rentee p hx hp
  | hookTr =>
    have := congrArg World.bal (TrM.hook_frame (c := c) w)
    rw [this]; exact Or.inl (Nat.le_refl _)
  | hookTee =>
    have := congrArg World.bal (TeeM.hook_frame (c := c) w)
    rw [this]; exact Or.inl (Nat.le_refl _)
  | tick => exact Or.inl (Nat.le_refl _)
  | era => exact Or.inl (Nat.le_refl _)
  | txFee ha h =>
    refine Or.inl ?_
    simp only [RewM.txFee] at h; inv_ok at h
    obtain ⟨b, h3, rfl⟩ := h
    have m := (Bal.withdraw_mono h3).free _ (not_pot_ne ha hp)
    rename_i au
    cases au with
    | none => exact m
    | some x =>
      refine Nat.le_trans m ?_
      exact (Bal.mint_mono (S := fun _ => False) (b.burn _) _ _).free _ (by simp)
  | eraPayout =>
    by_cases e : p = c.rewPot
    · exact Or.inr (Or.inr (Or.inr (Or.inr ⟨e, rfl⟩)))
    · refine Or.inl ?_
      unfold RewM.eraPayout
      dsimp only [World.putBal, World.ev]
      split
      · rename_i b h3
        exact (Bal.withdraw_mono h3).free _ e
      · exact Nat.le_refl _
  | mint => exact Or.inl ((Bal.mint_mono ..).free _ (S := fun _ => False) (by simp))
  | lock => exact Or.inl (Nat.le_refl _)

/-- component of a frame equation -/
macro "fr% " f:term:max e:term:max : term => `(by have h := congrArg $f $e; exact h)

theorem slice_dom {off k} (hk : ∀ p b, k ≠ .signed p b) {n}
    (h : SliceRel c w.now off k (slice w n) (slice w' n)) (hn : w.nfts.get n = none) :
    w'.nfts.get n = none := by
  have := h.core hk
  simp only [slice, hn] at this
  simpa using this

theorem WInv.rentCall (h : WInv c w) (ha : ¬ c.pot a) {x : RentM.Call}
    (hx : RentM.call c w a x = .ok w') : WInv c w' := by
  have hs := RentM.call_slice hx h.rent.dep.ok
  have hf := RentM.call_frame hx
  refine ⟨fun n => (h.good n).rel (k := .rent a) ha (hs n), ?_, h.rent.call ha hx, ?_⟩
  · have e : w'.nft = w.nft := fr% World.nft hf
    intro n hn
    rw [e] at hn
    exact slice_dom (by simp) (hs n) (h.fresh n hn)
  · have e : w'.tr = w.tr := fr% World.tr hf
    rw [e]; exact h.tr

theorem WInv.rentHook (h : WInv c w) (hb : BalInv c w.bal) : WInv c (RentM.hook c w) := by
  have hs := h.rent.hook (off := fun _ _ => True) hb
  have hf := RentM.hook_frame (c := c) w
  refine ⟨fun n => (h.good n).rel (k := .hookRent) trivial (hs.2 n), ?_,
    hs.1, ?_⟩
  · have e : (RentM.hook c w).nft = w.nft := fr% World.nft hf
    intro n hn
    rw [e] at hn
    exact slice_dom (by simp) (hs.2 n) (h.fresh n hn)
  · have e : (RentM.hook c w).tr = w.tr := fr% World.tr hf
    rw [e]; exact h.tr

theorem TrM.TrInv.fees {t : TrSt} (h : TrInv c t) {x1 x2 x3 x4 : Balance} :
    TrInv c { t with feeAt := x1, feeReset := x2, feeConsent := x3, feeConsentAt := x4 } :=
  ⟨h.wf, h.len, h.inQ, h.mem, h.cons, h.proto⟩

theorem WInv.micro (hc : c.Ok) (h : WInv c w) (hb : BalInv c w.bal) (hm : Micro c w w') :
    WInv c w' := by
  have key : w.bal.freeOf c.rentPot ≤ w'.bal.freeOf c.rentPot ∨
      ((∃ a x, ¬ c.pot a ∧ RentM.call c w a x = .ok w') ∨ w' = RentM.hook c w) := by
    rcases hm.pot_free h.rent Cfg.pot_rent with h1 | ⟨h1, _⟩ | ⟨_, h1⟩ | ⟨h1, _⟩ | ⟨h1, _⟩
    · exact Or.inl h1
    · exact absurd h1.symm hc.ar
    · exact Or.inr h1
    · exact absurd h1 hc.rt
    · exact absurd h1 hc.rw
  rcases key with hf | ⟨b, x, hb1, hx⟩ | rfl
  rotate_left
  · exact h.rentCall hb1 hx
  · exact h.rentHook hb
  cases hm with
  | @nft _ b x ha hx =>
    have e := NftM.call_frame hx
    refine h.other (k := .signed .nft b) (off := offered w) ha trivial
      (fun n => NftM.call_slice hx (h.fresh _ (Nat.le_refl _)) n) (fr% World.rent e) (fr% World.now e)
      hf (NftM.call_fresh hx h.fresh) ?_
    have e : w'.tr = w.tr := fr% World.tr e
    rw [e]; exact h.tr
  | @mkt _ b x ha hx =>
    have e := MktM.call_frame hx
    have en : w'.nft = w.nft := fr% World.nft e
    refine h.other (k := .signed .mkt b) (off := offered w) ha trivial (fun n => MktM.call_slice hx n)
      (fr% World.rent e) (fr% World.now e)
      hf (fun n hn => (MktM.call_core hx).dom (h.fresh n (en ▸ hn))) ?_
    have e : w'.tr = w.tr := fr% World.tr e
    rw [e]; exact h.tr
  | @auc _ b x ha hx =>
    have e := AucM.call_frame hx
    have en : w'.nft = w.nft := fr% World.nft e
    refine h.other (k := .signed .auc b) (off := offered w) ha trivial (fun n => AucM.call_slice hx n)
      (fr% World.rent e) (fr% World.now e)
      hf (fun n hn => (AucM.call_core hx).dom (h.fresh n (en ▸ hn))) ?_
    have e : w'.tr = w.tr := fr% World.tr e
    rw [e]; exact h.tr
  | rent x ha hx => exact h.rentCall ha hx
  | @tr _ b x ha hx =>
    have e := TrM.call_frame hx
    have en : w'.nft = w.nft := fr% World.nft e
    exact h.other (k := .signed .tr b) (off := offered w) ha trivial (fun n => TrM.call_slice hx n)
      (fr% World.rent e) (fr% World.now e)
      hf (fun n hn => (TrM.call_core hx).dom (h.fresh n (en ▸ hn))) (h.tr.call h.good hx)
  | tee x ha hx =>
    have e := TeeM.call_frame hx
    have et : w'.tr = w.tr := fr% World.tr e
    refine h.plain (fun n => ?_) (fr% World.rent e) (Nat.le_of_eq (Eq.symm (fr% World.now e))) hf
      (fr% (fun w : World => w.nft.nextNft) e) (by rw [et]; exact h.tr)
    rw [e]; rfl
  | br x ha hx =>
    have e := BrM.call_frame hx
    have et : w'.tr = w.tr := fr% World.tr e
    refine h.plain (fun n => ?_) (fr% World.rent e) (Nat.le_of_eq (Eq.symm (fr% World.now e))) hf
      (fr% (fun w : World => w.nft.nextNft) e) (by rw [et]; exact h.tr)
    rw [e]; rfl
  | bal ha hx => exact h.plain (fun n => rfl) rfl (Nat.le_refl _) hf rfl h.tr
  | nftFee => exact h.plain (fun n => rfl) rfl (Nat.le_refl _) hf rfl h.tr
  | secretFee => exact h.plain (fun n => rfl) rfl (Nat.le_refl _) hf rfl h.tr
  | capsuleFee => exact h.plain (fun n => rfl) rfl (Nat.le_refl _) hf rfl h.tr
  | mktFee => exact h.plain (fun n => rfl) rfl (Nat.le_refl _) hf rfl h.tr
  | trFee k =>
    cases k <;> exact h.plain (fun n => rfl) rfl (Nat.le_refl _) hf rfl h.tr.fees
  | teeRoot x hx =>
    have e := TeeM.root_frame hx
    have et : w'.tr = w.tr := fr% World.tr e
    refine h.plain (fun n => ?_) (fr% World.rent e) (Nat.le_of_eq (Eq.symm (fr% World.now e))) hf
      (fr% (fun w : World => w.nft.nextNft) e) (by rw [et]; exact h.tr)
    rw [e]; rfl
  | ext x hx =>
    have e := BrM.ext_frame hx
    have et : w'.tr = w.tr := fr% World.tr e
    refine h.plain (fun n => ?_) (fr% World.rent e) (Nat.le_of_eq (Eq.symm (fr% World.now e))) hf
      (fr% (fun w : World => w.nft.nextNft) e) (by rw [et]; exact h.tr)
    rw [e]; rfl
  | mandated => exact h.plain (fun n => rfl) rfl (Nat.le_refl _) hf rfl h.tr
  | hookAuc =>
    have e := AucM.hook_frame (c := c) w
    have en : (AucM.hook c w).nft = w.nft := fr% World.nft e
    have et : (AucM.hook c w).tr = w.tr := fr% World.tr e
    exact h.other (k := .hookAuc) (off := offered w) trivial trivial (fun n => AucM.hook_slice w n)
      (fr% World.rent e) (fr% World.now e) hf
      (fun n hn => slice_dom (off := fun _ _ => True) (by simp) (AucM.hook_slice w n) (h.fresh n (en ▸ hn)))
      (by rw [et]; exact h.tr)
  | hookRent => exact h.rentHook hb
  | hookTr =>
    have e := TrM.hook_frame (c := c) w
    have en : (TrM.hook c w).nft = w.nft := fr% World.nft e
    have hq : ∀ x ∈ w.tr.queue, w.tr.consents.get x.1 = none := fun x hx =>
      (h.tr.inQ x.1 x.2 hx).choose_spec.2.2
    exact h.other (k := .hookTr) (off := offered w) trivial trivial (fun n => TrM.hook_slice w hq n)
      (fr% World.rent e) (fr% World.now e) hf
      (fun n hn => slice_dom (off := fun _ _ => True) (by simp) (TrM.hook_slice w hq n)
        (h.fresh n (en ▸ hn)))
      (h.tr.hook h.good)
  | hookTee =>
    have e := TeeM.hook_frame (c := c) w
    have et : (TeeM.hook c w).tr = w.tr := fr% World.tr e
    refine h.plain (fun n => ?_) (fr% World.rent e) (Nat.le_of_eq (Eq.symm (fr% World.now e))) hf
      (fr% (fun w : World => w.nft.nextNft) e) (by rw [et]; exact h.tr)
    rw [e]; rfl
  | tick => exact h.plain (fun n => rfl) rfl (Nat.le_succ _) hf rfl h.tr
  | era => exact h.plain (fun n => rfl) rfl (Nat.le_refl _) hf rfl h.tr
  | txFee ha hx =>
    have e := RewM.txFee_frame hx
    have et : w'.tr = w.tr := fr% World.tr e
    refine h.plain (fun n => ?_) (fr% World.rent e) (Nat.le_of_eq (Eq.symm (fr% World.now e))) hf
      (fr% (fun w : World => w.nft.nextNft) e) (by rw [et]; exact h.tr)
    rw [e]; rfl
  | eraPayout => exact h.plain (fun n => rfl) rfl (Nat.le_refl _) hf rfl h.tr
  | mint => exact h.plain (fun n => rfl) rfl (Nat.le_refl _) hf rfl h.tr
  | lock => exact h.plain (fun n => rfl) rfl (Nat.le_refl _) hf rfl h.tr

theorem WInv.init (hg : Genesis c w) : WInv c w := by
  obtain ⟨hbal, hnfts, hnft, hmkt, hauc, hrent, htr, -⟩ := hg
  have hs : ∀ n, slice w n = .blank false := by
    intro n
    simp [slice, Slice.blank, hnfts, hnft, hmkt, hauc, hrent, htr, below]
  refine ⟨fun n => ?_, fun n _ => by simp [hnfts], ⟨?_, ?_, ?_⟩, ?_⟩
  · rw [hs n]; exact ⟨fun _ => rfl, fun d hd => by simp [Slice.blank] at hd⟩
  · obtain ⟨h1, h2, h3, h4, h5⟩ := hrent
    constructor <;> simp [h1, h2, h3, h4, h5, Queue.WF.nil]
  · constructor <;> simp [hrent]
  · simp [RentM.owedAll, hrent]
  · obtain ⟨h1, h2, h3⟩ := htr
    constructor <;> simp [h1, h2, h3, Queue.WF.nil]

theorem MReach.inv (hc : c.Ok) (h : MReach c w) : WInv c w := by
  induction h with
  | init hg => exact .init hg
  | step hr hm ih => exact ih.micro hc hr.balInv hm

theorem Reach.inv (hc : c.Ok) (h : Reach c w) : WInv c w := h.micro.inv hc
