import Verif.Props.Local
import Verif.Props.Nft
/-
Property C78.
-/
variable {c : Cfg} {w w' : World} {a : AccountId} {m n : NFTId} {o : Op}
set_option maxRecDepth 10000

/- Specification -/
namespace Spec

/-- what an NFT is worth having for -/
structure Content where
  offchain : Data
  royalty : Permill
  creator : AccountId
  soulbound : Bool
  /-- where the secret is, for a secret NFT -/
  secret : Option Data
  /-- where the capsule is, for a capsule NFT -/
  capsule : Option Data

/-- the content of NFT `m`, if it exists -/
def content (w : World) (m : NFTId) : Option Content :=
  (w.nfts.get m).map fun d => {
    offchain := d.offchain, royalty := d.royalty, creator := d.creator, soulbound := d.st.soulbound
    secret := w.nft.secretData.get m, capsule := w.nft.capsuleData.get m }

/-- the NFT is in nobody's use: not for sale, not in a rent contract, not delegated -/
def Loose (d : NFTData) : Prop := d.st.listed = false ∧ d.st.rented = false ∧ d.st.delegated = false

/-- The owner of NFT `m`, which has the data `d` and the content `x`, changes the content by operation `o`. -/
inductive Edit (m : NFTId) (d : NFTData) (x : Content) : Op → Content → Prop where
  /-- the owner, who is the creator, sets the royalty -/
  | royalty (r : Permill) : d.creator = d.owner → Loose d → d.st.transmission = false →
      Edit m d x (.call (.signed d.owner) (.nft (.setRoyalty m r))) { x with royalty := r }
  /-- the owner adds a secret to an NFT without one -/
  | secret (s : Data) : x.secret = none → Loose d → d.st.transmission = false →
      Edit m d x (.call (.signed d.owner) (.nft (.addSecret m s))) { x with secret := some s }
  /-- the owner adds a capsule to an NFT without one -/
  | capsule (s : Data) : x.capsule = none → Loose d → d.st.transmission = false →
      Edit m d x (.call (.signed d.owner) (.nft (.toCapsule m s))) { x with capsule := some s }
  /-- the owner replaces the capsule -/
  | recapsule (s : Data) : x.capsule ≠ none → Loose d →
      Edit m d x (.call (.signed d.owner) (.nft (.setCapsuleData m s))) { x with capsule := some s }

end Spec

/-- the content as it is in the slice -/
def Slice.content (s : Slice) : Option Spec.Content :=
  s.nft.map fun d => {
    offchain := d.offchain, royalty := d.royalty, creator := d.creator, soulbound := d.st.soulbound
    secret := s.secretData, capsule := s.capsuleData }

theorem SliceStep.content_same {now off k} {s s' : Slice} (h : SliceStep c now off k s s') (hk : ∀ b, k ≠ .signed .nft b) :
    s'.content = s.content := by
  cases h <;> simp_all [Slice.content]

theorem SliceRel.content_same {now off k} {s s' : Slice} (h : SliceRel c now off k s s') (hk : ∀ b, k ≠ .signed .nft b) :
    s'.content = s.content := by
  induction h with
  | refl => rfl
  | tail _ h ih => exact (h.content_same hk).trans ih

theorem Spec.content_some {d : NFTData} (hd : w.nfts.get m = some d) : Spec.content w m = some {
    offchain := d.offchain, royalty := d.royalty, creator := d.creator, soulbound := d.st.soulbound
    secret := w.nft.secretData.get m, capsule := w.nft.capsuleData.get m } := by
  simp [Spec.content, hd]

theorem NftM.call_content {x : Call} {d : NFTData} (h : call c w a x = .ok w') (hg : GoodNft c (slice w m) d)
    (hf : w.nfts.get w.nft.nextNft = none) (hd : w.nfts.get m = some d) :
    Spec.content w' m = Spec.content w m ∨ (x = .burnNft m ∧ a = d.owner ∧ Spec.content w' m = none) ∨
    ∃ y y', Spec.content w m = some y ∧ Spec.content w' m = some y' ∧
      Spec.Edit m d y (.call (.signed a) (.nft x)) y' := by
  by_cases hm : some m = target w x
  swap
  · have := (call_same h hm).untouched
    left; simp [Spec.content, this.nft, this.secret, this.capsule]
  cases x <;> simp only [target, Option.some.injEq, reduceCtorEq] at hm
  case createNft => rw [hm, hf] at hd; simp at hd
  case createSecret => rw [hm, hf] at hd; simp at hd
  case createCapsule => rw [hm, hf] at hd; simp at hd
  all_goals subst hm
  all_goals simp only [call] at h
  case burnNft =>
    simp only [burnNft] at h; frame_auto at h
    right; left
    simp_all [Spec.content]
  case transferNft =>
    simp only [transferNft] at h; frame_auto at h; left; simp_all [Spec.content, World.putNft, FMap.get_insert]
  case delegateNft =>
    simp only [delegateNft] at h; frame_auto at h; left; simp_all [Spec.content, World.putNft, FMap.get_insert]
  case addToColl =>
    simp only [addToColl] at h; frame_auto at h; left; simp_all [Spec.content, World.putNft, FMap.get_insert]
  case addSecretShard =>
    simp only [addSecretShard] at h; frame_auto at h; left; simp_all [Spec.content, World.putNft, FMap.get_insert]
  case addCapsuleShard =>
    simp only [addCapsuleShard] at h; frame_auto at h; left; simp_all [Spec.content, World.putNft, FMap.get_insert]
  case notifyKey =>
    simp only [notifyKey] at h; frame_auto at h; left; simp_all [Spec.content, World.putNft, FMap.get_insert]
  case setRoyalty r =>
    simp only [setRoyalty] at h; frame_auto at h
    right; right
    have ho : d.owner = a := by simp_all
    subst ho
    refine ⟨_, _, Spec.content_some hd, ?_, .royalty r (by simp_all) (by simp_all [Spec.Loose]) (by simp_all)⟩
    simp_all [Spec.content, World.putNft, FMap.get_insert]
  case addSecret s =>
    simp only [addSecret, addSecretHelper] at h; frame_auto at h
    right; right
    have ho : d.owner = a := by simp_all
    subst ho
    have hs : w.nft.secretData.get m = none := by
      by_contra hne
      have := hg.secret.2 hne
      simp_all
    refine ⟨_, _, Spec.content_some hd, ?_, .secret s (by simp_all) (by simp_all [Spec.Loose]) (by simp_all)⟩
    simp_all [Spec.content, World.putNft, World.putBal, FMap.get_insert]
  case toCapsule s =>
    simp only [toCapsule, toCapsuleHelper] at h; frame_auto at h
    right; right
    have ho : d.owner = a := by simp_all
    subst ho
    have hs : w.nft.capsuleData.get m = none := by
      by_contra hne
      have := hg.capsule.2 hne
      simp_all
    refine ⟨_, _, Spec.content_some hd, ?_, .capsule s (by simp_all) (by simp_all [Spec.Loose]) (by simp_all)⟩
    simp_all [Spec.content, World.putNft, World.putBal, FMap.get_insert]
  case setCapsuleData s =>
    simp only [setCapsuleData] at h; frame_auto at h
    right; right
    have ho : d.owner = a := by simp_all
    subst ho
    have hs : w.nft.capsuleData.get m ≠ none := hg.capsule.1 (by simp_all)
    refine ⟨_, _, Spec.content_some hd, ?_, .recapsule s hs (by simp_all [Spec.Loose])⟩
    simp_all [Spec.content, World.putNft, FMap.get_insert]

/- C78 -/

/-- The content of an NFT changes only by an act of its owner while nobody else relies on it: the creator sets the
royalty, a secret or a capsule is added where there is none, the capsule is replaced, or the NFT is burnt. -/
theorem C78 (hc : c.Ok) (hr : Reach c w) (ho : o.Ok c) {d : NFTData} (hd : w.nfts.get m = some d) :
    Spec.content (step c w o) m = Spec.content w m ∨
    (o = .call (.signed d.owner) (.nft (.burnNft m)) ∧ Spec.content (step c w o) m = none) ∨
    ∃ y y', Spec.content w m = some y ∧ Spec.content (step c w o) m = some y' ∧ Spec.Edit m d y o y' := by
  by_cases hk : ∃ b x, o = .call (.signed b) (.nft x)
  · obtain ⟨b, x, rfl⟩ := hk
    cases h : dispatch c (.nft x) (.signed b) w with
    | error e => left; simp [step, h, orSame]
    | ok w' =>
      have e : step c w (.call (.signed b) (.nft x)) = w' := by simp [step, h, orSame]
      rw [e]
      have := NftM.call_content (m := m) (d := d) (show NftM.call c w b x = .ok w' from h)
        (((hr.inv hc).good m).nft d hd) ((hr.inv hc).fresh _ (Nat.le_refl _)) hd
      rcases this with h1 | ⟨rfl, rfl, h1⟩ | h1
      · exact Or.inl h1
      · exact Or.inr (Or.inl ⟨rfl, h1⟩)
      · exact Or.inr (Or.inr h1)
  · left
    rcases step_slice hc hr o ho with h | ⟨k, hk', _, h⟩
    · exact congrArg Slice.content (h m)
    · refine SliceRel.content_same (h m) fun b e => hk ?_
      subst e
      cases o with
      | call g x => cases g <;> cases x <;> simp [Op.kind] at hk' <;> exact ⟨_, _, rfl⟩
      | _ => simp [Op.kind] at hk'

/-- While an NFT is for sale, in an auction, in a rent contract, delegated or in transmission, its content cannot
change and it cannot be burnt. Missing: the capsule of an NFT in transmission, see `C78_fails`. -/
theorem C78_frozen_partial (hc : c.Ok) (hr : Reach c w) (ho : o.Ok c) {d : NFTData} (hd : w.nfts.get m = some d)
    (hu : ¬ Spec.Loose d ∨ d.st.transmission = true) :
    Spec.content (step c w o) m = Spec.content w m ∨
    (d.st.transmission = true ∧ ∃ s y, o = .call (.signed d.owner) (.nft (.setCapsuleData m s)) ∧
      Spec.content w m = some y ∧ Spec.content (step c w o) m = some { y with capsule := some s }) := by
  rcases C78 hc hr ho hd with h | ⟨rfl, h⟩ | ⟨y, y', h1, h2, h⟩
  · exact Or.inl h
  · exfalso
    have h' : (step c w (.call (.signed d.owner) (.nft (.burnNft m)))).nfts.get m = none := by
      simpa [Spec.content] using h
    have := C04 hc hr _ ho hd h'
    rcases hu with hu | hu
    · exact hu ⟨this.2.1, this.2.2.1, this.2.2.2.1⟩
    · simp_all
  · cases h with
    | royalty r _ g1 g2 => exact (hu.elim (· g1) (by simp [g2])).elim
    | secret s _ g1 g2 => exact (hu.elim (· g1) (by simp [g2])).elim
    | capsule s _ g1 g2 => exact (hu.elim (· g1) (by simp [g2])).elim
    | recapsule s _ g1 => exact Or.inr ⟨hu.elim (fun h => (h g1).elim) id, s, y, rfl, h1, h2⟩

/-- For ever: the off-chain data never changes, a secret once there stays the same, and a capsule stays a capsule. -/
theorem C78_always (hc : c.Ok) (hr : Reach c w) {x x' : Spec.Content} (h : Spec.content w m = some x) (l : List Op)
    (hl : ∀ o ∈ l, o.Ok c) (h' : Spec.content (run c w l) m = some x') :
    x'.offchain = x.offchain ∧ (∀ s, x.secret = some s → x'.secret = some s) ∧ (x.capsule ≠ none → x'.capsule ≠ none) := by
  have hb : ∃ d, w.nfts.get m = some d := by
    cases hd : w.nfts.get m with
    | none => simp [Spec.content, hd] at h
    | some d => exact ⟨d, rfl⟩
  obtain ⟨d, hd⟩ := hb
  have key := run_slice_inv (n := m) (c := c)
    (P := fun s => s.born = true ∧ ∀ y, s.content = some y → y.offchain = x.offchain ∧
      (∀ s, x.secret = some s → y.secret = some s) ∧ (x.capsule ≠ none → y.capsule ≠ none)) ?_ hc hr
    ⟨born_of hc hr hd, fun y hy => ?_⟩ l hl
  · exact key.2 x' h'
  · rintro now off k s s' hk hg ⟨h1, h2⟩ hs
    refine ⟨born_stays hs h1, ?_⟩
    intro y hy
    cases hn : s.nft with
    | none =>
      have : s'.nft = none := by cases hs <;> simp_all
      simp [Slice.content, this] at hy
    | some d =>
      have g := hg.nft d hn
      have g1 := g.secret
      have h2 := h2 _ (by simp [Slice.content, hn]; rfl)
      cases hs <;> simp_all [Slice.content] <;> grind
  · have : Spec.content w m = some y := hy
    rw [h] at this; simp at this; subst this; exact ⟨rfl, fun _ h => h, fun h => h⟩

/-- account 1 has a capsule NFT, which is to go to account 2 at block 20 and cannot be cancelled -/
abbrev promised : List Op :=
  Demo.enclaves ++ [Demo.by_ 1 (.nft (.createCapsule [1] [9] ⟨100000, by omega⟩ none false)),
    Demo.by_ 18 (.nft (.addCapsuleShard 0)), Demo.by_ 19 (.nft (.addCapsuleShard 0)),
    Demo.by_ 1 (.tr (.set 0 2 (.atBlock 20) .none))]

/-- The full claim fails: the owner can replace the capsule of an NFT in transmission, also when the transmission
cannot be cancelled. -/
theorem C78_fails : ∃ c w m d o, c.Ok ∧ Reach c w ∧ Op.Ok c o ∧ w.nfts.get m = some d ∧ d.st.transmission = true ∧
    (w.tr.trans.get m).map (·.cancellation) = some .none ∧
    (Spec.content w m).map (·.capsule) = some (some [9]) ∧
    (Spec.content (step c w o) m).map (·.capsule) = some (some []) := by
  refine ⟨Demo.cfg, Demo.at_ promised, 0, ?_⟩
  have h : ∃ d, (Demo.at_ promised).nfts.get 0 = some d ∧ d.st.transmission = true := by
    have : ((Demo.at_ promised).nfts.get 0).map (·.st.transmission) = some true := by decide
    revert this
    cases (Demo.at_ promised).nfts.get 0 <;> simp
  obtain ⟨d, h1, h2⟩ := h
  exact ⟨d, Demo.by_ 1 (.nft (.setCapsuleData 0 [])), Demo.cfg_ok, Demo.reach _ (by decide), by decide, h1, h2, by decide,
    by decide, by decide⟩

-- a listed NFT keeps its content when its owner tries to change it; an unlisted one does not
example : (Spec.content (step Demo.cfg (Demo.at_ listed) (Demo.by_ 1 (.nft (.setRoyalty 0 ⟨5, by omega⟩)))) 0).map
      (·.royalty.parts) = (Spec.content (Demo.at_ listed) 0).map (·.royalty.parts) ∧
    (Spec.content (step Demo.cfg (Demo.at_ [Demo.mint1]) (Demo.by_ 1 (.nft (.setRoyalty 0 ⟨5, by omega⟩)))) 0).map
      (·.royalty.parts) = some 5 := by decide

-- the capsule is the same after the transmission
example : Reach Demo.cfg (Demo.at_ promised) ∧ (Spec.content (Demo.at_ promised) 0).isSome = true ∧
    (Spec.content (run Demo.cfg (Demo.at_ promised) (Demo.ticks 20 ++ [.hookTr])) 0).map (·.capsule) = some (some [9]) :=
  ⟨Demo.reach _ (by decide), by decide, by decide⟩

/-- NFT 0 in `promised` -/
abbrev promisedNft : NFTData := ⟨1, 1, [1], none, ⟨100000, by omega⟩,
  { capsule := true, transmission := true }⟩

-- a capsule that is in transmission, and its owner changes its data
example := C78 Demo.cfg_ok (Demo.reach promised (by decide)) (o := Demo.by_ 1 (.nft (.setCapsuleData 0 [3]))) (m := 0)
  (by decide) (d := promisedNft) rfl

-- the same capsule, and its owner tries to change the royalty
example := C78_frozen_partial Demo.cfg_ok (Demo.reach promised (by decide))
  (o := Demo.by_ 1 (.nft (.setRoyalty 0 ⟨5, by omega⟩))) (m := 0) (by decide) (d := promisedNft) rfl (.inr rfl)

-- a secret NFT becomes a capsule
example := C78_always Demo.cfg_ok (Demo.reach [Demo.by_ 1 (.nft (.createSecret [1] [2] .zero none false))] (by decide))
  (x := ⟨[1], .zero, 1, false, some [2], none⟩) (m := 0) rfl
  (Demo.enclaves ++ [Demo.by_ 18 (.nft (.addSecretShard 0)), Demo.by_ 19 (.nft (.addSecretShard 0)),
    Demo.by_ 1 (.nft (.toCapsule 0 [3]))]) (by decide) (x' := ⟨[1], .zero, 1, false, some [2], some [3]⟩) rfl
