import Verif.Model.Ext
import Verif.Props.Nft
/-
C130: what a pallet offers to other pallets keeps the rules of its calls.
-/

namespace Spec.Iface

/-- nothing but the NFT `n` differs -/
def OnlyNft (n : NFTId) (w w' : World) : Prop :=
  (∀ m, m ≠ n → w'.nfts.get m = w.nfts.get m) ∧ { w' with nfts := w.nfts } = w

/-- nothing but the NFT `n` and the number of the next NFT differs -/
def OnlyNew (n : NFTId) (w w' : World) : Prop :=
  (∀ m, m ≠ n → w'.nfts.get m = w.nfts.get m) ∧
    { w' with nfts := w.nfts, nft := { w'.nft with nextNft := w.nft.nextNft } } = w

end Spec.Iface
open Spec.Iface

/-- Creating an NFT for someone through the interface, without a collection, does what their own call does, but for the fee: the
same NFT under the same number.  The number is new, the NFT theirs, free of everything but the bond asked for, and nothing else
changes.  It fails only if no number is left. -/
theorem C130_partial {c : Cfg} {w : World} (hc : c.Ok) (hr : Reach c w) (a : AccountId) (data : Data) (royalty : Permill)
    (sb : Bool) :
    (∀ w', dispatch c (.nft (.createNft data royalty none sb)) (.signed a) w = .ok w' →
      ∃ n w1, Ext.createNft w a data royalty none sb = .ok (n, w1) ∧ { w1 with bal := w'.bal } = w') ∧
    (∀ n w1, Ext.createNft w a data royalty none sb = .ok (n, w1) →
      w.nfts.get n = none ∧ OnlyNew n w w1 ∧ ∃ d, w1.nfts.get n = some d ∧ d.owner = a ∧ d.creator = a ∧ d.offchain = data ∧
        d.royalty = royalty ∧ d.coll = none ∧ d.st = { soulbound := sb }) ∧
    (w.nft.nextNft + 1 ≤ U32MAX ↔ ∃ r, Ext.createNft w a data royalty none sb = .ok r) := by
  have hcr : ∀ k, w.nft.nextNft + 1 ≤ U32MAX → Ext.createNft w a data royalty k sb = .ok (w.nft.nextNft,
      { w with
        nft := { w.nft with nextNft := w.nft.nextNft + 1 }
        nfts := w.nfts.insert w.nft.nextNft
          { owner := a, creator := a, offchain := data, royalty := royalty, st := { soulbound := sb }, coll := k } }) := by
    intro k h
    simp only [Ext.createNft, NftM.nextNftId, if_pos h, expectSome]
    rfl
  have hno : ∀ k, ¬ w.nft.nextNft + 1 ≤ U32MAX → ∃ e, Ext.createNft w a data royalty k sb = .error e := by
    intro k h
    exact ⟨_, by simp only [Ext.createNft, NftM.nextNftId, if_neg h, expectSome]; rfl⟩
  refine ⟨?_, ?_, ?_, ?_⟩
  · intro w' h
    simp only [dispatch, signedCall, NftM.call, NftM.createNft, NftM.createHelper, NftM.pushToColl, NftM.nextNftId] at h
    obtain ⟨b, hb, h⟩ := Exec.bind_ok.1 h
    by_cases hn : w.nft.nextNft + 1 ≤ U32MAX
    · refine ⟨_, _, hcr none hn, ?_⟩
      simp only [World.putBal, pure_bind, if_pos hn, expectSome] at h
      cases h
      rfl
    · simp only [World.putBal, pure_bind, if_neg hn, expectSome] at h
      cases h
  · intro n w1 h
    by_cases hn : w.nft.nextNft + 1 ≤ U32MAX
    · rw [hcr none hn] at h
      cases h
      refine ⟨(hr.inv hc).fresh _ (Nat.le_refl _), ⟨fun m hm => ?_, rfl⟩, _, FMap.get_insert_self .., rfl, rfl, rfl, rfl, rfl, rfl⟩
      exact FMap.get_insert_ne _ _ hm
    · obtain ⟨e, he⟩ := hno none hn
      rw [he] at h
      cases h
  · exact fun hn => ⟨_, hcr none hn⟩
  · rintro ⟨r, h⟩
    by_contra hn
    obtain ⟨e, he⟩ := hno none hn
    rw [he] at h
    cases h

/-- With a collection the interface checks nothing and does not tell the collection: the NFT names a collection that need not
exist, may be someone else's, closed or full, and does not list it.  Its owner can never burn it as it is. -/
theorem C130_fails {c : Cfg} {w : World} (hc : c.Ok) (hr : Reach c w) (a : AccountId) (data : Data) (royalty : Permill)
    (sb : Bool) (k : CollId) (hn : w.nft.nextNft + 1 ≤ U32MAX) :
    ∃ n w1 d, Ext.createNft w a data royalty (some k) sb = .ok (n, w1) ∧ w1.nfts.get n = some d ∧ d.coll = some k ∧
      (∀ col, w1.nft.colls.get k = some col → ¬ n ∈ col.nfts) ∧
      ∃ e, dispatch c (.nft (.burnNft n)) (.signed a) w1 = .error e := by
  have hcr : Ext.createNft w a data royalty (some k) sb = .ok (w.nft.nextNft,
      { w with
        nft := { w.nft with nextNft := w.nft.nextNft + 1 }
        nfts := w.nfts.insert w.nft.nextNft
          { owner := a, creator := a, offchain := data, royalty := royalty, st := { soulbound := sb }, coll := some k } }) := by
    simp only [Ext.createNft, NftM.nextNftId, if_pos hn, expectSome]
    rfl
  have hl : ∀ col, w.nft.colls.get k = some col → ¬ w.nft.nextNft ∈ col.nfts := by
    intro col hcol hm
    obtain ⟨d, hd, _⟩ := ((hr.coll hc).mem k col hcol _).1 hm
    rw [(hr.inv hc).fresh _ (Nat.le_refl w.nft.nextNft)] at hd
    cases hd
  refine ⟨_, _, _, hcr, FMap.get_insert_self .., rfl, hl, ?_⟩
  have hd : ∀ w1 : World, w1.nft.colls = w.nft.colls → ∃ e, NftM.dropFromColl w1 w.nft.nextNft (some k) = .error e := by
    intro w1 h1
    simp only [NftM.dropFromColl, h1]
    rcases (w.nft.colls.get k).eq_none_or_eq_some with hk | ⟨col, hk⟩
    · exact ⟨_, by rw [hk]; rfl⟩
    · exact ⟨.e "NFTNotFoundInCollection", by rw [hk]; simp [getOr, require, hl col hk, bind, Except.bind]⟩
  have hb : ∀ (w1 : World) (e : Err) (d : NFTData), w1.nfts.get w.nft.nextNft = some d → d.owner = a → d.coll = some k →
      d.st = { soulbound := sb } → NftM.dropFromColl w1 w.nft.nextNft (some k) = .error e →
      NftM.burnNft w1 a w.nft.nextNft = .error e := by
    intro w1 e d h1 h2 h3 h4 h5
    simp [NftM.burnNft, getOr, require, h1, h2, h3, h4, h5, bind, Except.bind]
  obtain ⟨e, he⟩ := hd { w with
        nft := { w.nft with nextNft := w.nft.nextNft + 1 }
        nfts := w.nfts.insert w.nft.nextNft
          { owner := a, creator := a, offchain := data, royalty := royalty, st := { soulbound := sb }, coll := some k } } rfl
  exact ⟨e, hb _ e _ (FMap.get_insert_self ..) rfl rfl rfl he⟩

/-- Reading through the interface gives what is stored; writing an NFT or its state changes that NFT only; changing an NFT that
does not exist fails. -/
theorem C130_nft (w : World) (n : NFTId) (d : NFTData) (s : NFTState) :
    Ext.getNft w n = w.nfts.get n ∧ (Ext.exists_ w n = true ↔ w.nfts.get n ≠ none) ∧
    (OnlyNft n w (Ext.setNft w n d) ∧ Ext.getNft (Ext.setNft w n d) n = some d) ∧
    (w.nfts.get n = none ↔ ∃ e, Ext.setNftState w n s = .error e) ∧
    (∀ w', Ext.setNftState w n s = .ok w' → OnlyNft n w w' ∧
      ∃ d, w.nfts.get n = some d ∧ Ext.getNft w' n = some { d with st := s }) := by
  refine ⟨rfl, ?_, ⟨⟨fun m hm => FMap.get_insert_ne _ _ hm, rfl⟩, FMap.get_insert_self ..⟩, ?_, ?_⟩
  · simp only [Ext.exists_]
    cases w.nfts.get n <;> simp
  · simp only [Ext.setNftState]
    cases w.nfts.get n <;> simp
  · intro w' h
    simp only [Ext.setNftState] at h
    rcases (w.nfts.get n).eq_none_or_eq_some with hd | ⟨x, hd⟩
    · rw [hd] at h; cases h
    · rw [hd] at h
      cases h
      exact ⟨⟨fun m hm => FMap.get_insert_ne _ _ hm, rfl⟩, x, hd, FMap.get_insert_self ..⟩

/-- Changing an NFT with a function of one's own is all or nothing: an error leaves everything as it was, and success changes
that NFT only, to what the function left, or deletes it. -/
theorem C130_mutate {E R : Type} (w : World) (n : NFTId) (f : Option NFTData → Except E R × Option NFTData) :
    (Ext.mutateNft w n f).1 = (f (w.nfts.get n)).1 ∧
    (∀ e, (Ext.mutateNft w n f).1 = .error e → (Ext.mutateNft w n f).2 = w) ∧
    (∀ r, (Ext.mutateNft w n f).1 = .ok r → OnlyNft n w (Ext.mutateNft w n f).2 ∧
      Ext.getNft (Ext.mutateNft w n f).2 n = (f (w.nfts.get n)).2) := by
  simp only [Ext.mutateNft]
  generalize f (w.nfts.get n) = r
  obtain ⟨_ | r, _ | d⟩ := r
  · exact ⟨rfl, fun _ _ => rfl, fun _ h => by cases h⟩
  · exact ⟨rfl, fun _ _ => rfl, fun _ h => by cases h⟩
  · exact ⟨rfl, fun _ h => (by cases h), fun _ _ => ⟨⟨fun m hm => FMap.get_erase_ne _ hm, rfl⟩, FMap.get_erase_self ..⟩⟩
  · exact ⟨rfl, fun _ h => (by cases h), fun _ _ => ⟨⟨fun m hm => FMap.get_insert_ne _ _ hm, rfl⟩, FMap.get_insert_self ..⟩⟩

/-- Marketplaces: what is written is what is read, and no other marketplace changes. -/
theorem C130_marketplace (w : World) (k : MktId) (m : Mkt) :
    Ext.getMkt (Ext.setMkt w k m) k = some m ∧ (∀ j, j ≠ k → Ext.getMkt (Ext.setMkt w k m) j = Ext.getMkt w j) ∧
    { Ext.setMkt w k m with mkt := w.mkt } = w ∧
    (Ext.setMkt w k m).mkt.next = w.mkt.next ∧ (Ext.setMkt w k m).mkt.sales = w.mkt.sales :=
  ⟨FMap.get_insert_self .., fun _ hj => FMap.get_insert_ne _ _ hj, rfl, rfl, rfl⟩

/-- An enclave registered through the interface is recognised at once, as its operator's, in the cluster given or in cluster 0;
enclaves of other operators are recognised as before. -/
theorem C130_enclave (w : World) (o e : AccountId) (k : Option ClusterId) :
    NftM.ensureEnclave (Ext.registerEnclave w o e k) e = some (k.getD 0, o) ∧
    (∀ x, x ≠ e → w.tee.accOp.get x ≠ some o →
      NftM.ensureEnclave (Ext.registerEnclave w o e k) x = NftM.ensureEnclave w x) := by
  constructor
  · simp [NftM.ensureEnclave, Ext.registerEnclave, FMap.get_insert_self]
  · intro x hx ho
    simp only [NftM.ensureEnclave, Ext.registerEnclave, FMap.get_insert_ne _ _ hx]
    cases hop : w.tee.accOp.get x with
    | none => rfl
    | some p =>
      have : p ≠ o := fun h => ho (by rw [hop, h])
      simp [FMap.get_insert_ne _ _ this]

/-! ## cases -/

/-- an NFT made through the interface in a reachable state, and the same by a call -/
example : Reach Demo.cfg (Demo.at_ []) ∧ (∃ r, Ext.createNft (Demo.at_ []) 1 [] ⟨0, by omega⟩ none true = .ok r) ∧
    ∃ w', dispatch Demo.cfg (.nft (.createNft [] ⟨0, by omega⟩ none true)) (.signed 1) (Demo.at_ []) = .ok w' :=
  ⟨Demo.reach _ (by decide), ⟨_, rfl⟩, ⟨_, rfl⟩⟩

/-- an NFT in a collection no one has made -/
example : Reach Demo.cfg (Demo.at_ []) ∧ (Demo.at_ []).nft.colls.get 5 = none ∧
    ∃ n w1 d, Ext.createNft (Demo.at_ []) 1 [] ⟨0, by omega⟩ (some 5) false = .ok (n, w1) ∧ w1.nfts.get n = some d ∧ d.coll = some 5 :=
  ⟨Demo.reach _ (by decide), rfl, _, _, _, rfl, rfl, rfl⟩
