import Verif.Props.Make
/-
C140: the order of mints decides the numbers of the NFTs and nothing else.
-/
namespace Spec

/-- what somebody mints -/
structure MintJob where
  by_ : AccountId
  data : Data
  royalty : Permill
  soulbound : Bool

/-- the calls that do it -/
def mintAll (l : List MintJob) : List Op :=
  l.map fun m => .call (.signed m.by_) (.nft (.createNft m.data m.royalty none m.soulbound))

/-- how many of them are `a`'s -/
def jobsOf (a : AccountId) (l : List MintJob) : Nat := (l.filter fun m => m.by_ = a).length

/-- the NFT a job brings -/
def product (m : MintJob) : NFTData := minted m.by_ m.data m.royalty none m.soulbound

end Spec

variable {c : Cfg} {w : World}

/-- **C140**: if everybody can pay for what they want to mint, all mints succeed in any order. The NFTs get the next
numbers in this order; everybody has paid the fee for each own NFT; and nothing else has changed. -/
theorem C140_mints (l : List Spec.MintJob) (h : ∀ m ∈ l, Spec.CanPay c w m.by_ (w.nft.fee * Spec.jobsOf m.by_ l))
    (hn : w.nft.nextNft + l.length ≤ U32MAX) :
    let v := run c w (Spec.mintAll l)
    (∀ i m, l[i]? = some m → v.nfts.get (w.nft.nextNft + i) = some (Spec.product m)) ∧
    (∀ n, n < w.nft.nextNft ∨ w.nft.nextNft + l.length ≤ n → v.nfts.get n = w.nfts.get n) ∧
    (∀ a, v.bal.freeOf a + w.nft.fee * Spec.jobsOf a l = w.bal.freeOf a) ∧
    v.bal.collected = w.bal.collected + w.nft.fee * l.length ∧ v.bal.issuance = w.bal.issuance ∧
    v.bal.tee = w.bal.tee ∧ v.bal.other = w.bal.other ∧
    v = { w with bal := v.bal, nfts := v.nfts, nft := { w.nft with nextNft := w.nft.nextNft + l.length } } := by
  induction l generalizing w with
  | nil => exact ⟨by simp, by intros; rfl, by simp [Spec.jobsOf, Spec.mintAll, run], by simp [Spec.mintAll, run], rfl, rfl, rfl, rfl⟩
  | cons m l ih =>
    intro v
    have hc : Spec.jobsOf m.by_ (m :: l) = Spec.jobsOf m.by_ l + 1 := by simp [Spec.jobsOf]
    have hco : ∀ a, a ≠ m.by_ → Spec.jobsOf a (m :: l) = Spec.jobsOf a l := by
      intro a ha; simp [Spec.jobsOf, Ne.symm ha]
    simp only [List.length_cons] at hn
    have hm : Spec.CanPay c w m.by_ w.nft.fee := by
      have := h m (by simp)
      rw [hc, Nat.mul_succ] at this
      unfold Spec.CanPay at this ⊢
      omega
    obtain ⟨b, hb, hd⟩ := C67_nft (k := none) (c := c) (w := w) (a := m.by_) (by simp) (by omega) hm m.data m.royalty m.soulbound
    generalize hw1 : ({ w with
        bal := b
        nfts := w.nfts.insert w.nft.nextNft (Spec.minted m.by_ m.data m.royalty none m.soulbound)
        nft := { w.nft with
          nextNft := w.nft.nextNft + 1
          colls := Spec.joined w.nft.colls w.nft.nextNft none } } : World) = w1 at hd
    have e1 : w1.nft = { w.nft with nextNft := w.nft.nextNft + 1 } := by rw [← hw1]; rfl
    have e2 : w1.bal = b := by rw [← hw1]
    have e3 : w1.nfts = w.nfts.insert w.nft.nextNft (Spec.product m) := by rw [← hw1]; rfl
    have ev : v = run c w1 (Spec.mintAll l) := by
      show run c (orSame w (dispatch c _ _ w)) _ = _
      rw [hd]
      rfl
    have ef : w1.nft.fee = w.nft.fee := by rw [e1]
    have en : w1.nft.nextNft = w.nft.nextNft + 1 := by rw [e1]
    have hl : Spec.locked w1.bal = Spec.locked w.bal := by
      funext a
      unfold Spec.locked
      rw [e2, hb.locks.1, hb.locks.2]
    obtain ⟨h1, h2, h3, h4, h5, h6, h7, h8⟩ := ih (w := w1) (fun x hx => by
        have := h x (by simp [hx])
        unfold Spec.CanPay at this ⊢
        rw [hl, ef, e2]
        by_cases hxm : x.by_ = m.by_
        · rw [hxm, hc, Nat.mul_succ] at this
          rw [hxm]
          have := hb.payer
          omega
        · rw [hco _ hxm] at this
          rw [hb.others _ hxm]
          exact this) (by rw [en]; omega)
    rw [← ev, ef, en, e2] at *
    refine ⟨?_, ?_, ?_, ?_, ?_, ?_, ?_, ?_⟩
    · intro i x hx
      cases i with
      | zero =>
        simp only [List.getElem?_cons_zero, Option.some.injEq] at hx
        subst hx
        rw [h2 _ (Or.inl (by omega)), e3]
        simp [FMap.get_insert]
      | succ i =>
        have := h1 i x (by simpa using hx)
        rw [← this]
        congr 1
        omega
    · intro n hn'
      simp only [List.length_cons] at hn'
      rw [h2 n (by omega), e3, FMap.get_insert]
      split
      · omega
      · rfl
    · intro a
      by_cases ha : a = m.by_
      · subst ha
        rw [hc, Nat.mul_succ]
        have := h3 m.by_
        have := hb.payer
        omega
      · rw [hco a ha, ← hb.others a ha]
        exact h3 a
    · rw [h4, hb.collected, List.length_cons, Nat.mul_succ]; omega
    · rw [h5, hb.issuance]
    · rw [h6, hb.locks.1]
    · rw [h7, hb.locks.2]
    · rw [h8, e1, ← hw1]
      simp only [List.length_cons]
      congr 2
      omega

/-- **C140, the order**: two orders of the same mints lead to the same balances, fees and numbering, and to the same new
NFTs; only which number belongs to which may differ. -/
theorem C140_order {l l' : List Spec.MintJob} (hp : l.Perm l')
    (h : ∀ m ∈ l, Spec.CanPay c w m.by_ (w.nft.fee * Spec.jobsOf m.by_ l)) (hn : w.nft.nextNft + l.length ≤ U32MAX) :
    let v := run c w (Spec.mintAll l)
    let v' := run c w (Spec.mintAll l')
    (∀ a, v.bal.freeOf a = v'.bal.freeOf a) ∧ v.bal.collected = v'.bal.collected ∧ v.bal.issuance = v'.bal.issuance ∧
    ((List.range l.length).map fun i => v.nfts.get (w.nft.nextNft + i)).Perm
      ((List.range l.length).map fun i => v'.nfts.get (w.nft.nextNft + i)) ∧
    (∀ n, n < w.nft.nextNft ∨ w.nft.nextNft + l.length ≤ n → v.nfts.get n = v'.nfts.get n) ∧
    { v' with bal := v.bal, nfts := v.nfts } = v := by
  intro v v'
  have hj : ∀ a, Spec.jobsOf a l = Spec.jobsOf a l' := fun a => (hp.filter _).length_eq
  have hl := hp.length_eq
  obtain ⟨h1, h2, h3, h4, h5, h6, h7, h8⟩ := C140_mints l h hn
  obtain ⟨g1, g2, g3, g4, g5, g6, g7, g8⟩ := C140_mints (c := c) (w := w) l'
    (fun m hm => by rw [← hj]; exact h m (hp.mem_iff.2 hm)) (by rw [← hl]; exact hn)
  have key : ∀ (l : List Spec.MintJob) (v : World),
      (∀ i m, l[i]? = some m → v.nfts.get (w.nft.nextNft + i) = some (Spec.product m)) →
      ((List.range l.length).map fun i => v.nfts.get (w.nft.nextNft + i)) = l.map fun m => some (Spec.product m) := by
    intro l v h
    apply List.ext_getElem?
    intro i
    simp only [List.getElem?_map]
    cases hi : l[i]? with
    | none =>
      have : l.length ≤ i := List.getElem?_eq_none_iff.1 hi
      simp [this]
    | some m =>
      have : i < l.length := (List.getElem?_eq_some_iff.1 hi).1
      simp [this, h i m hi]
  refine ⟨fun a => ?_, by rw [h4, g4, hl], by rw [h5, g5], ?_, fun n hn' => ?_, ?_⟩
  · have e1 := h3 a
    have e2 := g3 a
    rw [hj a] at e1
    show (run c w (Spec.mintAll l)).bal.freeOf a = (run c w (Spec.mintAll l')).bal.freeOf a
    omega
  · rw [key l v h1, hl, key l' v' g1]
    exact hp.map _
  · rw [h2 n hn', g2 n (by rw [← hl]; exact hn')]
  · have e1 : v = _ := h8
    have e2 : v' = _ := g8
    generalize v' = x at e2
    subst e2
    conv_rhs => rw [e1]
    rw [hl]

/-- account 1 mints two NFTs and account 2 a soulbound one -/
abbrev Demo.jobs : List Spec.MintJob := [⟨1, [1], .zero, false⟩, ⟨2, [2], .zero, true⟩, ⟨1, [3], .zero, false⟩]

example : (∀ m ∈ Demo.jobs, Spec.CanPay Demo.cfg Demo.w0 m.by_ (Demo.w0.nft.fee * Spec.jobsOf m.by_ Demo.jobs)) ∧
    Demo.w0.nft.nextNft + Demo.jobs.length ≤ U32MAX ∧
    ((Demo.at_ (Spec.mintAll Demo.jobs)).nfts.get 1).map (·.owner) = some 2 ∧
    ((Demo.at_ (Spec.mintAll Demo.jobs.reverse)).nfts.get 0).map (·.offchain) = some [3] ∧
    (Demo.at_ (Spec.mintAll Demo.jobs)).bal.freeOf 1 = 9990 := by
  refine ⟨?_, by decide, by decide, by decide, by decide⟩
  intro m hm
  simp only [List.mem_cons, List.not_mem_nil, or_false] at hm
  rcases hm with rfl | rfl | rfl <;> (unfold Spec.CanPay; decide)
