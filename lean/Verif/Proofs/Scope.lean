import Verif.Proofs.ScopeRent
/-
C102 and C103 for every signed call.
-/
open Spec
variable {c : Cfg} {S T : List Item} {w w' w1 w2 : World}

theorem signed_rel (h : Rel S w1 w2) (a : AccountId) (x : Call) (hu : uses c w1 a x ⊆ S) :
    Out (Rel S) (signedCall c w1 a x) (signedCall c w2 a x) := by
  cases x with
  | nft x => exact NftM.call_rel h a x hu
  | mkt x => exact MktM.call_rel h a x hu
  | auc x => exact AucM.call_rel h a x hu
  | rent x => exact RentM.call_rel h a x hu
  | tr x => exact TrM.call_rel h a x hu
  | tee x => exact TeeM.call_rel h a x hu
  | br x => exact BrM.call_rel h a x hu
  | bal d v l =>
    have h0 := h.bal.transfer (hu (by simp [uses]) : Item.account a ∈ S) (hu (by simp [uses]) : Item.account d ∈ S)
      c.ed v l
    simp only [signedCall]
    revert h0
    rcases w1.bal.transfer c.ed a d v l with e | b1 <;> rcases w2.bal.transfer c.ed a d v l with f | b2 <;>
      intro h0 <;> simp only [Out] at h0
    · exact h0
    · exact h.putBal h0
  | root x => rfl
  | ext x => rfl
  | mandate x => rfl

theorem signed_off {a : AccountId} {x : Call} (h : signedCall c w a x = .ok w') (hu : touches c w a x ⊆ T) :
    Off T w w' := by
  cases x with
  | nft x => exact NftM.call_off h hu
  | mkt x => exact MktM.call_off h hu
  | auc x => exact AucM.call_off h hu
  | rent x => exact RentM.call_off h hu
  | tr x => exact TrM.call_off h hu
  | tee x => exact TeeM.call_off h hu
  | br x => exact BrM.call_off h hu
  | bal d v l =>
    simp only [signedCall] at h
    cases hb : w.bal.transfer c.ed a d v l with
    | error e => rw [hb] at h; cases h
    | ok b =>
      rw [hb] at h
      cases h
      exact Off.putBal (hu (by simp [touches])) (.transfer (hu (by simp [touches, uses, looksAt]))
        (hu (by simp [touches, uses, looksAt])) hb)
  | root x => cases h
  | ext x => cases h
  | mandate x => cases h

theorem dispatch_signed (x : Call) (a : AccountId) (w : World) : dispatch c x (.signed a) w = signedCall c w a x := by
  cases x <;> rfl

/-- what a call is about is itself decided by what it is about -/
theorem uses_congr {a : AccountId} {x : Call} (h : ∀ i ∈ uses c w1 a x, same w1 w2 i) :
    uses c w2 a x = uses c w1 a x := by
  have mk : ∀ m, same w1 w2 (.market m) → marketAndOwner w2 m = marketAndOwner w1 m := fun m hm => by
    simp only [same] at hm; simp [marketAndOwner, hm]
  have cr : ∀ n, same w1 w2 (.nft n) → creatorOf w2 n = creatorOf w1 n := fun n hn => by
    simp only [same] at hn; simp [creatorOf, hn]
  have mm : ∀ m, Item.market m ∈ marketAndOwner w1 m := fun m => by unfold marketAndOwner; split <;> simp
  have ap : ∀ n, same w1 w2 (.nft n) → (∀ i ∈ auctionPayees w1 n, same w1 w2 i) →
      auctionPayees w2 n = auctionPayees w1 n := fun n hn hi => by
    have e : w2.auc.auctions.get n = w1.auc.auctions.get n := by simp only [same] at hn; simp [hn]
    unfold auctionPayees at hi ⊢
    rw [e]
    cases hx : w1.auc.auctions.get n with
    | none => rfl
    | some y =>
      have : same w1 w2 (.market y.mkt) := hi _ (by simp [hx, mm])
      simp only [mk _ this, cr _ hn]
  have rf : ∀ n, same w1 w2 (.nft n) → refunds w2 n = refunds w1 n := fun n hn => by
    simp only [same] at hn; simp [refunds, hn]
  have pt : ∀ n, same w1 w2 (.nft n) → parties w2 n = parties w1 n := fun n hn => by
    simp only [same] at hn; simp [parties, hn]
  have cn : ∀ n, same w1 w2 (.nft n) → contractNfts w2 n = contractNfts w1 n := fun n hn => by
    simp only [same] at hn; simp [contractNfts, hn]
  cases x with
  | nft x =>
    cases x with
    | createNft | createSecret | createCapsule =>
      have : same w1 w2 .newNft := h _ (by simp [uses])
      simp only [same] at this
      simp [uses, this]
    | createColl =>
      have : same w1 w2 .newColl := h _ (by simp [uses])
      simp only [same] at this
      simp [uses, this]
    | burnNft n =>
      have : same w1 w2 (.nft n) := h _ (by simp [uses])
      simp only [same] at this
      simp [uses, collOf, this]
    | _ => rfl
  | mkt x =>
    cases x with
    | create =>
      have : same w1 w2 .newMarket := h _ (by simp [uses])
      simp only [same] at this
      simp [uses, this]
    | list n m p =>
      have : same w1 w2 (.market m) := h _ (by simp [uses, mm])
      simp only [uses, mk _ this]
    | buy n p =>
      have hn : same w1 w2 (.nft n) := h _ (by simp [uses])
      have e : w2.mkt.sales.get n = w1.mkt.sales.get n := by simp only [same] at hn; simp [hn]
      simp only [uses, salePayees, e] at h ⊢
      cases hx : w1.mkt.sales.get n with
      | none => rfl
      | some y =>
        have : same w1 w2 (.market y.mkt) := h _ (by simp [hx, mm])
        simp only [mk _ this, cr _ hn]
    | _ => rfl
  | auc x =>
    cases x with
    | cancel n =>
      have hn : same w1 w2 (.nft n) := h _ (by simp [uses])
      simp only [uses, rf _ hn]
    | addBid n v =>
      have hn : same w1 w2 (.nft n) := h _ (by simp [uses])
      simp only [uses, rf _ hn]
    | end_ n =>
      have hn : same w1 w2 (.nft n) := h _ (by simp [uses])
      have := ap n hn fun i hi => h i (by simp [uses, hi])
      simp only [uses, rf _ hn, this]
    | buyItNow n p =>
      have hn : same w1 w2 (.nft n) := h _ (by simp [uses])
      have := ap n hn fun i hi => h i (by simp [uses, hi])
      simp only [uses, rf _ hn, this]
    | _ => rfl
  | rent x =>
    cases x with
    | cancel n | revoke n | rent n b | acceptOffer n r | makeOffer n b =>
      have hn : same w1 w2 (.nft n) := h _ (by simp [uses])
      simp only [uses, pt _ hn, cn _ hn]
    | _ => rfl
  | tr x => cases x <;> rfl
  | tee x => cases x <;> rfl
  | br x => cases x <;> rfl
  | bal d v l => rfl
  | root x => rfl
  | ext x => rfl
  | mandate x => rfl
