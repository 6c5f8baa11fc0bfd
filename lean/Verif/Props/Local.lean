import Verif.Proofs.LocalHook
import Verif.Props.Owner
/-
Property C77.
-/
variable {c : Cfg} {w w' : World} {a : AccountId} {m n : NFTId} {o : Op}
set_option maxRecDepth 10000

/- Specification -/
namespace Spec

/-- Everything the pallets record about NFT `m` is the same: itself, its delegatee, its secret and capsule, its sale,
its auction, its rent contract and the offers for it, its transmission protocol and the consents to it. -/
structure Untouched (w w' : World) (m : NFTId) : Prop where
  nft : w'.nfts.get m = w.nfts.get m
  delegatee : w'.nft.deleg.get m = w.nft.deleg.get m
  secret : w'.nft.secretData.get m = w.nft.secretData.get m
  secretShards : w'.nft.secretShards.get m = w.nft.secretShards.get m
  capsule : w'.nft.capsuleData.get m = w.nft.capsuleData.get m
  capsuleShards : w'.nft.capsuleShards.get m = w.nft.capsuleShards.get m
  sale : w'.mkt.sales.get m = w.mkt.sales.get m
  auction : w'.auc.auctions.get m = w.auc.auctions.get m
  commission : w'.auc.comm.get m = w.auc.comm.get m
  contract : w'.rent.contracts.get m = w.rent.contracts.get m
  offers : w'.rent.offers.get m = w.rent.offers.get m
  transmission : w'.tr.trans.get m = w.tr.trans.get m
  consents : w'.tr.consents.get m = w.tr.consents.get m

/-- the NFT contract `k` wants from the rentee, as the rent or as a deposit -/
def Wants (k : Contract) (m : NFTId) : Prop := k.rentFee = .nft m ∨ k.renteeFee = .nft m

/-- an NFT one of the parties has deposited or is to deposit for contract `k` -/
def AsDeposit (k : Contract) (m : NFTId) : Prop := k.renterFee = .nft m ∨ k.renteeFee = .nft m

/-- The call names NFT `m`, creates it, or acts on a rent contract with `m` as rent or deposit. -/
def concerns (w : World) (m : NFTId) : Call → Prop
  | .nft (.createNft ..) => m = w.nft.nextNft
  | .nft (.createSecret ..) => m = w.nft.nextNft
  | .nft (.createCapsule ..) => m = w.nft.nextNft
  | .nft (.burnNft n) => m = n
  | .nft (.transferNft n _) => m = n
  | .nft (.delegateNft n _) => m = n
  | .nft (.setRoyalty n _) => m = n
  | .nft (.addToColl n _) => m = n
  | .nft (.addSecret n _) => m = n
  | .nft (.addSecretShard n) => m = n
  | .nft (.toCapsule n _) => m = n
  | .nft (.setCapsuleData n _) => m = n
  | .nft (.addCapsuleShard n) => m = n
  | .nft (.notifyKey n) => m = n
  | .mkt (.list n _ _) => m = n
  | .mkt (.unlist n) => m = n
  | .mkt (.buy n _) => m = n
  | .auc (.create n ..) => m = n
  | .auc (.cancel n) => m = n
  | .auc (.end_ n) => m = n
  | .auc (.addBid n _) => m = n
  | .auc (.removeBid n) => m = n
  | .auc (.buyItNow n _) => m = n
  | .rent (.create n _ _ _ _ f _) => m = n ∨ f = .nft m
  | .rent (.cancel n) => m = n ∨ ∃ k, w.rent.contracts.get n = some k ∧ k.renterFee = .nft m
  | .rent (.revoke n) => m = n ∨ ∃ k, w.rent.contracts.get n = some k ∧ AsDeposit k m
  | .rent (.rent n _) => m = n ∨ ∃ k, w.rent.contracts.get n = some k ∧ Wants k m
  | .rent (.acceptOffer n _) => m = n ∨ ∃ k, w.rent.contracts.get n = some k ∧ Wants k m
  | .rent (.makeOffer n _) => m = n
  | .rent (.retractOffer n) => m = n
  | .rent (.changeTerms n ..) => m = n
  | .rent (.acceptTerms n ..) => m = n
  | .tr (.set n ..) => m = n
  | .tr (.remove n) => m = n
  | .tr (.resetTimer n _) => m = n
  | .tr (.addConsent n) => m = n
  | _ => False

/-- The contract `k` of `n` waits for the scheduled work: nobody took it in time, its fixed duration is over, or a
period of its subscription is. -/
def Waits (c : Cfg) (w : World) (n : NFTId) (k : Contract) : Prop :=
  match k.rentee, k.duration with
  | none, _ => k.creation + c.rentAvail ≤ w.now
  | some _, .fixed d => ∃ s, k.start = some s ∧ s + d ≤ w.now
  | some _, .sub _ => ∃ b, (n, b) ∈ w.rent.subQ ∧ b ≤ w.now

/-- the block at which a protocol transmits the NFT, if it has one -/
def dateOf : Protocol → Option Block
  | .atBlock b => some b
  | .atBlockWithReset b => some b
  | .onConsentAtBlock _ _ b => some b
  | .onConsent .. => none

/-- The operation is a call of a signed account about `m`, or scheduled work that is due for `m`. -/
def opConcerns (c : Cfg) (w : World) (m : NFTId) : Op → Prop
  | .call (.signed _) x => concerns w m x
  | .hookAuc => ∃ x, w.auc.auctions.get m = some x ∧ x.fin ≤ w.now
  | .hookRent => ∃ n k, w.rent.contracts.get n = some k ∧ Waits c w n k ∧ (m = n ∨ AsDeposit k m)
  | .hookTr => ∃ t b, w.tr.trans.get m = some t ∧ dateOf t.protocol = some b ∧ b ≤ w.now
  | _ => False

end Spec

theorem Same.untouched (h : Same w w' m) : Spec.Untouched w w' m := by
  have h1 := h.slice
  simp only [_root_.slice, Slice.mk.injEq] at h1
  obtain ⟨h1, h2, h3, h4, h5, h6, h7, h8, h9, h10, h11, _⟩ := h1
  exact ⟨h1, h2, h3, h4, h5, h6, h7, h8, h.comm, h9, h.offers, h10, h11⟩

theorem Spec.Waits.of {k} (h : RentM.Ripe c w n k) : Spec.Waits c w n k := by
  unfold Spec.Waits
  rcases h with ⟨h1, h2⟩ | ⟨r, s, d, h1, h2, h3, h4⟩ | ⟨r, u, b, h1, h2, h3, h4⟩
  · simp only [h1]; exact h2
  · simp only [h1, h3]; exact ⟨s, h2, h4⟩
  · simp only [h1, h2]; exact ⟨b, h3, h4⟩

/- C77 -/

/-- Whatever happens on the chain, everything recorded about an NFT stays the same unless the operation concerns it:
a call that names it, creates it or acts on a contract with it as rent or deposit, or scheduled work that is due. -/
theorem C77 (hc : c.Ok) (hr : Reach c w) (ho : o.Ok c) (hm : ¬ Spec.opConcerns c w m o) :
    Spec.Untouched w (step c w o) m := by
  apply Same.untouched
  generalize hw' : step c w o = w'
  have key := step_case w o ho
  rw [hw'] at key
  cases key with
  | nft x ha h =>
    refine NftM.call_same h ?_
    intro e; apply hm
    cases x <;> simp [NftM.target, Spec.opConcerns, Spec.concerns] at e ⊢ <;> exact e
  | mkt x ha h =>
    refine MktM.call_same h ?_
    intro e; apply hm
    cases x <;> simp [MktM.target, Spec.opConcerns, Spec.concerns] at e ⊢ <;> exact e
  | auc x ha h =>
    refine AucM.call_same h ?_
    intro e; apply hm
    cases x <;> simp [AucM.target, Spec.opConcerns, Spec.concerns] at e ⊢ <;> exact e
  | rent x ha h =>
    refine RentM.call_same h ?_
    intro e; apply hm
    cases x <;> simp only [RentM.about, Spec.opConcerns, Spec.concerns, Spec.Wants, Spec.AsDeposit, feeNft_iff,
      rentNft_iff] at e ⊢ <;> exact e
  | tr x ha h =>
    refine TrM.call_same h ?_
    intro e; apply hm
    cases x <;> exact e
  | hookAuc =>
    refine AucM.hook_same fun e he hle => hm ?_
    obtain ⟨x, hx, rfl⟩ := (hr.auc hc).inQ _ _ he
    exact ⟨x, hx, hle⟩
  | hookRent =>
    refine RentM.ticks_same ((hr.inv hc).rent.ticks hr.micro.balInv) fun n k hk h => ?_
    have hw := Spec.Waits.of h
    refine ⟨?_, ?_, ?_⟩
    · rintro rfl; exact hm ⟨_, k, hk, hw, Or.inl rfl⟩
    · intro e; exact hm ⟨n, k, hk, hw, Or.inr (Or.inl (feeNft_iff.1 e))⟩
    · intro e; exact hm ⟨n, k, hk, hw, Or.inr (Or.inr (feeNft_iff.1 e))⟩
  | hookTr =>
    refine TrM.hook_same (hr.inv hc).tr (hr.inv hc).good fun b hb hle => hm ?_
    obtain ⟨t, ht, he, _⟩ := (hr.inv hc).tr.inQ _ _ hb
    refine ⟨t, b, ht, ?_, hle⟩
    cases hp : t.protocol <;> simp_all [TrM.endBlock, Spec.dateOf]
  | quiet o _ h =>
    refine ⟨h.slice m, by rw [h.rent], by rw [h.auc]⟩

/-- NFT 0 is for sale, NFT 1 is rented, with NFT 2 as deposit -/
abbrev mixed : List Op :=
  [Demo.mint1, Demo.mint1, Demo.mint1, Demo.by_ 1 (.mkt (.create .pub)), Demo.by_ 1 (.mkt (.list 0 0 500)),
   Demo.by_ 1 (.rent (.create 1 (.fixed 10) (.auto none) true (.tokens 100) (.nft 2) .none)), Demo.by_ 3 (.rent (.rent 1 0))]

-- the sale leaves 1 alone; the end of the contract gives 2 back
example : Reach Demo.cfg (Demo.at_ mixed) ∧
    ¬ Spec.opConcerns Demo.cfg (Demo.at_ mixed) 1 (Demo.by_ 2 (.mkt (.buy 0 500))) ∧
    ((step Demo.cfg (Demo.at_ mixed) (Demo.by_ 2 (.mkt (.buy 0 500)))).nfts.get 0).map (·.owner) = some 2 ∧
    ((Demo.at_ mixed).nfts.get 2).map (·.owner) = some 102 ∧
    ((step Demo.cfg (Demo.at_ (mixed ++ Demo.ticks 10)) .hookRent).nfts.get 2).map (·.owner) = some 1 :=
  ⟨Demo.reach _ (by decide), fun h => absurd (show (1 : NFTId) = 0 from h) (by decide), by decide, by decide, by decide⟩
