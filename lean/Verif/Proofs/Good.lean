import Verif.Proofs.Slice
import Mathlib.Tactic.Common
/-
The invariant of one NFT's slice, and its preservation by every slice transition.
-/

/-- Records and flags of an existing NFT agree. -/
structure GoodNft (c : Cfg) (s : Slice) (d : NFTData) : Prop where
  listed : d.st.listed = true ↔ (s.sale ≠ none ∨ s.auc ≠ none)
  notBoth : s.sale = none ∨ s.auc = none
  seller : ∀ x, s.sale = some x → x.seller = d.owner
  creator : ∀ x, s.auc = some x → x.creator = d.owner
  rented : d.st.rented = true ↔ s.con ≠ none
  renter : ∀ k, s.con = some k → k.renter = d.owner
  trans : d.st.transmission = true ↔ s.tr ≠ none
  deleg : d.st.delegated = true ↔ s.deleg ≠ none
  exL : d.st.listed = true → d.st.rented = false ∧ d.st.transmission = false ∧
    d.st.delegated = false ∧ d.st.syncSecret = false ∧ d.st.syncCapsule = false
  exR : d.st.rented = true → d.st.transmission = false ∧
    d.st.delegated = false ∧ d.st.syncSecret = false ∧ d.st.syncCapsule = false
  exT : d.st.transmission = true →
    d.st.delegated = false ∧ d.st.syncSecret = false ∧ d.st.syncCapsule = false
  exD : d.st.delegated = true → d.st.syncSecret = false ∧ d.st.syncCapsule = false
  exS : d.st.syncSecret = true → d.st.syncCapsule = false
  secret : d.st.secret = true ↔ s.secretData ≠ none
  capsule : d.st.capsule = true ↔ s.capsuleData ≠ none
  syncSecret : d.st.syncSecret = true → d.st.secret = true
  syncCapsule : d.st.syncCapsule = true → d.st.capsule = true
  shards : s.secretShards ≠ none → d.st.syncSecret = true
  shards' : s.capsuleShards ≠ none → d.st.syncCapsule = true
  pot : c.pot d.owner → d.st.listed = false ∧ d.st.rented = false ∧ d.st.transmission = false ∧
    d.st.delegated = false ∧ d.st.syncSecret = false ∧ d.st.syncCapsule = false
  soul : d.st.soulbound = true → d.owner ≠ d.creator →
    d.st.listed = false ∧ d.st.rented = false ∧ d.st.transmission = false
  cons : s.cons ≠ none → ∃ t, s.tr = some t ∧ TrM.consentData t.protocol ≠ none
  born : s.born = true
  bids : ∀ x, s.auc = some x → ∀ b ∈ x.bids, ¬ c.pot b.1 ∧ b.1 ≠ x.creator

/-- Nothing is stored. -/
def Slice.blank (b : Bool) : Slice :=
  ⟨none, none, none, none, none, none, none, none, none, none, none, b⟩

/-- The invariant of a slice. -/
structure Good (c : Cfg) (s : Slice) : Prop where
  gone : s.nft = none → s = .blank s.born
  nft : ∀ d, s.nft = some d → GoodNft c s d

/-- the signer of a transition, if any, is not a pallet account -/
def Kind.Ok (c : Cfg) : Kind → Prop
  | .signed _ a => ¬ c.pot a
  | .rent a => ¬ c.pot a
  | _ => True

set_option maxHeartbeats 4000000 in
theorem Good.step {c : Cfg} {now off k} {s s' : Slice} (hk : k.Ok c) (hg : Good c s)
    (h : SliceStep c now off k s s') : Good c s' := by
  have mk : ∀ {t : Slice} {d : NFTData}, t.nft = some d → GoodNft c t d → Good c t := by
    intro t d h1 h2
    refine ⟨fun e => ?_, fun d' h' => ?_⟩
    · rw [h1] at e; simp at e
    · rw [h1] at h'; simp at h'; exact h' ▸ h2
  cases h with
  | mint h hb =>
    have e := hg.gone h
    rw [hb] at e
    subst e
    refine mk rfl ?_
    constructor <;> simp [Slice.blank]
  | burn h h1 h2 h3 h4 h5 =>
    rename_i a d
    obtain ⟨⟩ := hg.nft _ h
    clear mk
    refine ⟨fun _ => ?_, by simp⟩
    ext1 <;> simp only [Slice.blank] <;> grind
  | @aucBids _ a x y h h1 h2 =>
    obtain ⟨d, hd⟩ : ∃ d, s.nft = some d := by
      cases e : s.nft with
      | some d => exact ⟨d, rfl⟩
      | none => have := hg.gone e; rw [this] at h; simp [Slice.blank] at h
    obtain ⟨⟩ := hg.nft _ hd
    simp only [Kind.Ok] at hk
    refine mk hd ?_
    clear mk hg
    constructor <;> grind
  | @conRent _ a k h =>
    obtain ⟨d, hd⟩ : ∃ d, s.nft = some d := by
      cases e : s.nft with
      | some d => exact ⟨d, rfl⟩
      | none => have := hg.gone e; rw [this] at h; simp [Slice.blank] at h
    obtain ⟨⟩ := hg.nft _ hd
    refine mk hd ?_
    clear mk hg
    constructor <;> grind
  | @conAccept _ a k r h =>
    obtain ⟨d, hd⟩ : ∃ d, s.nft = some d := by
      cases e : s.nft with
      | some d => exact ⟨d, rfl⟩
      | none => have := hg.gone e; rw [this] at h; simp [Slice.blank] at h
    obtain ⟨⟩ := hg.nft _ hd
    refine mk hd ?_
    clear mk hg
    constructor <;> grind
  | @conTerms _ a k du fee h =>
    obtain ⟨d, hd⟩ : ∃ d, s.nft = some d := by
      cases e : s.nft with
      | some d => exact ⟨d, rfl⟩
      | none => have := hg.gone e; rw [this] at h; simp [Slice.blank] at h
    obtain ⟨⟩ := hg.nft _ hd
    refine mk hd ?_
    clear mk hg
    constructor <;> grind
  | give dst h hv hx =>
    obtain ⟨⟩ := hg.nft _ h
    simp only [RentM.valid, Bool.and_eq_true, Bool.not_eq_true'] at hv
    refine mk rfl ?_
    clear mk hg
    constructor <;> grind
  | release dst h ho hv hx =>
    obtain ⟨⟩ := hg.nft _ h
    simp only [RentM.valid, Bool.and_eq_true, Bool.not_eq_true'] at hv
    refine mk rfl ?_
    clear mk hg
    constructor <;> grind
  | rentCreate k h ho hv h1 h2 h3 =>
    obtain ⟨⟩ := hg.nft _ h
    simp only [RentM.valid, Bool.and_eq_true, Bool.not_eq_true'] at hv
    simp only [Kind.Ok] at hk
    refine mk rfl ?_
    clear mk hg
    constructor <;> grind
  | @aucEnd _ a d x top h h1 h2 h3 h4 =>
    obtain ⟨⟩ := hg.nft _ h
    have hm := List.mem_of_getLast? h4
    refine mk rfl ?_
    clear mk hg
    constructor <;> grind
  | @aucHook _ d x top h h1 h2 =>
    obtain ⟨⟩ := hg.nft _ h
    have hm := List.mem_of_getLast? h2
    refine mk rfl ?_
    clear mk hg
    constructor <;> grind
  | @trReset _ a d t b h h1 h2 h3 h4 =>
    obtain ⟨⟩ := hg.nft _ h
    refine mk h ?_
    clear mk hg
    cases hp : t.protocol <;> simp only [hp, TrM.canReset, Bool.false_eq_true] at h3
    have : TrM.consentData t.protocol = none := by rw [hp]; rfl
    constructor <;> grind
  | trConsent h h1 h2 h3 h4 h5 =>
    obtain ⟨⟩ := hg.nft _ h
    refine mk h ?_
    clear mk hg
    constructor <;> grind
  | trReached h h1 h2 h3 h4 =>
    obtain ⟨⟩ := hg.nft _ h
    refine mk h ?_
    clear mk hg
    constructor <;> grind
  | capsuleData h h1 h2 =>
    obtain ⟨⟩ := hg.nft _ h
    refine mk h ?_
    clear mk hg
    constructor <;> grind
  | trRemove h h1 h2 h3 h4 =>
    obtain ⟨⟩ := hg.nft _ h
    simp only [Kind.Ok] at hk
    refine mk rfl ?_
    clear mk hg
    simp only [Option.isSome_iff_ne_none]
    constructor <;> grind
  | secretShard l h =>
    obtain ⟨⟩ := hg.nft _ h
    refine mk rfl ?_
    clear mk hg
    cases l <;> constructor <;> grind
  | capsuleShard l h =>
    obtain ⟨⟩ := hg.nft _ h
    refine mk rfl ?_
    clear mk hg
    cases l <;> constructor <;> grind
  | delegate r h =>
    obtain ⟨⟩ := hg.nft _ h
    simp only [Kind.Ok] at hk
    refine mk rfl ?_
    clear mk hg
    cases r <;> constructor <;> grind
  | transfer h | royalty h | addToColl _ h | addSecret h | toCapsule h | notifyKey h
  | list h | unlist h | buy h | aucCreate h | aucCancel h | aucBuy h | aucHookNone h | conCancel h
  | conRevoke h | conExpire h | selfDeposit h | trSet h | trConsentTransmit h | trHook h =>
    obtain ⟨⟩ := hg.nft _ h
    try simp only [Kind.Ok] at hk
    refine mk rfl ?_
    clear mk hg
    constructor <;> grind
