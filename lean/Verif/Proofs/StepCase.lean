import Verif.Proofs.Inv
/-
What one operation can do, as the starting point of all step theorems.
-/
variable {c : Cfg} {w w' : World}

/-- Nothing about NFTs, collections, marketplaces, auctions, contracts and transmissions changes,
except the configurable fees. -/
structure Quiet (w w' : World) : Prop where
  nfts : w'.nfts = w.nfts
  nft : w'.nft = { w.nft with
    fee := w'.nft.fee, secretFee := w'.nft.secretFee, capsuleFee := w'.nft.capsuleFee }
  mkt : w'.mkt = { w.mkt with fee := w'.mkt.fee }
  auc : w'.auc = w.auc
  rent : w'.rent = w.rent
  tr : w'.tr = { w.tr with
    feeAt := w'.tr.feeAt, feeReset := w'.tr.feeReset, feeConsent := w'.tr.feeConsent,
    feeConsentAt := w'.tr.feeConsentAt }

theorem Quiet.refl (w : World) : Quiet w w := ⟨rfl, rfl, rfl, rfl, rfl, rfl⟩

theorem Quiet.trans {w1 w2 w3 : World} (h : Quiet w1 w2) (h' : Quiet w2 w3) : Quiet w1 w3 := by
  obtain ⟨a1, a2, a3, a4, a5, a6⟩ := h
  obtain ⟨b1, b2, b3, b4, b5, b6⟩ := h'
  refine ⟨b1.trans a1, ?_, ?_, b4.trans a4, b5.trans a5, ?_⟩
  · rw [b2, a2]
  · rw [b3, a3]
  · rw [b6, a6]

theorem Quiet.slice (h : Quiet w w') (n : NFTId) : slice w' n = slice w n := by
  obtain ⟨a1, a2, a3, a4, a5, a6⟩ := h
  unfold _root_.slice
  rw [a1, a2, a3, a4, a5, a6]

theorem TeeM.root_quiet {x} (h : TeeM.root c w x = .ok w') : Quiet w w' := by
  have e := TeeM.root_frame h
  constructor <;> rw [e]

theorem BrM.ext_quiet {x} (h : BrM.ext c w x = .ok w') : Quiet w w' := by
  have e := BrM.ext_frame h
  constructor <;> rw [e]

theorem TeeM.call_quiet {a x} (h : TeeM.call c w a x = .ok w') : Quiet w w' := by
  have e := TeeM.call_frame h
  constructor <;> rw [e]

theorem BrM.call_quiet {a x} (h : BrM.call c w a x = .ok w') : Quiet w w' := by
  have e := BrM.call_frame h
  constructor <;> rw [e]

theorem rootCall_quiet {x} (h : rootCall c w x = .ok w') : Quiet w w' := by
  cases x <;> simp only [rootCall] at h
  case tee r => exact TeeM.root_quiet h
  all_goals simp only [Except.ok.injEq] at h; subst h
  case trFee k x => cases k <;> exact ⟨rfl, rfl, rfl, rfl, rfl, rfl⟩
  all_goals exact ⟨rfl, rfl, rfl, rfl, rfl, rfl⟩

/-- root and committee calls, however nested -/
theorem dispatch_quiet (x : Call) : ∀ (o : Origin) (w w' : World), (∀ a, o ≠ .signed a) →
    dispatch c x o w = .ok w' → Quiet w w' ∧ w'.now = w.now := by
  induction x with
  | mandate y ih =>
    have key : ∀ w w', mandateResult w (dispatch c y .root w) = .ok w' → Quiet w w' ∧ w'.now = w.now := by
      intro w w' h
      rcases mandateResult_ok h with ⟨w1, hy, rfl⟩ | ⟨e, hy, rfl⟩
      case inr => exact ⟨⟨rfl, rfl, rfl, rfl, rfl, rfl⟩, rfl⟩
      case inl =>
        obtain ⟨h1, h2⟩ := ih .root w w1 (by simp) hy
        exact ⟨⟨h1.1, h1.2, h1.3, h1.4, h1.5, h1.6⟩, h2⟩
    intro o w w' ho h
    cases o with
    | signed a => exact absurd rfl (ho a)
    | root =>
      exact key w w' h
    | ext =>
      exact key w w' h
  | root y =>
    intro o w w' ho h
    cases o with
    | signed a => exact absurd rfl (ho a)
    | root =>
      refine ⟨rootCall_quiet h, ?_⟩
      simp only [dispatch] at h
      cases y <;> simp only [rootCall] at h
      case tee r => exact fr% World.now (TeeM.root_frame h)
      all_goals simp only [Except.ok.injEq] at h; subst h
      case trFee k x => cases k <;> rfl
      all_goals rfl
    | ext => simp [dispatch] at h
  | ext y =>
    intro o w w' ho h
    cases o with
    | signed a => exact absurd rfl (ho a)
    | root => exact ⟨BrM.ext_quiet h, fr% World.now (BrM.ext_frame h)⟩
    | ext => exact ⟨BrM.ext_quiet h, fr% World.now (BrM.ext_frame h)⟩
  | _ =>
    intro o w w' ho h
    cases o with
    | signed a => exact absurd rfl (ho a)
    | root => simp [dispatch] at h
    | ext => simp [dispatch] at h

theorem RewM.txFee_quiet {p f t au} (h : RewM.txFee c w p f t au = .ok w') : Quiet w w' := by
  have e := RewM.txFee_frame h
  constructor <;> rw [e]

/-- the kind of transition an operation makes on slices -/
def Op.kind : Op → Option Kind
  | .call (.signed a) (.rent _) => some (.rent a)
  | .call (.signed a) (.nft _) => some (.signed .nft a)
  | .call (.signed a) (.mkt _) => some (.signed .mkt a)
  | .call (.signed a) (.auc _) => some (.signed .auc a)
  | .call (.signed a) (.tr _) => some (.signed .tr a)
  | .hookAuc => some .hookAuc
  | .hookRent => some .hookRent
  | .hookTr => some .hookTr
  | _ => none

/-- what one operation can do to NFTs and everything attached to them -/
inductive StepCase (c : Cfg) (w : World) : Op → World → Prop where
  | nft {a : AccountId} (x : NftM.Call) {w' : World} : ¬ c.pot a → NftM.call c w a x = .ok w' →
      StepCase c w (.call (.signed a) (.nft x)) w'
  | mkt {a : AccountId} (x : MktM.Call) {w' : World} : ¬ c.pot a → MktM.call c w a x = .ok w' →
      StepCase c w (.call (.signed a) (.mkt x)) w'
  | auc {a : AccountId} (x : AucM.Call) {w' : World} : ¬ c.pot a → AucM.call c w a x = .ok w' →
      StepCase c w (.call (.signed a) (.auc x)) w'
  | rent {a : AccountId} (x : RentM.Call) {w' : World} : ¬ c.pot a → RentM.call c w a x = .ok w' →
      StepCase c w (.call (.signed a) (.rent x)) w'
  | tr {a : AccountId} (x : TrM.Call) {w' : World} : ¬ c.pot a → TrM.call c w a x = .ok w' →
      StepCase c w (.call (.signed a) (.tr x)) w'
  | hookAuc : StepCase c w .hookAuc (AucM.hook c w)
  | hookRent : StepCase c w .hookRent (RentM.hook c w)
  | hookTr : StepCase c w .hookTr (TrM.hook c w)
  /-- a failed call, or an operation outside these pallets -/
  | quiet (o : Op) {w' : World} : w' = w ∨ o.kind = none → Quiet w w' → StepCase c w o w'

theorem step_case (w : World) (o : Op) (ho : o.Ok c) : StepCase c w o (step c w o) := by
  cases o <;> simp only [step]
  case call o x =>
    cases h : dispatch c x o w with
    | error e => exact .quiet _ (Or.inl rfl) (.refl w)
    | ok w' =>
      show StepCase c w _ w'
      cases o with
      | signed a =>
        have ha : ¬ c.pot a := ho
        cases x <;> simp only [dispatch, signedCall] at h
        case nft x => exact .nft x ha h
        case mkt x => exact .mkt x ha h
        case auc x => exact .auc x ha h
        case rent x => exact .rent x ha h
        case tr x => exact .tr x ha h
        case tee x => exact .quiet _ (Or.inr rfl) (TeeM.call_quiet h)
        case br x => exact .quiet _ (Or.inr rfl) (BrM.call_quiet h)
        case bal d v l =>
          cases hb : w.bal.transfer c.ed a d v l with
          | error e => simp [hb, Except.map] at h
          | ok b => simp [hb, Except.map] at h; subst h; exact .quiet _ (Or.inr rfl) ⟨rfl, rfl, rfl, rfl, rfl, rfl⟩
        all_goals simp at h
      | root => exact .quiet _ (Or.inr rfl) (dispatch_quiet x _ w w' (by simp) h).1
      | ext => exact .quiet _ (Or.inr rfl) (dispatch_quiet x _ w w' (by simp) h).1
  case hookAuc => exact .hookAuc
  case hookRent => exact .hookRent
  case hookTr => exact .hookTr
  case hookTee =>
    have e := TeeM.hook_frame (c := c) w
    refine .quiet _ (Or.inr rfl) ?_
    constructor <;> rw [e]
  case tick => exact .quiet _ (Or.inr rfl) ⟨rfl, rfl, rfl, rfl, rfl, rfl⟩
  case era e => split <;> exact .quiet _ (Or.inr rfl) ⟨rfl, rfl, rfl, rfl, rfl, rfl⟩
  case txFee p f t au =>
    cases h : RewM.txFee c w p f t au with
    | error e => exact .quiet _ (Or.inl rfl) (.refl w)
    | ok w' => exact .quiet _ (Or.inr rfl) (RewM.txFee_quiet h)
  case eraPayout => exact .quiet _ (Or.inr rfl) ⟨rfl, rfl, rfl, rfl, rfl, rfl⟩
  case mint a v => exact .quiet _ (Or.inr rfl) ⟨rfl, rfl, rfl, rfl, rfl, rfl⟩
  case lock a v => exact .quiet _ (Or.inr rfl) ⟨rfl, rfl, rfl, rfl, rfl, rfl⟩

/-- Every operation moves every slice by transitions of its kind. -/
theorem step_slice (hc : c.Ok) (hr : Reach c w) (o : Op) (ho : o.Ok c) :
    (∀ n, slice (step c w o) n = slice w n) ∨
    ∃ k, o.kind = some k ∧ k.Ok c ∧
      ∀ n, SliceRel c w.now (offered w n) k (slice w n) (slice (step c w o) n) := by
  have hi := hr.inv hc
  have hb := hr.micro.balInv
  cases step_case w o ho with
  | nft x ha h =>
    exact Or.inr ⟨_, rfl, ha, fun n => NftM.call_slice h (hi.fresh _ (Nat.le_refl _)) n⟩
  | mkt x ha h => exact Or.inr ⟨_, rfl, ha, fun n => MktM.call_slice h n⟩
  | auc x ha h => exact Or.inr ⟨_, rfl, ha, fun n => AucM.call_slice h n⟩
  | rent x ha h => exact Or.inr ⟨_, rfl, ha, fun n => RentM.call_slice h hi.rent.dep.ok n⟩
  | tr x ha h => exact Or.inr ⟨_, rfl, ha, fun n => TrM.call_slice h n⟩
  | hookAuc => exact Or.inr ⟨_, rfl, trivial, fun n => AucM.hook_slice w n⟩
  | hookRent => exact Or.inr ⟨_, rfl, trivial, fun n => (hi.rent.hook hb).2 n⟩
  | hookTr =>
    exact Or.inr ⟨_, rfl, trivial, fun n => TrM.hook_slice w (fun x hx =>
      (hi.tr.inQ x.1 x.2 hx).choose_spec.2.2) n⟩
  | quiet _ _ hq => exact Or.inl fun n => hq.slice n
