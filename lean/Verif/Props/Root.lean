import Verif.Props.Demo
import Verif.Props.Priv
import Verif.Proofs.TeeInv
/-
Properties C59 and C60: mandates and global parameters.
-/
variable {c : Cfg} {w w' : World} {a : AccountId}
set_option maxRecDepth 10000

/- Specification -/
namespace Spec

/-- the parameters that are the same for everybody -/
structure Params where
  nftFee : Balance
  secretFee : Balance
  capsuleFee : Balance
  marketplaceFee : Balance
  atBlockFee : Balance
  atBlockResetFee : Balance
  onConsentFee : Balance
  onConsentAtBlockFee : Balance
  stakingAmount : Balance
  weights : _root_.Params
  rewardPool : Balance
  metricsServers : List MetricsServer
  threshold : Nat
  relayers : List AccountId
  bridgeFee : Balance
  extraReward : Balance

/-- the current parameters -/
def params (w : World) : Params where
  nftFee := w.nft.fee
  secretFee := w.nft.secretFee
  capsuleFee := w.nft.capsuleFee
  marketplaceFee := w.mkt.fee
  atBlockFee := w.tr.feeAt
  atBlockResetFee := w.tr.feeReset
  onConsentFee := w.tr.feeConsent
  onConsentAtBlockFee := w.tr.feeConsentAt
  stakingAmount := w.tee.stakingAmount
  weights := w.tee.weights
  rewardPool := w.tee.pool
  metricsServers := w.tee.servers
  threshold := w.br.threshold
  relayers := w.br.relayers
  bridgeFee := w.br.fee
  extraReward := w.rew.extra

/-- what a successful order does to the parameters -/
def ordered (p : Params) : Call → Params → Prop
  | .root (.nftFee x), q => q = { p with nftFee := x }
  | .root (.secretFee x), q => q = { p with secretFee := x }
  | .root (.capsuleFee x), q => q = { p with capsuleFee := x }
  | .root (.mktFee x), q => q = { p with marketplaceFee := x }
  | .root (.trFee .atBlock x), q => q = { p with atBlockFee := x }
  | .root (.trFee .atBlockWithReset x), q => q = { p with atBlockResetFee := x }
  | .root (.trFee .onConsent x), q => q = { p with onConsentFee := x }
  | .root (.trFee .onConsentAtBlock x), q => q = { p with onConsentAtBlockFee := x }
  | .root (.tee (.setStakingAmount x)), q => q = { p with stakingAmount := x }
  | .root (.tee (.setPool x)), q => q = { p with rewardPool := x }
  | .root (.tee (.setWeights x)), q => q = { p with weights := x }
  | .root (.tee (.registerServer s)), q => q = { p with metricsServers := p.metricsServers ++ [s] }
  | .root (.tee (.unregisterServer a)), q => ∃ l s, q = { p with metricsServers := l } ∧ s.addr = a ∧
      p.metricsServers.Perm (s :: l)
  | .root (.tee (.setServerType _ _)), q => ∃ l, q = { p with metricsServers := l } ∧
      l.map (·.addr) = p.metricsServers.map (·.addr)
  | .ext (.setThreshold t), q => q = { p with threshold := t } ∧ 0 < t
  | .ext (.setRelayers l), q => q = { p with relayers := l }
  | .ext (.setFee x), q => q = { p with bridgeFee := x }
  | .ext (.setExtra x), q => q = { p with extraReward := x }
  | _, q => q = p

/-- the world without the reports of mandates -/
def unreported (w : World) : World :=
  { w with evs := w.evs.filter (fun | .mandated _ => false | _ => true) }

end Spec

/-! ## C59 -/

/-- C59: a signed account cannot use `mandate`, whatever the inner call. -/
theorem C59_refused (x : Call) : step c w (.call (.signed a) (.mandate x)) = w := rfl

/-- C59: with the configured origin, the inner call runs once with root origin; if it fails, nothing but the report
remains; if it panics, which C63 restricts, nothing remains. -/
theorem C59_once (x : Call) {g : Origin} (hg : ∀ a, g ≠ .signed a) :
    (∃ w1, dispatch c x .root w = .ok w1 ∧
      step c w (.call g (.mandate x)) = { w1 with evs := .mandated true :: w1.evs }) ∨
    (∃ e, dispatch c x .root w = .error (.e e) ∧
      step c w (.call g (.mandate x)) = { w with evs := .mandated false :: w.evs }) ∨
    (∃ e, dispatch c x .root w = .error (.panic e) ∧ step c w (.call g (.mandate x)) = w) := by
  have hs : step c w (.call g (.mandate x)) = orSame w (mandateResult w (dispatch c x .root w)) := by
    cases g with
    | signed a => exact absurd rfl (hg a)
    | root => rfl
    | ext => rfl
  rw [hs]
  cases dispatch c x .root w with
  | ok w1 => exact .inl ⟨w1, rfl, rfl⟩
  | error e =>
    cases e with
    | e s => exact .inr (.inl ⟨s, rfl, rfl⟩)
    | panic s => exact .inr (.inr ⟨s, rfl, rfl⟩)

/-- C59: however deep mandates are nested, apart from the reports they do what the innermost call does with root
origin. -/
theorem C59_nested (x : Call) {g : Origin} (hg : ∀ a, g ≠ .signed a) :
    Spec.unreported (step c w (.call g (.mandate x))) =
      Spec.unreported (step c w (.call .root (Spec.innermost x))) := by
  have key : ∀ x : Call, Spec.unreported (step c w (.call .root x)) =
      Spec.unreported (step c w (.call .root (Spec.innermost x))) := by
    intro x
    induction x with
    | mandate y ih =>
      show _ = Spec.unreported (step c w (.call .root (Spec.innermost y)))
      rw [← ih]
      rcases C59_once (c := c) (w := w) y (g := .root) (by simp) with ⟨w1, h1, h2⟩ | ⟨e, h1, h2⟩ | ⟨e, h1, h2⟩
      · rw [h2]; simp [step, h1, orSame, Spec.unreported]
      · rw [h2]; simp [step, h1, orSame, Spec.unreported]
      · rw [h2]; simp [step, h1, orSame]
    | _ => rfl
  have h := key (.mandate x)
  rw [show step c w (.call g (.mandate x)) = step c w (.call .root (.mandate x)) by
    cases g with
    | signed a => exact absurd rfl (hg a)
    | root => rfl
    | ext => rfl]
  exact h

-- the committee raises the mint fee, twice nested; a failing call (threshold 0) changes nothing
example : let w := Demo.at_ [.call .ext (.mandate (.mandate (.root (.nftFee 77)))),
      .call .ext (.mandate (.ext (.setThreshold 0))), Demo.by_ 1 (.mandate (.root (.nftFee 78)))]
    w.nft.fee = 77 ∧ w.br.threshold = 2 ∧ w.evs = [.mandated false, .mandated true, .mandated true] := by decide
-- the committee is not root
example : (Demo.at_ [.call .ext (.root (.nftFee 77))]).nft.fee = 5 := by decide

/-! ## C60 -/

theorem setKind_addr (a : AccountId) (t : ClusterType) (l : List MetricsServer) :
    (TeeM.setKind a t l).map (·.addr) = l.map (·.addr) := by
  induction l with
  | nil => rfl
  | cons x l ih => simp only [TeeM.setKind]; split <;> simp [ih]

/-- root calls that concern operators and clusters only -/
theorem root_params {r : TeeM.RootCall} (h : TeeM.root c w r = .ok w')
    (h1 : ∀ x, r ≠ .setWeights x) (h2 : ∀ x, r ≠ .setStakingAmount x) (h3 : ∀ x, r ≠ .setPool x)
    (h4 : ∀ x, r ≠ .registerServer x) (h5 : ∀ x, r ≠ .unregisterServer x) (h6 : ∀ x t, r ≠ .setServerType x t) :
    Spec.params w' = Spec.params w := by
  have hu : ∀ {op w'}, TeeM.unassign w op = .ok w' → Spec.params w' = Spec.params w := by
    intro op w' h; simp only [TeeM.unassign] at h; frame_auto at h; rfl
  cases r <;> simp only [TeeM.root] at h
  case approveUnregister =>
    simp only [TeeM.approveUnregister] at h; inv_ok at h
    exact hu h.2
  case forceRemove =>
    simp only [TeeM.forceRemove] at h; inv_ok at h
    obtain ⟨w1, s, h1, h2, rfl⟩ := h
    exact (hu h1 : Spec.params w1 = _)
  case approveUpdate =>
    simp only [TeeM.approveUpdate] at h; inv_ok at h
    obtain ⟨u, e, w1, _, _, _, _, h1, rfl⟩ := h
    unfold TeeM.approveAddr at h1
    split at h1
    · frame_auto at h1; rfl
    · frame_auto at h1; rfl
  case forceUpdate op addr uri =>
    simp only [TeeM.forceUpdate] at h; inv_ok at h
    obtain ⟨e, y, _, _, h1, _, rfl⟩ := h
    cases addr with
    | none => simp only [TeeM.forceAddr] at h1; frame_auto at h1; rfl
    | some ad =>
      simp only [TeeM.forceAddr] at h1; inv_ok at h1
      obtain ⟨_, _, rfl⟩ := h1
      dsimp only
      split <;> rfl
  case setWeights => exact absurd rfl (h1 _)
  case setStakingAmount => exact absurd rfl (h2 _)
  case setPool => exact absurd rfl (h3 _)
  case registerServer => exact absurd rfl (h4 _)
  case unregisterServer => exact absurd rfl (h5 _)
  case setServerType => exact absurd rfl (h6 _ _)
  all_goals simp only [TeeM.assign, TeeM.dropRegistration, TeeM.dropUpdate, TeeM.createCluster, TeeM.updateCluster,
    TeeM.removeCluster, TeeM.setAssignedEra] at h
  all_goals frame_auto at h
  all_goals rfl

/-- C60: global parameters change only by a call with root or committee origin. -/
theorem C60_only (o : Op) (h : Spec.params (step c w o) ≠ Spec.params w) :
    ∃ g x, o = .call g x ∧ ∀ a, g ≠ .signed a := by
  by_cases hp : ∃ g x, o = .call g x ∧ ∀ a, g ≠ .signed a
  · exact hp
  refine absurd ?_ h
  clear h
  cases o <;> simp only [step]
  case call g x =>
    cases g with
    | root => exact absurd ⟨_, _, rfl, by simp⟩ hp
    | ext => exact absurd ⟨_, _, rfl, by simp⟩ hp
    | signed a =>
      cases h : dispatch c x (.signed a) w with
      | error e => rfl
      | ok w' =>
        show Spec.params w' = _
        cases x <;> simp only [dispatch, signedCall] at h
        case nft x => have e := NftM.call_frame h; rw [e]; rfl
        case mkt x => have e := MktM.call_frame h; rw [e]; rfl
        case auc x => have e := AucM.call_frame h; rw [e]; rfl
        case rent x => have e := RentM.call_frame h; rw [e]; rfl
        case tr x => have e := TrM.call_frame h; rw [e]; rfl
        case tee x => have e := TeeM.call_frame h; rw [e]; rfl
        case br x =>
          cases x with
          | vote k t =>
            simp only [BrM.call, BrM.voteFor] at h; inv_ok at h
            obtain ⟨y, _, _, _, rfl⟩ := h
            cases y.2 <;> rfl
          | deposit v r d =>
            simp only [BrM.call, BrM.deposit] at h; inv_ok at h
            obtain ⟨b1, b2, _, _, _, _, rfl⟩ := h
            rfl
        case bal d v l =>
          cases hb : w.bal.transfer c.ed a d v l with
          | error e => simp [hb, Except.map] at h
          | ok b => simp [hb, Except.map] at h; subst h; rfl
        all_goals simp at h
  case hookAuc => rw [AucM.hook_frame]; rfl
  case hookRent => rw [RentM.hook_frame]; rfl
  case hookTr => rw [TrM.hook_frame]; rfl
  case hookTee => rw [TeeM.hook_frame]; rfl
  case era e => split <;> rfl
  case txFee p f t au =>
    cases h : RewM.txFee c w p f t au with
    | error e => rfl
    | ok w' => have e := RewM.txFee_frame h; show Spec.params w' = _; rw [e]; rfl
  all_goals rfl

/-- C60: and such a call changes exactly the parameter it names. -/
theorem C60_ordered {g : Origin} (hg : ∀ a, g ≠ .signed a) {x : Call} (h : dispatch c x g w = .ok w') :
    Spec.params w' = Spec.params w ∨ Spec.ordered (Spec.params w) (Spec.innermost x) (Spec.params w') := by
  rw [innermost_eq]
  cases dispatch_priv x g w w' hg h with
  | none l hl => exact .inl rfl
  | root r w1 l hx h1 hl =>
    right
    rw [hx]
    show Spec.ordered _ _ (Spec.params w1)
    clear hx h hl
    cases r
    case trFee k y =>
      simp only [rootCall, Except.ok.injEq] at h1; subst h1
      cases k <;> rfl
    case tee r =>
      simp only [rootCall] at h1
      have h0 := h1
      cases r <;> simp only [TeeM.root] at h1
      case setWeights => simp only [Except.ok.injEq] at h1; subst h1; rfl
      case setStakingAmount => simp only [Except.ok.injEq] at h1; subst h1; rfl
      case setPool => simp only [Except.ok.injEq] at h1; subst h1; rfl
      case registerServer => simp only [TeeM.registerServer] at h1; inv_ok at h1; obtain ⟨_, _, rfl⟩ := h1; rfl
      case unregisterServer a =>
        simp only [TeeM.unregisterServer] at h1; inv_ok at h1; obtain ⟨x, hm, ha, rfl⟩ := h1
        obtain ⟨y, l1, l2, _, hy, e1, e2⟩ := List.exists_of_eraseP (p := fun x => decide (x.addr = a)) hm (by simpa using ha)
        refine ⟨_, y, rfl, by simpa using hy, ?_⟩
        refine .trans ?_ ((swapRemoveBy_perm _ _).symm.cons y)
        rw [e2]
        show w.tee.servers.Perm _
        rw [e1]
        exact List.perm_middle
      case setServerType =>
        simp only [TeeM.setServerType] at h1; inv_ok at h1; obtain ⟨x, hm, ha, rfl⟩ := h1
        exact ⟨_, rfl, setKind_addr _ _ _⟩
      all_goals exact root_params h0 (by simp) (by simp) (by simp) (by simp) (by simp) (by simp)
    all_goals simp only [rootCall, Except.ok.injEq] at h1; subst h1; rfl
  | ext r w1 l hx h1 hl =>
    right
    rw [hx]
    show Spec.ordered _ _ (Spec.params w1)
    clear hx h hl
    cases r <;> simp only [BrM.ext, BrM.setThreshold, BrM.addChain, BrM.setRelayers, BrM.setNonce, BrM.setFee] at h1 <;>
      inv_ok at h1
    case setThreshold => obtain ⟨h2, rfl⟩ := h1; exact ⟨rfl, h2⟩
    case addChain => obtain ⟨_, _, rfl⟩ := h1; rfl
    case setNonce => obtain ⟨_, _, _, _, rfl⟩ := h1; rfl
    all_goals subst h1; rfl

-- root changes the pool; a user tries to
example : (Demo.at_ [.call .root (.root (.tee (.setPool 7))), Demo.by_ 1 (.root (.tee (.setPool 8)))]).tee.pool = 7 := by
  decide
