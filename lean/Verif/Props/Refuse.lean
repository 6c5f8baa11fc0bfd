import Verif.Props.RefuseSpec
import Verif.Props.Authority
/-
C87: a call is accepted only when its object is in a state that allows it.
-/
variable {c : Cfg} {w w' : World} {a : AccountId}

theorem Spec.Refuse.hasRoom_of {k : CollId} {x : Coll} (h : w.nft.colls.get k = some x) (h1 : x.closed = false)
    (h2 : x.nfts.length < NftM.collCap c x) (h3 : x.nfts.length < c.collLimit) : Spec.Refuse.HasRoom c w k :=
  ⟨x, h, h1, h3, fun l e => by simpa [NftM.collCap, e] using h2⟩

theorem NftM.takesShare {cur : Option (List (ClusterId × AccountId))} {s l} (h : pushShard c cur s = .ok l) :
    Spec.Refuse.TakesShare c (cur.getD []) s := by
  cases cur with
  | none =>
    simp only [pushShard] at h; inv_ok at h
    exact ⟨h.1, by simp, by simp⟩
  | some l =>
    simp only [pushShard] at h; inv_ok at h
    obtain ⟨x, h1, h2, h3, h4, _⟩ := h
    refine ⟨h3, h4, fun y hy => ?_⟩
    simp only [Option.getD_some, h1, Option.some.injEq] at hy
    rw [← hy, h2]

theorem NftM.call_fit {x : Call} (h : call c w a x = .ok w') : Spec.Refuse.Fit c w a (.nft x) := by
  have hc : ∀ {w w' data roy coll sb}, createHelper c w a data roy coll sb = .ok w' →
      ∀ x, coll = some x → Spec.Refuse.HasRoom c w x := by
    intro w w' data roy coll sb h x e
    subst e
    obtain ⟨b, w1, _, h2, _⟩ := createHelper_ok h
    simp only [pushToColl] at h2; inv_ok at h2
    obtain ⟨col, h3, _, h4, h5, h6, _⟩ := h2
    exact Spec.Refuse.hasRoom_of (w := w) h3 h4 h5 h6
  cases x <;> simp only [call] at h <;> simp only [Spec.Refuse.Fit]
  case createNft => exact hc h
  case createSecret =>
    simp only [createSecret] at h
    inv_ok at h
    obtain ⟨_, w1, h1, _⟩ := h
    exact hc h1
  case createCapsule =>
    simp only [createCapsule] at h
    inv_ok at h
    obtain ⟨_, w1, h1, _⟩ := h
    exact hc h1
  case addToColl n k =>
    simp only [addToColl] at h; inv_ok at h
    obtain ⟨col, d, h1, _, h2, h3, h4, _, h5, h6, _⟩ := h
    exact ⟨Spec.Refuse.hasRoom_of h1 h2 h3 h6, d, h4, h5⟩
  case addSecretShard n =>
    simp only [addSecretShard] at h; inv_ok at h
    obtain ⟨s, d, l, h1, h2, h3, h4, h5, _⟩ := h
    simp only [ensureEnclave, Option.bind_eq_bind, Option.bind_eq_some_iff, Option.pure_def, Option.some.injEq] at h1
    obtain ⟨op, e1, k, e2, rfl⟩ := h1
    exact ⟨⟨d, h2, h3, h4⟩, op, k, e1, e2, takesShare h5⟩
  case addCapsuleShard n =>
    simp only [addCapsuleShard] at h; inv_ok at h
    obtain ⟨s, d, l, h1, h2, h3, h4, h5, _⟩ := h
    simp only [ensureEnclave, Option.bind_eq_bind, Option.bind_eq_some_iff, Option.pure_def, Option.some.injEq] at h1
    obtain ⟨op, e1, k, e2, rfl⟩ := h1
    exact ⟨⟨d, h2, h3, h4⟩, op, k, e1, e2, takesShare h5⟩
  case transferNft n r =>
    simp only [transferNft] at h; inv_ok at h
    obtain ⟨d, h0, h1, h2, h3, h4, h5, h6, h7, h8, h9, _⟩ := h
    refine ⟨fun e => h2 (e ▸ h1), d, h0, ⟨h3, h4, h7, h9⟩, ⟨h6, h8⟩, fun e => ?_⟩
    by_contra hne; exact h5 ⟨e, hne⟩
  all_goals
    simp only [burnNft, delegateNft, setRoyalty, createColl, burnColl, closeColl, limitColl, setCollData,
      addSecret, addSecretHelper, toCapsule, toCapsuleHelper, setCapsuleData, notifyKey] at h
    frame_auto at h
    simp_all [Spec.Refuse.Nft, Spec.Refuse.Idle, Spec.Refuse.Synced]

theorem MktM.admits {m : Mkt} {k : Option CollId} (h : allowedToList m a k = true) : Spec.Refuse.Admits m a k := by
  revert h
  unfold allowedToList Spec.Refuse.Admits
  cases m.kind <;> cases m.accounts <;> cases m.colls <;> cases k <;> simp <;> tauto

theorem MktM.covers_flat {p : Balance} {f : Option CompoundFee} (h : covers p f = true) :
    ∀ x, f = some (.flat x) → x ≤ p := by
  intro x e; subst e; simpa [covers] using h

theorem MktM.call_fit {x : Call} (h : call c w a x = .ok w') : Spec.Refuse.Fit c w a (.mkt x) := by
  cases x <;> simp only [call] at h <;> simp only [Spec.Refuse.Fit]
  case list n m p =>
    simp only [list] at h; inv_ok at h
    obtain ⟨d, k, _, h0, _, h2, h3, h4, h5, h6, h7, h8, h9, h10, h11, _⟩ := h
    refine ⟨d, h0, ⟨h2, h3, h6, h8⟩, ⟨h5, h7⟩, fun e => ?_, k, h9, admits h10, covers_flat h11⟩
    by_contra hne; exact h4 ⟨e, hne⟩
  case buy n p =>
    simp only [buy] at h; inv_ok at h
    obtain ⟨d, s, k, _, _, _, _, h1, _, _, h2, h3, _, h4, _⟩ := h
    refine ⟨s, h1, by rw [← h2]; exact h3, fun x e => ?_⟩
    simpa [feeOnOpt, feeOn, e] using h4
  all_goals
    simp only [create, setOwner, setKind, setConfig, unlist] at h
    frame_auto at h
    try simp_all

theorem AucM.call_fit {x : Call} (h : call c w a x = .ok w') : Spec.Refuse.Fit c w a (.auc x) := by
  cases x <;> simp only [call] at h <;> simp only [Spec.Refuse.Fit]
  case create n m s e p b =>
    simp only [create] at h; inv_ok at h
    obtain ⟨d, k, q, h1, h2, h3, h4, h5, h6, g0, _, g2, g3, g4, g5, g6, g7, g8, g9, g10, g11, g12, _⟩ := h
    obtain ⟨hq, _⟩ := Queue.insert_some g12
    refine ⟨⟨d, g0, ⟨g2, g3, g6, g8⟩, ⟨g5, g7⟩, fun e => ?_, k, g9, MktM.admits g10, MktM.covers_flat g11⟩, h1,
      by omega, h2, by omega, by omega, fun x e => h6 x (by simp [e]), hq⟩
    by_contra hne; exact g4 ⟨e, hne⟩
  case addBid n v =>
    simp only [addBid] at h; inv_ok at h
    obtain ⟨y, _, _, _, h0, _, h1, h2, h3, _⟩ := h
    refine ⟨y, h0, h1, h2, fun e => ?_, fun z e => ?_⟩ <;> simpa [beats, e] using h3
  case end_ n =>
    simp only [end_] at h; inv_ok at h
    obtain ⟨d, y, t, _, _, h1, _, h2, h3, _⟩ := h
    exact ⟨y, h1, h2, fun e => by simp [e] at h3⟩
  all_goals
    simp only [cancel, removeBidCall, buyItNow, claim] at h
    frame_auto at h
    try simp_all
    try omega

theorem RentM.pledgeable {d : NFTData} (h : valid d.st = true) : Spec.Refuse.Pledgeable d := by
  simp_all [valid, Spec.Refuse.Pledgeable, Spec.Refuse.Idle, Spec.Refuse.Synced]

theorem RentM.checkNft_fit {o : Option NFTId} (h : checkNft w a o = .ok ()) :
    ∀ n, o = some n → Spec.Refuse.Nft w n fun d => d.owner = a ∧ Spec.Refuse.Pledgeable d := by
  intro n e; subst e
  simp only [checkNft] at h; inv_ok at h
  obtain ⟨d, h1, h2, h3⟩ := h
  exact ⟨d, h1, h2, pledgeable h3⟩

theorem RentM.rentIn_eq (f : RentFee) : Spec.Refuse.rentIn f = rentNft f := by cases f <;> rfl
theorem RentM.rentPrice_eq (f : RentFee) : Spec.Refuse.rentPrice f = rentTokens f := by cases f <;> rfl
theorem RentM.depositIn_eq (f : CancelFee) : Spec.Refuse.depositIn f = feeNft f := by cases f <;> rfl
theorem RentM.depositPrice_eq (f : CancelFee) : Spec.Refuse.depositPrice f = feeTokens f := by cases f <;> rfl

theorem RentM.call_fit {x : Call} (h : call c w a x = .ok w') : Spec.Refuse.Fit c w a (.rent x) := by
  cases x <;> simp only [call] at h <;>
    simp only [Spec.Refuse.Fit, Spec.Refuse.CanGive, rentIn_eq, rentPrice_eq, depositIn_eq, depositPrice_eq]
  case create n dur acc rv f x y =>
    simp only [create] at h; inv_ok at h
    obtain ⟨d, b, w1, q, h0, h1, _, h3, h4, h5, h6, h7, h8, h9, h10, h11, h12, h13, h14, _, h15, _⟩ := h
    refine ⟨⟨d, h1, pledgeable h3⟩, by omega, ?_, ?_, ?_, ?_, ?_, h13, h14⟩
    · cases dur <;> simp_all [toDuration, full, period, Spec.Refuse.periodOf]
    · rintro p m ch rfl
      refine ⟨?_, ?_, ?_⟩ <;> rintro z rfl <;> simp_all [toDuration, allowsRent, allowsCancel]
    · intro m e
      have := h11 m (by simp [e])
      obtain ⟨z, hz⟩ := Option.isSome_iff_exists.1 this
      exact ⟨z, hz, trivial⟩
    · intro m e
      have := h12 m (by simp [e])
      obtain ⟨z, hz⟩ := Option.isSome_iff_exists.1 this
      exact ⟨z, hz, trivial⟩
    · intro m e
      simp only [e, depositRenterNft] at h15; inv_ok at h15
      obtain ⟨z, g1, g2, g3, _⟩ := h15
      exact ⟨z, g1, g2, pledgeable g3⟩
  case makeOffer n b =>
    simp only [makeOffer] at h; inv_ok at h
    obtain ⟨k, h1, h2, _, h3, _, _, _, h4, h5, _, h6, h7, h8, _⟩ := h
    exact ⟨h1, h8, k, h2, h3, ⟨checkNft_fit h6, checkNft_fit h7⟩, h4.1, h5.1⟩
  case changeTerms n f p m ch =>
    simp only [changeTerms] at h; inv_ok at h
    obtain ⟨k, h1, _, h2, h3, h4, h5, h6, _⟩ := h
    refine ⟨?_, h6, h4, fun x e => ?_⟩
    · cases hd : k.duration <;> simp_all [canAdjust]
    · subst e; exact ⟨h5, h3⟩
  case acceptTerms n f p m ch =>
    simp only [acceptTerms] at h; inv_ok at h
    obtain ⟨k, s, h1, h2, _, h3, h4, h5, h6, h7, _⟩ := h
    refine ⟨k, s, h1, ?_, h3, h4, h5, h7, fun x e => ?_⟩
    · cases hd : k.duration <;> simp_all
    · subst e; simpa using h6
  all_goals
    simp only [cancel, revoke, rent, acceptOffer, retractOffer] at h
    frame_auto at h
    try simp_all

theorem TrM.call_fit {x : Call} (h : call c w a x = .ok w') : Spec.Refuse.Fit c w a (.tr x) := by
  cases x <;> simp only [call] at h <;> simp only [Spec.Refuse.Fit]
  case set n r p k =>
    simp only [set] at h; inv_ok at h
    obtain ⟨d, q, b, h0, h1, h2, h3, h4, h5, h6, h7, h8, h9, h10, h11, h12, h13, h14, h15, _, h16, _⟩ := h
    subst h2
    refine ⟨fun e => h3 e.symm, ⟨d, h1, ⟨h4, h5, h6, h10⟩, ⟨h8, h9⟩, fun e => ?_⟩, fun b e => ?_, ?_, fun b e => ?_⟩
    · by_contra hne; exact h7 ⟨e, fun q => hne q.symm⟩
    · have e' : endBlock p = some b := by cases p <;> simp_all [Spec.Refuse.dateOf, endBlock]
      have := h11 b (by simp [e']); have := h12 b (by simp [e'])
      omega
    · cases p <;> simp_all [Spec.Refuse.Consentable, consentData]
    · subst e; exact h0 b (by simp [untilBlock])
  case remove n =>
    simp only [remove] at h; inv_ok at h
    obtain ⟨d, t, h1, _, h2, h3, h4, _⟩ := h
    refine ⟨⟨d, h1, h2⟩, t, h3, ?_⟩
    cases ht : t.cancellation <;> simp_all [cancellable]
  case resetTimer n b =>
    simp only [resetTimer] at h; inv_ok at h
    obtain ⟨d, t, q, h1, _, h2, h3, h4, h5, h6, _⟩ := h
    refine ⟨⟨d, h1, h2⟩, h5, by omega, t, ?_⟩
    cases ht : t.protocol <;> simp_all [canReset]
  case addConsent n =>
    simp only [addConsent] at h; inv_ok at h
    obtain ⟨d, t, x, h1, h2, h3, h4, h5, _, h6, _⟩ := h
    refine ⟨⟨d, h1, h2⟩, h6, t, h3, fun l k e ht => h5 (by simp [kind, ht])⟩

theorem TeeM.call_fit {x : Call} (h : call c w a x = .ok w') : Spec.Refuse.Fit c w a (.tee x) := by
  cases x <;> simp only [call] at h <;> simp only [Spec.Refuse.Fit]
  case unregister =>
    intro hd
    cases e : w.tee.data.get a with
    | none => exact absurd e hd
    | some d =>
      simp only [unregister, e, unregisterAssigned] at h; inv_ok at h
      obtain ⟨s, h1, h2, _⟩ := h
      exact ⟨h1, h2⟩
  case claim e =>
    simp only [claim] at h; inv_ok at h
    obtain ⟨n, s, _, _, h1, h2, h3, h4, h5, h6, _⟩ := h
    exact ⟨h1, n, s, h2, h3, h6, by omega, by omega⟩
  all_goals
    simp only [register, update, dropUpdate, withdraw, submitReport, bondExtra, refundExcess] at h
    frame_auto at h
    try simp_all
    try exact fun e => absurd e.symm ‹_›

theorem BrM.call_fit {x : Call} (h : call c w a x = .ok w') : Spec.Refuse.Fit c w a (.br x) := by
  cases x <;> simp only [call] at h <;> simp only [Spec.Refuse.Fit]
  case vote k t =>
    simp only [voteFor] at h; inv_ok at h
    obtain ⟨y, _, h1, h2, _⟩ := h
    refine ⟨fun e => by simp [allowed, e] at h1, fun p e => ?_⟩
    simp only [e, vote] at h2; inv_ok at h2
    obtain ⟨g1, g2, g3, g4, _⟩ := h2
    exact ⟨g1, by omega, g3, g4⟩
  case deposit v r d =>
    simp only [deposit] at h; inv_ok at h
    obtain ⟨_, _, h1, _⟩ := h
    exact fun e => by simp [allowed, e] at h1

theorem TeeM.root_fit {x : RootCall} (h : root c w x = .ok w') : Spec.Refuse.FitRoot c w x := by
  cases x <;> simp only [root] at h <;> simp only [Spec.Refuse.FitRoot]
  case forceUpdate op b u =>
    simp only [forceUpdate] at h; inv_ok at h
    obtain ⟨e, x, h1, h2, h3, h4, _⟩ := h
    refine ⟨by simpa [Option.isSome_iff_ne_none] using h1, fun hu => h4 [] (by simp [hu]) rfl, ?_, e, h2, ?_⟩
    · rintro rfl
      simp only [forceAddr] at h3; inv_ok at h3
      exact h3.1 rfl
    · rintro y rfl
      simp only [forceAddr] at h3; inv_ok at h3
      by_cases hy : e.addr = y
      · exact Or.inl hy
      · exact Or.inr (h3.2.1 hy)
  case approveUpdate op =>
    simp only [approveUpdate] at h; inv_ok at h
    obtain ⟨u, e, w1, h1, _, _, h2, h3, _⟩ := h
    refine ⟨e, u, h2, h1, ?_⟩
    by_cases hy : e.addr = u.addr
    · exact Or.inl hy
    · simp only [approveAddr, hy, if_false] at h3; inv_ok at h3
      exact Or.inr h3.1
  all_goals
    simp only [assign, dropRegistration, dropUpdate, approveUnregister, forceRemove, unassign, createCluster, updateCluster,
      removeCluster, registerServer, unregisterServer, setServerType, setAssignedEra] at h
    frame_auto at h
    try simp_all
    try exact ⟨_, ‹_›, ‹_›⟩

theorem BrM.ext_fit {x : ExtCall} (h : ext c w x = .ok w') : Spec.Refuse.FitExt c w x := by
  cases x <;> simp only [ext] at h <;> simp only [Spec.Refuse.FitExt]
  all_goals
    simp only [setThreshold, addChain, setNonce] at h
    frame_auto at h
    try simp_all [allowed]

theorem signed_fit {x : Call} (h : signedCall c w a x = .ok w') : Spec.Refuse.Fit c w a x := by
  cases x <;> simp only [signedCall] at h
  · exact NftM.call_fit h
  · exact MktM.call_fit h
  · exact AucM.call_fit h
  · exact RentM.call_fit h
  · exact TrM.call_fit h
  · exact TeeM.call_fit h
  · exact BrM.call_fit h
  · simp only [Spec.Refuse.Fit]
  all_goals simp at h

/-- C87: a signed call is accepted only in a state that allows it. -/
theorem C87_signed {x : Call} (h : dispatch c x (.signed a) w = .ok w') : Spec.Refuse.Fit c w a x := by
  cases x <;> simp only [dispatch] at h <;> exact signed_fit h

/-- C87: whatever the origin, a call that changes anything but the record of events is made in a state that allows it. -/
theorem C87 {o : Origin} {x : Call} (h : { step c w (.call o x) with evs := w.evs } ≠ w) : Spec.Refuse.Fits c w o x := by
  simp only [step] at h
  induction x generalizing o with
  | mandate y ih =>
    cases o with
    | signed a => exact absurd rfl h
    | root =>
      simp only [dispatch] at h
      simp only [Spec.Refuse.Fits]
      refine ih (o := .root) fun e => h ?_
      cases hd : dispatch c y .root w with
      | ok v => rw [hd] at e; simpa [mandateResult, orSame, World.ev] using e
      | error v => cases v <;> simp [mandateResult, orSame, World.ev]
    | ext =>
      simp only [dispatch] at h
      simp only [Spec.Refuse.Fits]
      refine ih (o := .root) fun e => h ?_
      cases hd : dispatch c y .root w with
      | ok v => rw [hd] at e; simpa [mandateResult, orSame, World.ev] using e
      | error v => cases v <;> simp [mandateResult, orSame, World.ev]
  | _ =>
    cases o with
    | signed a =>
      cases hd : dispatch c _ (.signed a) w with
      | ok v => exact C87_signed hd
      | error v => rw [hd] at h; exact absurd rfl h
    | root =>
      first
      | exact absurd rfl h
      | (rename_i y
         simp only [dispatch] at h
         cases hd : BrM.ext c w y with
         | ok v => exact BrM.ext_fit hd
         | error v => rw [hd] at h; exact absurd rfl h)
      | (rename_i y
         simp only [dispatch] at h
         cases y <;> simp only [Spec.Refuse.Fits]
         rename_i r
         simp only [rootCall] at h
         cases hd : TeeM.root c w r with
         | ok v => exact TeeM.root_fit hd
         | error v => rw [hd] at h; exact absurd rfl h)
    | ext =>
      first
      | exact absurd rfl h
      | (rename_i y
         simp only [dispatch] at h
         cases hd : BrM.ext c w y with
         | ok v => exact BrM.ext_fit hd
         | error v => rw [hd] at h; exact absurd rfl h)

-- a transfer that is accepted
example : let w := Demo.at_ [Demo.mint1]
    { step Demo.cfg w (Demo.by_ 1 (.nft (.transferNft 0 2))) with evs := w.evs } ≠ w := by
  intro w h
  have := congrArg (fun w : World => (w.nfts.get 0).map (·.owner)) h
  revert this; decide

-- an order of root, mandated by the committee, that is accepted
example : let w := Demo.at_ []
    { step Demo.cfg w (.call .ext (.mandate (.root (.tee (.createCluster .pub))))) with evs := w.evs } ≠ w := by
  intro w h
  have := congrArg (fun w : World => w.tee.nextCluster) h
  revert this; decide

-- the conditions are not always met: an NFT offered for rent can be neither transferred nor listed nor put in transmission
example : let w := Demo.at_ [Demo.mint1, Demo.by_ 1 (.rent (.create 0 (.fixed 10) (.manual (some [2])) true (.tokens 100) .none .none))]
    ¬ Spec.Refuse.Fit Demo.cfg w 1 (.nft (.transferNft 0 2)) ∧ ¬ Spec.Refuse.Fit Demo.cfg w 1 (.mkt (.list 0 0 5)) ∧
    ¬ Spec.Refuse.Fit Demo.cfg w 1 (.tr (.set 0 2 (.atBlock 5) .anytime)) := by
  intro w
  have hr : (w.nfts.get 0).map (·.st.rented) = some true := by decide
  refine ⟨?_, ?_, ?_⟩
  · rintro ⟨_, d, h, h1, _⟩; simp [h, h1.2.2.1] at hr
  · rintro ⟨d, h, h1, _⟩; simp [h, h1.2.2.1] at hr
  · rintro ⟨_, ⟨d, h, h1, _⟩, _⟩; simp [h, h1.2.2.1] at hr
