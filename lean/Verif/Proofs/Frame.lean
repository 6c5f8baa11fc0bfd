import Verif.Proofs.Bal
import Verif.Proofs.SliceMkt
import Verif.Proofs.SliceRent
import Verif.Proofs.SliceTr
/-
Which parts of the world each pallet touches, and the decomposition of operations into
pallet-level transitions.
-/
variable {c : Cfg} {w w' : World} {a : AccountId}

/-- destruct all existentials and conjunctions, substitute -/
macro "frame_auto" " at " h:ident : tactic =>
  `(tactic| (inv_ok at $h; repeat' (first | (obtain ⟨_, $h⟩ := $h)); try subst $h))

theorem NftM.call_frame {x : NftM.Call} (h : NftM.call c w a x = .ok w') :
    w' = { w with
      bal := w'.bal, nfts := w'.nfts
      nft := { w'.nft with
        fee := w.nft.fee, secretFee := w.nft.secretFee, capsuleFee := w.nft.capsuleFee } } := by
  have hc : ∀ {w w' : World} {data roy coll sb}, createHelper c w a data roy coll sb = .ok w' →
      w' = { w with
      bal := w'.bal, nfts := w'.nfts
      nft := { w'.nft with
        fee := w.nft.fee, secretFee := w.nft.secretFee, capsuleFee := w.nft.capsuleFee } } := by
    intro w w' data roy coll sb h
    obtain ⟨b, w1, _, h2, _, rfl⟩ := createHelper_ok h
    cases coll with
    | none => simp only [pushToColl] at h2; frame_auto at h2; rfl
    | some j => simp only [pushToColl] at h2; frame_auto at h2; rfl
  have hs : ∀ {w w' : World} {n data}, addSecretHelper c w a n data = .ok w' →
      w' = { w with
      bal := w'.bal, nfts := w'.nfts
      nft := { w'.nft with
        fee := w.nft.fee, secretFee := w.nft.secretFee, capsuleFee := w.nft.capsuleFee } } := by
    intro w w' n data h
    simp only [addSecretHelper] at h; frame_auto at h; rfl
  have ht : ∀ {w w' : World} {n data}, toCapsuleHelper c w a n data = .ok w' →
      w' = { w with
      bal := w'.bal, nfts := w'.nfts
      nft := { w'.nft with
        fee := w.nft.fee, secretFee := w.nft.secretFee, capsuleFee := w.nft.capsuleFee } } := by
    intro w w' n data h
    simp only [toCapsuleHelper] at h; frame_auto at h; rfl
  cases x <;> simp only [call] at h
  case createNft => exact hc h
  case burnNft n =>
    simp only [burnNft] at h
    inv_ok at h
    obtain ⟨d, w1, _, _, _, _, _, _, h5, rfl⟩ := h
    cases hcoll : d.coll with
    | none => simp only [hcoll, dropFromColl] at h5; frame_auto at h5; rfl
    | some j => simp only [hcoll, dropFromColl] at h5; frame_auto at h5; rfl
  case transferNft => simp only [transferNft] at h; frame_auto at h; rfl
  case delegateNft => simp only [delegateNft] at h; frame_auto at h; rfl
  case setRoyalty => simp only [setRoyalty] at h; frame_auto at h; rfl
  case createColl => simp only [createColl] at h; frame_auto at h; rfl
  case burnColl => simp only [burnColl] at h; frame_auto at h; rfl
  case closeColl => simp only [closeColl] at h; frame_auto at h; rfl
  case limitColl => simp only [limitColl] at h; frame_auto at h; rfl
  case addToColl => simp only [addToColl] at h; frame_auto at h; rfl
  case addSecret => exact hs h
  case createSecret =>
    simp only [createSecret] at h; inv_ok at h
    obtain ⟨w1, _, h1, h2⟩ := h
    have e1 := hc h1
    have e2 := hs h2
    rw [e2, e1]
  case addSecretShard => simp only [addSecretShard] at h; frame_auto at h; rfl
  case toCapsule => exact ht h
  case createCapsule =>
    simp only [createCapsule] at h; inv_ok at h
    obtain ⟨w1, _, h1, h2⟩ := h
    have e1 := hc h1
    have e2 := ht h2
    rw [e2, e1]
  case setCapsuleData => simp only [setCapsuleData] at h; frame_auto at h; rfl
  case addCapsuleShard => simp only [addCapsuleShard] at h; frame_auto at h; rfl
  case notifyKey => simp only [notifyKey] at h; frame_auto at h; rfl
  case setCollData => simp only [setCollData] at h; frame_auto at h; rfl

theorem MktM.call_frame {x : MktM.Call} (h : MktM.call c w a x = .ok w') :
    w' = { w with bal := w'.bal, nfts := w'.nfts, mkt := { w'.mkt with fee := w.mkt.fee } } := by
  cases x <;> simp only [call, create, setOwner, setKind, setConfig, list, unlist, buy] at h <;>
  frame_auto at h <;> rfl

theorem AucM.call_frame {x : AucM.Call} (h : AucM.call c w a x = .ok w') :
    w' = { w with bal := w'.bal, nfts := w'.nfts, auc := w'.auc, evs := w'.evs } := by
  cases x <;> simp only [call, create, cancel, end_, addBid, removeBidCall, buyItNow, claim] at h <;>
  frame_auto at h <;> rfl

theorem RentM.call_frame {x : RentM.Call} (h : RentM.call c w a x = .ok w') :
    w' = { w with bal := w'.bal, nfts := w'.nfts, rent := w'.rent, evs := w'.evs } := by
  have hs : ∀ {n k r}, startContract c w n k r = .ok w' →
      w' = { w with bal := w'.bal, nfts := w'.nfts, rent := w'.rent, evs := w'.evs } := by
    intro n k r h
    obtain ⟨w1, q, h1, h2, rfl⟩ := startContract_ok h
    obtain ⟨b1, b2, _, _, c1, c2, rfl⟩ := takeFees_ok h1
    rfl
  cases x <;> simp only [call] at h
  case create =>
    obtain ⟨d, b, q, h⟩ := create_ok h
    have e := h.2.2.2.2.2.2.2.2.2.2.2.2.2.2.2.2.2.2
    clear h; subst e; rfl
  case cancel =>
    simp only [cancel] at h; inv_ok at h
    obtain ⟨k, hk, h1, h2, h⟩ := h
    obtain ⟨k, d, b1, b2, hk, hd, _, _, rfl⟩ := finished_ok (ext_ok h)
    rfl
  case revoke =>
    obtain ⟨k, r, d, b0, b1, b2, hk, hr, hp, hcr, hd, _, _, _, _, rfl⟩ := revoke_ok h
    rfl
  case rent =>
    simp only [rent] at h; inv_ok at h
    obtain ⟨k, hk, _, _, _, _, _, h⟩ := h
    exact hs h
  case makeOffer => simp only [makeOffer] at h; frame_auto at h; rfl
  case acceptOffer =>
    simp only [acceptOffer] at h; inv_ok at h
    obtain ⟨k, l, hk, _, _, _, h⟩ := h
    exact hs h
  case retractOffer => simp only [retractOffer] at h; frame_auto at h; rfl
  case changeTerms => simp only [changeTerms] at h; frame_auto at h; rfl
  case acceptTerms => simp only [acceptTerms] at h; frame_auto at h; rfl

theorem TrM.call_frame {x : TrM.Call} (h : TrM.call c w a x = .ok w') :
    w' = { w with
      bal := w'.bal, nfts := w'.nfts, evs := w'.evs
      tr := { w'.tr with
        feeAt := w.tr.feeAt, feeReset := w.tr.feeReset, feeConsent := w.tr.feeConsent
        feeConsentAt := w.tr.feeConsentAt } } := by
  cases x <;> simp only [call] at h
  case set => simp only [set] at h; frame_auto at h; rfl
  case remove =>
    simp only [remove] at h; inv_ok at h
    obtain ⟨d, t, hd, ho, h1, ht, h2, rfl⟩ := h
    cases t.protocol <;> rfl
  case resetTimer => simp only [resetTimer] at h; frame_auto at h; rfl
  case addConsent =>
    obtain ⟨d, t, x, hd, h1, ht, hx, h2, h3, h4, h5, h⟩ := addConsent_ok h
    rcases h with ⟨h6, rfl⟩ | ⟨h6, _, rfl⟩ | ⟨h6, e, q, _, _, _, _, rfl⟩ <;> rfl

theorem TeeM.call_frame {x : TeeM.Call} (h : TeeM.call c w a x = .ok w') :
    w' = { w with
      bal := w'.bal, evs := w'.evs
      tee := { w'.tee with
        stakingAmount := w.tee.stakingAmount, weights := w.tee.weights, pool := w.tee.pool
        servers := w.tee.servers } } := by
  cases x <;> simp only [call] at h
  case unregister =>
    simp only [unregister] at h
    split at h
    · simp only [unregisterAssigned] at h; frame_auto at h; rfl
    · simp only [dropRegistration] at h; frame_auto at h; rfl
  all_goals simp only [register, update, dropUpdate, withdraw, submitReport, claim, bondExtra,
    refundExcess] at h
  all_goals frame_auto at h
  all_goals rfl

theorem TeeM.root_frame {x : TeeM.RootCall} (h : TeeM.root c w x = .ok w') :
    w' = { w with bal := { w.bal with tee := w'.bal.tee }, tee := w'.tee } := by
  have hu : ∀ {op w'}, unassign w op = .ok w' →
      w' = { w with bal := { w.bal with tee := w'.bal.tee }, tee := w'.tee } := by
    intro op w' h; simp only [unassign] at h; frame_auto at h; rfl
  cases x <;> simp only [root] at h
  case approveUnregister =>
    simp only [approveUnregister] at h; inv_ok at h
    exact hu h.2
  case forceRemove =>
    simp only [forceRemove] at h; inv_ok at h
    obtain ⟨w1, s, h1, h2, rfl⟩ := h
    have := hu h1
    rw [this]
  case approveUpdate =>
    simp only [approveUpdate] at h; inv_ok at h
    obtain ⟨u, e, w1, _, _, _, _, h1, rfl⟩ := h
    unfold approveAddr at h1
    split at h1
    · frame_auto at h1; rfl
    · frame_auto at h1; rfl
  case forceUpdate op addr uri =>
    simp only [forceUpdate] at h; inv_ok at h
    obtain ⟨e, y, _, _, h1, _, rfl⟩ := h
    cases addr with
    | none => simp only [forceAddr] at h1; frame_auto at h1; rfl
    | some ad =>
      simp only [forceAddr] at h1; inv_ok at h1
      obtain ⟨_, _, rfl⟩ := h1
      dsimp only
      split <;> rfl
  all_goals simp only [assign, dropRegistration, dropUpdate, createCluster, updateCluster,
    removeCluster, registerServer, unregisterServer, setServerType, setWeights, setStakingAmount,
    setPool, setAssignedEra] at h
  all_goals frame_auto at h
  all_goals rfl

theorem BrM.call_frame {x : BrM.Call} (h : BrM.call c w a x = .ok w') :
    w' = { w with
      bal := w'.bal, evs := w'.evs
      br := { w.br with nonces := w'.br.nonces, votes := w'.br.votes } } := by
  cases x <;> simp only [call] at h
  case vote =>
    simp only [voteFor] at h; inv_ok at h
    obtain ⟨y, _, _, _, rfl⟩ := h
    cases y.2 <;> rfl
  case deposit => simp only [deposit] at h; frame_auto at h; rfl

theorem BrM.ext_frame {x : BrM.ExtCall} (h : BrM.ext c w x = .ok w') :
    w' = { w with
      br := { w'.br with votes := w.br.votes }
      rew := { w'.rew with acc := w.rew.acc } } := by
  cases x <;> simp only [ext, setThreshold, addChain, setRelayers, setNonce, setFee] at h <;>
  frame_auto at h <;> rfl

/-! ## hooks -/

theorem AucM.settleOne_frame (w : World) (n : NFTId) :
    (settleOne c w n).1 = { w with
      bal := (settleOne c w n).1.bal, nfts := (settleOne c w n).1.nfts
      auc := { w.auc with
        auctions := (settleOne c w n).1.auc.auctions
        claims := (settleOne c w n).1.auc.claims }
      evs := (settleOne c w n).1.evs } := by
  unfold settleOne
  repeat' split
  all_goals rfl

theorem AucM.hookLoop_frame (q : Queue) (w : World) (i : Nat) :
    (hookLoop c w q i).1 = { w with
      bal := (hookLoop c w q i).1.bal, nfts := (hookLoop c w q i).1.nfts
      auc := { w.auc with
        auctions := (hookLoop c w q i).1.auc.auctions
        claims := (hookLoop c w q i).1.auc.claims }
      evs := (hookLoop c w q i).1.evs } := by
  induction q generalizing w i with
  | nil => rfl
  | cons x t ih =>
    obtain ⟨n, b⟩ := x
    simp only [hookLoop]
    have h := settleOne_frame (c := c) w n
    split
    · split
      · split
        · exact h
        · rw [ih, h]
      · rw [ih, h]
    · rfl

theorem AucM.hook_frame (w : World) :
    hook c w = { w with
      bal := (hook c w).bal, nfts := (hook c w).nfts
      auc := { (hook c w).auc with comm := w.auc.comm }
      evs := (hook c w).evs } := by
  have h := hookLoop_frame (c := c) w.auc.deadlines w 0
  unfold hook
  simp only
  rw [h]

/-- frame of a rent action -/
def RentM.FrameOf (w w' : World) : Prop :=
  w' = { w with
    bal := w'.bal, nfts := w'.nfts
    rent := { w.rent with contracts := w'.rent.contracts } }

theorem RentM.FrameOf.trans {w1 w2 w3 : World} (h1 : FrameOf w1 w2) (h2 : FrameOf w2 w3) :
    FrameOf w1 w3 := by
  unfold FrameOf at *
  rw [h2, h1]

theorem RentM.payAct_frame (w : World) (s d v l) : FrameOf w (payAct c s d v l w).1 := by
  unfold payAct; split <;> rfl

theorem RentM.chownOpt_frame (w : World) (m a) : FrameOf w (chownOpt m a w).1 := by
  unfold chownOpt
  split
  · unfold chownAct; split <;> rfl
  · rfl

theorem RentM.seq_frame {f g : Act} (hf : ∀ w, FrameOf w (f w).1) (hg : ∀ w, FrameOf w (g w).1)
    (w : World) : FrameOf w (f.seq g w).1 := by
  unfold Act.seq
  have h := hf w
  split
  · rename_i w1 e; rw [e] at h; exact h.trans (hg w1)
  · rename_i w1 e1 e; rw [e] at h; exact h

theorem RentM.handleFinished_frame (w : World) (n : NFTId) :
    FrameOf w (handleFinished c n w).1 := by
  unfold handleFinished
  split
  · rfl
  · rename_i k hk
    split
    · rfl
    · refine seq_frame (fun w => payAct_frame w ..) (seq_frame ?_ (seq_frame
        (fun w => chownOpt_frame w ..) (seq_frame ?_ ?_))) w
      · intro w; cases k.rentee with
        | some r => exact payAct_frame w ..
        | none => rfl
      · intro w; cases k.rentee with
        | some r => exact chownOpt_frame w ..
        | none => rfl
      · intro w; rfl

theorem RentM.handleSub_frame (w : World) (n : NFTId) :
    (handleSub c w n).1 = { w with bal := (handleSub c w n).1.bal } := by
  unfold handleSub
  repeat' split
  all_goals rfl

theorem RentM.finishLoop_frame (q : Queue) (w : World) (i : Nat) :
    FrameOf w (finishLoop c w q i).1 := by
  induction q generalizing w i with
  | nil => rfl
  | cons x t ih =>
    obtain ⟨n, b⟩ := x
    simp only [finishLoop]
    have h := handleFinished_frame (c := c) w n
    split
    · split
      · exact h
      · exact h.trans (ih _ _)
    · rfl

theorem RentM.subOne_frame (w : World) (n : NFTId) (t : Queue) : FrameOf w (subOne c w n t).1 := by
  unfold subOne
  have h := handleSub_frame (c := c) w n
  split
  · rename_i w1 b e
    rw [e] at h
    unfold FrameOf
    dsimp only at h ⊢
    rw [h]
  · rename_i w1 e
    rw [e] at h
    have h1 : FrameOf w w1 := by unfold FrameOf; dsimp only at h ⊢; rw [h]
    exact h1.trans (handleFinished_frame _ _)

theorem RentM.subLoop_frame (fuel : Nat) (w : World) (q : Queue) (i : Nat) :
    FrameOf w (subLoop c w q i fuel).1 := by
  induction fuel generalizing w q i with
  | zero => rfl
  | succ f ih =>
    unfold subLoop
    split
    · rfl
    · rename_i n b t
      have h := subOne_frame (c := c) w n t
      split
      · dsimp only
        split
        · exact h
        · exact h.trans (ih _ _ _)
      · rfl

theorem RentM.hook_frame (w : World) :
    hook c w = { w with
      bal := (hook c w).bal, nfts := (hook c w).nfts
      rent := { (hook c w).rent with offers := w.rent.offers } } := by
  unfold hook
  have h1 := finishLoop_frame (c := c) w.rent.fixedQ w 0
  have h2 := subLoop_frame (c := c) (max 1 (c.rentActions - (finishLoop c w w.rent.fixedQ 0).2.2))
    (finishLoop c w w.rent.fixedQ 0).1 w.rent.subQ (finishLoop c w w.rent.fixedQ 0).2.2
  have h3 := finishLoop_frame (c := c) w.rent.availQ (subLoop c (finishLoop c w w.rent.fixedQ 0).1
    w.rent.subQ (finishLoop c w w.rent.fixedQ 0).2.2
    (max 1 (c.rentActions - (finishLoop c w w.rent.fixedQ 0).2.2))).1
    (subLoop c (finishLoop c w w.rent.fixedQ 0).1 w.rent.subQ (finishLoop c w w.rent.fixedQ 0).2.2
    (max 1 (c.rentActions - (finishLoop c w w.rent.fixedQ 0).2.2))).2.2
  have h := (h1.trans h2).trans h3
  dsimp only
  split
  · unfold FrameOf at h; rw [h]
  · unfold FrameOf at h; rw [h]

theorem TrM.hookOne_frame' (w : World) (n : NFTId) :
    (hookOne w n).1 = { w with
      nfts := (hookOne w n).1.nfts, evs := (hookOne w n).1.evs
      tr := { w.tr with trans := (hookOne w n).1.tr.trans } } := by
  unfold hookOne
  split
  · rename_i w1 h
    obtain ⟨t, d, ht, hd, rfl⟩ := transmit_ok h
    rfl
  · rfl

theorem TrM.hookLoop_frame (q : Queue) (w : World) (i : Nat) :
    (hookLoop c w q i).1 = { w with
      nfts := (hookLoop c w q i).1.nfts, evs := (hookLoop c w q i).1.evs
      tr := { w.tr with trans := (hookLoop c w q i).1.tr.trans } } := by
  induction q generalizing w i with
  | nil => rfl
  | cons x t ih =>
    obtain ⟨n, b⟩ := x
    simp only [hookLoop]
    have h := hookOne_frame' w n
    generalize (if (hookOne w n).2 = true then i + 1 else i) = j
    split
    · split
      · exact h
      · rw [ih, h]
    · rfl

theorem TrM.hook_frame (w : World) :
    hook c w = { w with
      nfts := (hook c w).nfts, evs := (hook c w).evs
      tr := { w.tr with trans := (hook c w).tr.trans, queue := (hook c w).tr.queue } } := by
  have h := hookLoop_frame (c := c) w.tr.queue w 0
  unfold hook
  simp only
  split <;> rw [h]

theorem TeeM.hook_frame (w : World) :
    hook c w = { w with
      tee := { w.tee with claimed := (hook c w).tee.claimed, reports := (hook c w).tee.reports } } := by
  unfold hook
  split
  · rfl
  · split <;> rfl

theorem RewM.txFee_frame {p f t au} (h : RewM.txFee c w p f t au = .ok w') :
    w' = { w with bal := w'.bal, rew := { w.rew with acc := w'.rew.acc }, evs := w'.evs } := by
  simp only [txFee] at h; frame_auto at h; rfl

/-! ## pallet-level transitions -/

/-- Transitions every operation is composed of. -/
inductive Micro (c : Cfg) (w : World) : World → Prop where
  | nft {w' : World} {a : AccountId} (x : NftM.Call) : ¬ c.pot a → NftM.call c w a x = .ok w' → Micro c w w'
  | mkt {w' : World} {a : AccountId} (x : MktM.Call) : ¬ c.pot a → MktM.call c w a x = .ok w' → Micro c w w'
  | auc {w' : World} {a : AccountId} (x : AucM.Call) : ¬ c.pot a → AucM.call c w a x = .ok w' → Micro c w w'
  | rent {w' : World} {a : AccountId} (x : RentM.Call) : ¬ c.pot a → RentM.call c w a x = .ok w' → Micro c w w'
  | tr {w' : World} {a : AccountId} (x : TrM.Call) : ¬ c.pot a → TrM.call c w a x = .ok w' → Micro c w w'
  | tee {w' : World} {a : AccountId} (x : TeeM.Call) : ¬ c.pot a → TeeM.call c w a x = .ok w' → Micro c w w'
  | br {w' : World} {a : AccountId} (x : BrM.Call) : ¬ c.pot a → BrM.call c w a x = .ok w' → Micro c w w'
  | bal {b : Bal} {a : AccountId} {d v l} : ¬ c.pot a → w.bal.transfer c.ed a d v l = .ok b → Micro c w (w.putBal b)
  | nftFee (x : Balance) : Micro c w (NftM.setMintFee w x)
  | secretFee (x : Balance) : Micro c w (NftM.setSecretFee w x)
  | capsuleFee (x : Balance) : Micro c w (NftM.setCapsuleFee w x)
  | mktFee (x : Balance) : Micro c w (MktM.setMintFee w x)
  | trFee (k : ProtocolKind) (x : Balance) : Micro c w (TrM.setFee w k x)
  | teeRoot {w' : World} (x : TeeM.RootCall) : TeeM.root c w x = .ok w' → Micro c w w'
  | ext {w' : World} (x : BrM.ExtCall) : BrM.ext c w x = .ok w' → Micro c w w'
  | mandated (ok : Bool) : Micro c w (w.ev (.mandated ok))
  | hookAuc : Micro c w (AucM.hook c w)
  | hookRent : Micro c w (RentM.hook c w)
  | hookTr : Micro c w (TrM.hook c w)
  | hookTee : Micro c w (TeeM.hook c w)
  | tick : Micro c w { w with now := w.now + 1 }
  | era (e : Era) : (∀ x ∈ w.active, x ≤ e) → Micro c w { w with active := some e }
  | txFee {w' : World} {p f t au} : ¬ c.pot p → RewM.txFee c w p f t au = .ok w' → Micro c w w'
  | eraPayout : Micro c w (RewM.eraPayout c w).1
  | mint (a : AccountId) (v : Balance) : Micro c w (w.putBal (w.bal.mint c.ed a v))
  | lock (a : AccountId) (v : Balance) : ¬ c.pot a →
      Micro c w (w.putBal { w.bal with other := w.bal.other.insert a v })

theorem rootCall_micro {x : RootCall} (h : rootCall c w x = .ok w') : Micro c w w' := by
  cases x <;> simp only [rootCall] at h
  case tee r => exact .teeRoot r h
  all_goals simp only [Except.ok.injEq] at h; subst h
  case nftFee x => exact .nftFee x
  case secretFee x => exact .secretFee x
  case capsuleFee x => exact .capsuleFee x
  case mktFee x => exact .mktFee x
  case trFee k x => exact .trFee k x

theorem signedCall_micro {x : Call} (ha : ¬ c.pot a) (h : signedCall c w a x = .ok w') :
    Micro c w w' := by
  cases x <;> simp only [signedCall] at h
  case nft x => exact .nft x ha h
  case mkt x => exact .mkt x ha h
  case auc x => exact .auc x ha h
  case rent x => exact .rent x ha h
  case tr x => exact .tr x ha h
  case tee x => exact .tee x ha h
  case br x => exact .br x ha h
  case bal d v l =>
    cases hb : w.bal.transfer c.ed a d v l with
    | error e => simp [hb, Except.map] at h
    | ok b => simp [hb, Except.map] at h; subst h; exact .bal ha hb
  all_goals simp at h

theorem mandateResult_ok {r : Except Err World} (h : mandateResult w r = .ok w') :
    (∃ w1, r = .ok w1 ∧ w' = w1.ev (.mandated true)) ∨ (∃ e, r = .error (.e e) ∧ w' = w.ev (.mandated false)) := by
  match r, h with
  | .ok w1, h => simp only [mandateResult, Except.ok.injEq] at h; exact .inl ⟨w1, rfl, h.symm⟩
  | .error (.e e), h => simp only [mandateResult, Except.ok.injEq] at h; exact .inr ⟨e, rfl, h.symm⟩

/-- no matter how deeply mandates are nested -/
theorem dispatch_micro (x : Call) : ∀ (o : Origin) (w w' : World),
    (∀ a, o = .signed a → ¬ c.pot a) → dispatch c x o w = .ok w' →
    Relation.ReflTransGen (Micro c) w w' := by
  induction x with
  | mandate y ih =>
    intro o w w' ho h
    cases o with
    | signed a => simp [dispatch, signedCall] at h
    | root =>
      rcases mandateResult_ok h with ⟨w1, hy, rfl⟩ | ⟨e, hy, rfl⟩
      · exact (ih .root w w1 (by simp) hy).tail (.mandated true)
      · exact .single (.mandated false)
    | ext =>
      rcases mandateResult_ok h with ⟨w1, hy, rfl⟩ | ⟨e, hy, rfl⟩
      · exact (ih .root w w1 (by simp) hy).tail (.mandated true)
      · exact .single (.mandated false)
  | root y =>
    intro o w w' ho h
    cases o with
    | signed a => simp [dispatch, signedCall] at h
    | root => exact .single (rootCall_micro h)
    | ext => simp [dispatch] at h
  | ext y =>
    intro o w w' ho h
    cases o with
    | signed a => simp [dispatch, signedCall] at h
    | root => exact .single (.ext y h)
    | ext => exact .single (.ext y h)
  | _ =>
    intro o w w' ho h
    cases o with
    | signed a => exact .single (signedCall_micro (ho a rfl) h)
    | root => simp [dispatch] at h
    | ext => simp [dispatch] at h

theorem step_micro (w : World) (o : Op) (ho : o.Ok c) :
    Relation.ReflTransGen (Micro c) w (step c w o) := by
  cases o <;> simp only [step]
  case call o x =>
    cases h : dispatch c x o w with
    | error e => exact .refl
    | ok w' =>
      refine dispatch_micro x o w w' ?_ h
      rintro a rfl; exact ho
  case hookAuc => exact .single .hookAuc
  case hookRent => exact .single .hookRent
  case hookTr => exact .single .hookTr
  case hookTee => exact .single .hookTee
  case tick => exact .single .tick
  case era e =>
    split
    · rename_i h; exact .single (.era e h)
    · exact .refl
  case txFee p f t au =>
    cases h : RewM.txFee c w p f t au with
    | error e => exact .refl
    | ok w' => exact .single (.txFee ho h)
  case eraPayout => exact .single .eraPayout
  case mint a v => exact .single (.mint a v)
  case lock a v => exact .single (.lock a v ho)

/-- Worlds reachable by pallet-level transitions. -/
inductive MReach (c : Cfg) : World → Prop where
  | init {w : World} : Genesis c w → MReach c w
  | step {w w' : World} : MReach c w → Micro c w w' → MReach c w'

theorem MReach.many {w w'} (h : MReach c w) (r : Relation.ReflTransGen (Micro c) w w') :
    MReach c w' := by
  induction r with
  | refl => exact h
  | tail _ hm ih => exact ih.step hm

theorem Reach.micro {w} (h : Reach c w) : MReach c w := by
  induction h with
  | init hg => exact .init hg
  | step o _ ho ih => exact ih.many (step_micro _ o ho)
