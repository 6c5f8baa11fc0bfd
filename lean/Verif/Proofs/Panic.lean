import Verif.Proofs.Inv
import Verif.Proofs.AucTurn
/-
Which calls can panic.
-/
variable {c : Cfg} {w w' : World} {a : AccountId} {s : String}

theorem panic_require {p : Prop} [Decidable p] {e : String} : require p e = .error (.panic s) ↔ False := by
  simp [Exec.require_err]

theorem panic_getOr {α : Type} {o : Option α} {e : String} : getOr o e = .error (.panic s) ↔ False := by
  simp [Exec.getOr_err]

theorem panic_expect {α : Type} {o : Option α} {e : String} :
    expectSome o e = .error (.panic s) ↔ o = none ∧ s = e := by
  simp [Exec.expect_err]

theorem panic_pure {α : Type} {x : α} : (pure x : Except Err α) = .error (.panic s) ↔ False := by
  simp [pure, Except.pure]

theorem panic_e {α : Type} {x : String} : (Except.error (.e x) : Except Err α) = .error (.panic s) ↔ False := by
  simp

theorem panic_ok {α : Type} {x : α} : (Except.ok x : Except Err α) = .error (.panic s) ↔ False := by
  simp

/-- Turn `call … = .error (.panic s)` into its possible causes. -/
macro "inv_panic" " at " h:ident : tactic =>
  `(tactic| (simp only [Exec.bind_err, panic_require, panic_getOr, panic_expect, panic_pure, panic_e, panic_ok,
      Exec.bind_ok, Exec.require_ok, Exec.getOr_ok, Exec.expect_ok, Exec.pure_ok, Exec.ok_inj, Exec.exists_unit,
      false_or, or_false, and_false, false_and, exists_false] at $h:ident))

theorem panic_transfer {ed : Balance} {b : Bal} {x d v l} : b.transfer ed x d v l = .error (.panic s) ↔ False := by
  refine ⟨fun h => ?_, False.elim⟩
  unfold Bal.transfer at h
  split at h
  · simp at h
  · inv_panic at h

theorem panic_withdraw {ed : Balance} {b : Bal} {x v l} : b.withdraw ed x v l = .error (.panic s) ↔ False := by
  refine ⟨fun h => ?_, False.elim⟩
  unfold Bal.withdraw at h
  split at h
  · simp at h
  · inv_panic at h

theorem panic_payFee {ed : Balance} {b : Bal} {x v} : b.payFee ed x v = .error (.panic s) ↔ False := by
  refine ⟨fun h => ?_, False.elim⟩
  unfold Bal.payFee at h
  inv_panic at h
  exact panic_withdraw.1 h

theorem panic_mapErr {α : Type} {f : String → String} {x : Except Err α} {s : String} :
    mapErr f x = .error (.panic s) ↔ x = .error (.panic s) := by
  rcases x with (_ | _) | _ <;> simp [mapErr]

/-- same, with payments -/
macro "inv_panic'" " at " h:ident : tactic =>
  `(tactic| (simp only [Exec.bind_err, panic_require, panic_getOr, panic_expect, panic_pure, panic_e, panic_ok,
      panic_transfer, panic_withdraw, panic_payFee, panic_mapErr, Exec.mapErr_ok,
      Exec.bind_ok, Exec.require_ok, Exec.getOr_ok, Exec.expect_ok, Exec.pure_ok, Exec.ok_inj, Exec.exists_unit,
      false_or, or_false, and_false, false_and, exists_false] at $h:ident))

/-- The 32-bit counter the call takes its new id from is exhausted. -/
def Full (w : World) : Call → Prop
  | .nft (.createNft ..) => U32MAX ≤ w.nft.nextNft
  | .nft (.createSecret ..) => U32MAX ≤ w.nft.nextNft
  | .nft (.createCapsule ..) => U32MAX ≤ w.nft.nextNft
  | .nft (.createColl ..) => U32MAX ≤ w.nft.nextColl
  | .mkt (.create ..) => U32MAX ≤ w.mkt.next
  | .root (.tee (.createCluster ..)) => U32MAX ≤ w.tee.nextCluster
  | .mandate x => Full w x
  | _ => False

/-- Recorded shard lists are not empty. -/
def SomeShards (w : World) : Prop :=
  ∀ n, w.nft.secretShards.get n ≠ some [] ∧ w.nft.capsuleShards.get n ≠ some []

theorem exhausted {n : Nat} (h : (if n + 1 ≤ U32MAX then some (n + 1) else none) = none) : U32MAX ≤ n := by
  by_cases e : n + 1 ≤ U32MAX
  · rw [if_pos e] at h; simp at h
  · omega

theorem NftM.call_panic (hs : SomeShards w) {x : NftM.Call} (h : NftM.call c w a x = .error (.panic s)) :
    Full w (.nft x) := by
  have hp : ∀ {w : World} {n j}, pushToColl c w a n j = .error (.panic s) → False := by
    intro w n j h
    cases j with
    | none => simp [pushToColl, panic_pure] at h
    | some j => simp only [pushToColl] at h; inv_panic' at h
  have hpo : ∀ {w w' : World} {n j}, pushToColl c w a n j = .ok w' → w'.nft.nextNft = w.nft.nextNft := by
    intro w w' n j h
    cases j with
    | none => simp only [pushToColl] at h; inv_ok at h; rw [h]
    | some j => simp only [pushToColl] at h; inv_ok at h; obtain ⟨_, _, _, _, _, _, rfl⟩ := h; rfl
  have hc : ∀ {data roy coll sb}, createHelper c w a data roy coll sb = .error (.panic s) → U32MAX ≤ w.nft.nextNft := by
    intro data roy coll sb h
    simp only [createHelper, nextNftId] at h; inv_panic' at h
    obtain ⟨b, hb, h | ⟨w1, h1, h2, _⟩⟩ := h
    · exact (hp h).elim
    · rw [hpo h1] at h2
      exact exhausted h2
  have hsec : ∀ {w : World} {n data}, addSecretHelper c w a n data = .error (.panic s) → False := by
    intro w n data h
    simp only [addSecretHelper] at h; inv_panic' at h
  have hcap : ∀ {w : World} {n data}, toCapsuleHelper c w a n data = .error (.panic s) → False := by
    intro w n data h
    simp only [toCapsuleHelper] at h; inv_panic' at h
  have hsh : ∀ {o : Option (List (ClusterId × AccountId))} {x}, o ≠ some [] → pushShard c o x = .error (.panic s) → False := by
    intro o x ho h
    unfold pushShard at h
    split at h
    · rename_i l
      inv_panic' at h
      cases l with
      | nil => exact ho rfl
      | cons y t => simp at h
    · inv_panic' at h
  cases x <;> simp only [call] at h
  case createNft => exact hc h
  case addSecret => exact (hsec h).elim
  case toCapsule => exact (hcap h).elim
  case createSecret =>
    simp only [createSecret] at h; inv_panic' at h
    obtain ⟨_, h | ⟨w1, _, h⟩⟩ := h
    · exact hc h
    · exact (hsec h).elim
  case createCapsule =>
    simp only [createCapsule] at h; inv_panic' at h
    obtain ⟨_, h | ⟨w1, _, h⟩⟩ := h
    · exact hc h
    · exact (hcap h).elim
  case addSecretShard n =>
    simp only [addSecretShard] at h; inv_panic' at h
    obtain ⟨_, _, _, _, _, _, h⟩ := h
    exact (hsh (hs n).1 h).elim
  case addCapsuleShard n =>
    simp only [addCapsuleShard] at h; inv_panic' at h
    obtain ⟨_, _, _, _, _, _, h⟩ := h
    exact (hsh (hs n).2 h).elim
  case createColl =>
    simp only [createColl] at h; inv_panic' at h
    exact exhausted h.2.1
  case burnNft n =>
    simp only [burnNft] at h; inv_panic' at h
    obtain ⟨d, _, _, _, _, _, _, h⟩ := h
    cases hd : d.coll <;> simp only [hd, dropFromColl] at h <;> inv_panic' at h
  all_goals simp only [transferNft, delegateNft, setRoyalty, burnColl, closeColl,
    limitColl, addToColl, setCapsuleData, notifyKey, setCollData] at h
  all_goals inv_panic' at h

theorem MktM.call_panic {x : MktM.Call} (h : MktM.call c w a x = .error (.panic s)) : Full w (.mkt x) := by
  cases x <;> simp only [call] at h
  case create =>
    simp only [create] at h; inv_panic' at h
    obtain ⟨_, _, h, _⟩ := h
    exact exhausted h
  all_goals simp only [setOwner, setKind, setConfig, list, unlist, buy] at h
  all_goals inv_panic' at h

theorem AucM.paySeq_panic {src l} (t : List (AccountId × Balance)) (b : Bal) :
    (paySeq c b src l t).2 ≠ .error (.panic s) := by
  induction t generalizing b with
  | nil => simp [paySeq]
  | cons x t ih =>
    obtain ⟨d, v⟩ := x
    simp only [paySeq]
    split
    · rename_i e h
      intro h'
      simp only [Except.error.injEq] at h'
      subst h'
      exact panic_transfer.1 h
    · exact ih _

theorem AucM.payForNft_panic {n src v d x} : (payForNft c w n src v d x).2 ≠ .error (.panic s) := by
  unfold payForNft
  split
  · simp
  · split
    · simp
    · exact paySeq_panic _ _

theorem AucM.payForNftExt_panic {n src v d x} : payForNftExt c w n src v d x = .error (.panic s) ↔ False := by
  refine ⟨fun h => ?_, False.elim⟩
  unfold payForNftExt at h
  split at h
  · simp at h
  · rename_i e
    simp only [Except.error.injEq] at h
    subst h
    exact payForNft_panic (congrArg Prod.snd e)

theorem AucM.call_panic (hc : c.Ok) (hi : AucM.Inv c w) {x : AucM.Call}
    (h : AucM.call c w a x = .error (.panic s)) : False := by
  cases x <;> simp only [call] at h
  case addBid n v =>
    simp only [addBid] at h; inv_panic' at h
    obtain ⟨x, _, _, _, _, _, b, _, h | ⟨y, _, h⟩⟩ := h
    · obtain ⟨y, e⟩ := insertBid_no_panic (c := c) hc (l := removeBid a x.bids) (a := a) (v := v)
      rw [e] at h; simp at h
    · cases hx : (extend c { x with bids := y.2 } w.now).2 with
      | none => rw [hx] at h; simp [updateDeadline] at h
      | some e =>
        rw [hx] at h
        obtain ⟨q, e⟩ := Queue.update_no_panic (n := n) (b := e) hi.len
        simp [updateDeadline, e] at h
  all_goals simp only [create, cancel, end_, removeBidCall, buyItNow, claim] at h
  all_goals inv_panic' at h
  all_goals simp only [payForNftExt_panic, and_false, exists_false] at h

namespace RentM

/-- an action that does not panic -/
def Calm (x : Act) : Prop := ∀ w s, (x w).2 ≠ .error (.panic s)

theorem Calm.seq {x y : Act} (hx : Calm x) (hy : Calm y) : Calm (x.seq y) := by
  intro w s
  unfold Act.seq
  have := hx w s
  split
  · exact hy _ _
  · rename_i e; rw [e] at this; exact this

theorem Calm.skip : Calm Act.skip := by intro w s; simp [Act.skip]

theorem Calm.pay {x d v l} : Calm (payAct c x d v l) := by
  intro w s h
  unfold payAct at h
  split at h
  · simp at h
  · rename_i e
    simp only [Except.error.injEq] at h
    subst h
    exact panic_transfer.1 e

theorem Calm.chown {n y} : Calm (chownOpt n y) := by
  cases n with
  | none => exact .skip
  | some n =>
    intro w s h
    simp only [chownOpt, chownAct] at h
    split at h <;> simp at h

theorem Calm.ext {x : Act} (hx : Calm x) : x.ext w = .error (.panic s) ↔ False := by
  refine ⟨fun h => ?_, False.elim⟩
  have := hx w s
  unfold Act.ext at h
  split at h
  · simp at h
  · rename_i e
    simp only [Except.error.injEq] at h
    subst h
    rw [e] at this; exact this rfl

theorem Calm.finished {n} : Calm (handleFinished c n) := by
  intro w s h
  unfold handleFinished at h
  split at h
  · simp at h
  · split at h
    · simp at h
    · rename_i k _ _ d _
      refine Calm.seq .pay (.seq ?_ (.seq .chown (.seq ?_ ?_))) w s h
      · cases k.rentee
        · exact .skip
        · exact .pay
      · cases k.rentee
        · exact .skip
        · exact .chown
      · intro w s h; simp at h

theorem call_panic (hi : RInv c w) {x : RentM.Call} (h : RentM.call c w a x = .error (.panic s)) : False := by
  have hn : ∀ {w : World} {o}, checkNft w a o = .error (.panic s) → False := by
    intro w o h
    cases o <;> simp only [checkNft] at h <;> inv_panic' at h
  have hs : ∀ {n k r}, startContract c w n k r = .error (.panic s) → False := by
    intro n k r h
    have hn : ∀ {w : World} {o}, checkNft w r o = .error (.panic s) → False := by
      intro w o h
      cases o <;> simp only [checkNft] at h <;> inv_panic' at h
    simp only [startContract, takeFees] at h; inv_panic' at h
    simp only [Calm.chown.ext, and_false, exists_false, or_false] at h
    obtain ⟨_, _, _, _, h | ⟨_, h⟩⟩ := h
    · exact hn h
    · exact hn h
  cases x <;> simp only [call] at h
  case create n dur acc rv rentFee renterFee renteeFee =>
    simp only [create] at h; inv_panic' at h
    obtain ⟨_, _, _, _, _, _, _, _, _, _, _, _, _, _, _, _, _, _, h⟩ := h
    cases ho : feeNft renterFee <;> simp only [ho, depositRenterNft] at h <;> inv_panic' at h
  case cancel =>
    simp only [cancel] at h; inv_panic' at h
    simp only [Calm.finished.ext, and_false, exists_false] at h
  case revoke =>
    simp only [revoke] at h; inv_panic' at h
    simp only [(Calm.seq Calm.pay Calm.chown).ext, returnFee, false_or] at h
    obtain ⟨k, hk, r, hr, _, _, w1, h1, h⟩ := h
    have hnow : w1.now = w.now := by
      obtain ⟨b, h1, h2, rfl⟩ := returnFee_ok (f := if k.renter = a then k.renteeFee else k.renterFee) h1
      rfl
    unfold penalty at h
    split at h
    · unfold completion at h
      inv_panic' at h
      have hw := hi.q.con _ _ hk
      cases hst : k.start with
      | none => have := hw.start.1 hst; simp [this] at hr
      | some st =>
        have h2 := (hw.started st hst).2
        have h3 := hw.full.1
        simp only [hst, Option.some.injEq, reduceCtorEq, false_and, false_or] at h
        rcases h with ⟨x, e, h | h⟩ | ⟨p, _, h⟩
        · rw [if_pos (by omega)] at h; simp at h
        · rw [if_pos (c := full k.duration ≠ 0) (by omega)] at h; simp at h
        · exact (Calm.seq Calm.pay Calm.pay).ext.1 h
    · exact (Calm.seq Calm.pay Calm.chown).ext.1 h
  case rent =>
    simp only [rent] at h; inv_panic' at h
    obtain ⟨_, _, _, _, _, _, _, h⟩ := h
    exact hs h
  case acceptOffer =>
    simp only [acceptOffer] at h; inv_panic' at h
    obtain ⟨_, _, _, _, _, _, h⟩ := h
    exact hs h
  case makeOffer =>
    simp only [makeOffer] at h; inv_panic' at h
    obtain ⟨_, _, _, _, _, _, _, _, _, _, _, h | ⟨_, h⟩⟩ := h
    · exact hn h
    · exact hn h
  all_goals simp only [retractOffer, changeTerms, acceptTerms] at h
  all_goals inv_panic' at h

end RentM

theorem TrM.call_panic (hi : TrM.TrInv c w.tr) {x : TrM.Call} (h : TrM.call c w a x = .error (.panic s)) : False := by
  have hq : ∀ {q n o}, enqueue c q n o = .error (.panic s) → False := by
    intro q n o h
    cases o <;> simp only [enqueue] at h <;> inv_panic' at h
  have ht : ∀ {w n}, transmit w n = .error (.panic s) → False := by
    intro w n h
    simp only [transmit] at h; inv_panic' at h
  cases x <;> simp only [call] at h
  case set =>
    simp only [set] at h; inv_panic' at h
    obtain ⟨_, _, _, _, _, _, _, _, _, _, _, _, _, _, _, _, _, _, h⟩ := h
    exact hq h.2
  case remove => simp only [remove] at h; inv_panic' at h
  case resetTimer n b =>
    simp only [resetTimer] at h; inv_panic' at h
    obtain ⟨_, _, _, _, _, _, _, _, _, h⟩ := h
    obtain ⟨q, e⟩ := Queue.update_no_panic (n := n) (b := b) hi.len
    rw [e] at h; simp at h
  case addConsent =>
    simp only [addConsent] at h; inv_panic' at h
    obtain ⟨_, _, _, _, _, _, _, _, _, _, _, h⟩ := h
    unfold consentEffect at h
    split at h
    · simp [panic_pure] at h
    · split at h
      · split at h <;> inv_panic' at h
        · exact ht h
        · exact hq h
      · inv_panic' at h
        exact ht h

theorem TeeM.call_panic {x : TeeM.Call} (h : TeeM.call c w a x = .error (.panic s)) : False := by
  cases x <;> simp only [call] at h
  case unregister =>
    simp only [unregister, unregisterAssigned, dropRegistration] at h
    split at h <;> inv_panic' at h
  case submitReport =>
    simp only [submitReport] at h; inv_panic' at h
    obtain ⟨_, _, _, _, _, _, _, h⟩ := h
    unfold addReport at h
    split at h <;> inv_panic' at h
  all_goals simp only [register, update, dropUpdate, withdraw, claim, bondExtra, refundExcess] at h
  all_goals inv_panic' at h

theorem TeeM.root_panic {x : TeeM.RootCall} (h : TeeM.root c w x = .error (.panic s)) : Full w (.root (.tee x)) := by
  cases x <;> simp only [root] at h
  case createCluster =>
    simp only [createCluster] at h; inv_panic' at h
    obtain ⟨h, _⟩ := h
    show U32MAX ≤ w.tee.nextCluster
    by_contra hn
    rw [if_pos (by omega)] at h; simp at h
  case approveUpdate =>
    simp only [approveUpdate] at h; inv_panic' at h
    obtain ⟨u, _, _, _, e, _, h⟩ := h
    unfold approveAddr at h
    split at h <;> inv_panic' at h
  case forceUpdate =>
    simp only [forceUpdate] at h; inv_panic' at h
    obtain ⟨_, e, _, h⟩ := h
    unfold forceAddr at h
    split at h <;> inv_panic' at h
  case setWeights => simp at h
  case setStakingAmount => simp at h
  case setPool => simp at h
  all_goals simp only [assign, dropRegistration, dropUpdate, approveUnregister, unassign, forceRemove, updateCluster,
    removeCluster, registerServer, unregisterServer, setServerType, setAssignedEra] at h
  all_goals inv_panic' at h

theorem BrM.call_panic {x : BrM.Call} (h : BrM.call c w a x = .error (.panic s)) : False := by
  cases x <;> simp only [call] at h
  case vote =>
    simp only [voteFor] at h; inv_panic' at h
    obtain ⟨_, _, h⟩ := h
    unfold vote at h
    split at h <;> inv_panic' at h
  case deposit => simp only [deposit] at h; inv_panic' at h

theorem BrM.ext_panic {x : BrM.ExtCall} (h : BrM.ext c w x = .error (.panic s)) : False := by
  cases x <;> simp only [ext, setThreshold, addChain, setNonce] at h <;> inv_panic' at h

theorem dispatch_panic (hc : Cfg.Ok c) (hr : Reach c w) (hs : SomeShards w) {x : Call} {o : Origin}
    (h : dispatch c x o w = .error (.panic s)) : Full w x := by
  have hi := hr.inv hc
  have sgn : ∀ {a x}, signedCall c w a x = .error (.panic s) → Full w x := by
    intro a x h
    cases x <;> simp only [signedCall] at h
    case nft => exact NftM.call_panic hs h
    case mkt => exact MktM.call_panic h
    case auc => exact (AucM.call_panic hc (hr.auc hc) h).elim
    case rent => exact (RentM.call_panic hi.rent h).elim
    case tr => exact (TrM.call_panic hi.tr h).elim
    case tee => exact (TeeM.call_panic h).elim
    case br => exact (BrM.call_panic h).elim
    case bal => 
      exfalso
      generalize hb : w.bal.transfer c.ed a _ _ _ = r at h
      cases r with
      | ok b => simp [Except.map] at h
      | error e =>
        simp only [Except.map, Except.error.injEq] at h
        subst h
        exact panic_transfer.1 hb
    all_goals simp at h
  have man : ∀ {r : Except Err World}, mandateResult w r = .error (.panic s) → r = .error (.panic s) := by
    intro r h
    unfold mandateResult at h
    split at h <;> simp_all
  induction x generalizing o with
  | mandate x ih =>
    cases o with
    | signed a => exact sgn h
    | root => exact ih (man h)
    | ext => exact ih (man h)
  | root x =>
    cases o with
    | signed a => exact sgn h
    | root =>
      simp only [dispatch] at h
      cases x <;> simp only [rootCall] at h
      case tee => exact TeeM.root_panic h
      all_goals simp at h
    | ext => simp [dispatch] at h
  | ext x =>
    cases o with
    | signed a => exact sgn h
    | root => exact (BrM.ext_panic h).elim
    | ext => exact (BrM.ext_panic h).elim
  | _ => 
    cases o with
    | signed a => exact sgn h
    | _ => simp [dispatch] at h
