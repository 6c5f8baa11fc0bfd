import Verif.Props.TimeSpec
import Verif.Proofs.SymNft
/-
Calls that do not depend on the block number; hooks that find nothing due.
-/
open Spec Sym

/-- Pushes a change of the block number through a function that does not look at it. -/
macro "tim" "[" ls:Lean.Parser.Tactic.simpLemma,* "]" : tactic =>
  `(tactic| (simp only [map_bind', map_pure', bind_map', $ls,*]; rfl))

namespace NftM
variable (b : Block) (c : Cfg) (w : World) (who : AccountId)

theorem at_next : nextNftId (atBlock b w) = Except.map (fun x => (x.1, atBlock b x.2)) (nextNftId w) := by
  tim [nextNftId]

theorem at_push (id : NFTId) (x : Option CollId) :
    pushToColl c (atBlock b w) who id x = Except.map (atBlock b) (pushToColl c w who id x) := by
  cases x with
  | none => rfl
  | some x => tim [pushToColl]

theorem at_createHelper (d : Data) (r : Permill) (x : Option CollId) (s : Bool) :
    createHelper c (atBlock b w) who d r x s = Except.map (atBlock b) (createHelper c w who d r x s) := by
  have h : ∀ m, (atBlock b w).putBal m = atBlock b (w.putBal m) := fun _ => rfl
  have h' : ∀ w : World, (atBlock b w).nft = w.nft := fun _ => rfl
  tim [createHelper, h, h', at_push, at_next]

theorem at_addSecretHelper (n : NFTId) (d : Data) :
    addSecretHelper c (atBlock b w) who n d = Except.map (atBlock b) (addSecretHelper c w who n d) := by
  tim [addSecretHelper]

theorem at_toCapsuleHelper (n : NFTId) (d : Data) :
    toCapsuleHelper c (atBlock b w) who n d = Except.map (atBlock b) (toCapsuleHelper c w who n d) := by
  tim [toCapsuleHelper]

theorem at_dropFromColl (n : NFTId) (x : Option CollId) :
    dropFromColl (atBlock b w) n x = Except.map (atBlock b) (dropFromColl w n x) := by
  cases x with
  | none => rfl
  | some x => tim [dropFromColl]

theorem at_call (x : Call) : call c (atBlock b w) who x = Except.map (atBlock b) (call c w who x) := by
  have h : ∀ w : World, (atBlock b w).nft = w.nft := fun _ => rfl
  cases x with
  | createNft d r x s => exact at_createHelper b c w who d r x s
  | burnNft n => tim [call, burnNft, at_dropFromColl]
  | transferNft n a => tim [call, transferNft]
  | delegateNft n a => tim [call, delegateNft]
  | setRoyalty n r => tim [call, setRoyalty]
  | createColl d l => tim [call, createColl]
  | burnColl x => tim [call, burnColl]
  | closeColl x => tim [call, closeColl]
  | limitColl x l => tim [call, limitColl]
  | addToColl n x => tim [call, addToColl]
  | addSecret n d => exact at_addSecretHelper b c w who n d
  | createSecret d s r x y => tim [call, createSecret, at_createHelper, at_addSecretHelper, h]
  | addSecretShard n => tim [call, addSecretShard]
  | toCapsule n d => exact at_toCapsuleHelper b c w who n d
  | createCapsule d s r x y => tim [call, createCapsule, at_createHelper, at_toCapsuleHelper, h]
  | setCapsuleData n d => tim [call, setCapsuleData]
  | addCapsuleShard n => tim [call, addCapsuleShard]
  | notifyKey n => tim [call, notifyKey]
  | setCollData x d => tim [call, setCollData]

end NftM

namespace MktM
variable (b : Block) (c : Cfg) (w : World) (who : AccountId)

theorem at_call (x : Call) : call c (atBlock b w) who x = Except.map (atBlock b) (call c w who x) := by
  cases x with
  | create x => tim [call, create]
  | setOwner m a => tim [call, setOwner]
  | setKind m x => tim [call, setKind]
  | setConfig m f l a o x => tim [call, setConfig]
  | list n m p => tim [call, list]
  | unlist n => tim [call, unlist]
  | buy n p => tim [call, buy]

end MktM

namespace AucM
variable (b : Block) (c : Cfg) (w : World) (who : AccountId)

theorem at_call (x : Call) (h : Timed (.auc x) = false) :
    call c (atBlock b w) who x = Except.map (atBlock b) (call c w who x) := by
  cases x with
  | end_ n => tim [call, end_]
  | claim => tim [call, claim]
  | _ => exact absurd h (by simp [Timed])

end AucM

/-- `a` does the same at every block -/
structure AnyTime (b : Block) (a : Act) : Prop where
  eq : ∀ w, a (atBlock b w) = (atBlock b (a w).1, (a w).2)

theorem AnyTime.skip (b : Block) : AnyTime b Act.skip := ⟨fun _ => rfl⟩

theorem AnyTime.seq {b : Block} {a a' : Act} (h : AnyTime b a) (h' : AnyTime b a') : AnyTime b (a.seq a') := by
  refine ⟨fun w => ?_⟩
  simp only [Act.seq, h.eq w]
  rcases a w with ⟨w', _ | _⟩
  · rfl
  · exact h'.eq w'

theorem AnyTime.ext {b : Block} {a : Act} (h : AnyTime b a) (w : World) :
    a.ext (atBlock b w) = Except.map (atBlock b) (a.ext w) := by
  simp only [Act.ext, h.eq w]
  rcases a w with ⟨w', _ | _⟩ <;> rfl

namespace RentM
variable (b : Block) (c : Cfg) (w : World) (who : AccountId)

theorem at_pay (s d : AccountId) (v : Balance) (l : Live) : AnyTime b (payAct c s d v l) := by
  refine ⟨fun w => ?_⟩
  simp only [payAct, show (atBlock b w).bal = w.bal from rfl]
  cases w.bal.transfer c.ed s d v l <;> rfl

theorem at_chownOpt (n : Option NFTId) (a : AccountId) : AnyTime b (chownOpt n a) := by
  cases n with
  | none => exact .skip b
  | some n =>
    refine ⟨fun w => ?_⟩
    simp only [chownOpt, chownAct, show (atBlock b w).nfts = w.nfts from rfl]
    cases w.nfts.get n <;> rfl

theorem at_handleFinished (n : NFTId) : AnyTime b (handleFinished c n) := by
  refine ⟨fun w => ?_⟩
  simp only [handleFinished, show (atBlock b w).nfts = w.nfts from rfl, show (atBlock b w).rent = w.rent from rfl]
  cases w.rent.contracts.get n with
  | none => rfl
  | some t =>
    cases w.nfts.get n with
    | none => rfl
    | some d =>
      refine (AnyTime.seq (at_pay b c ..) (.seq ?_ (.seq (at_chownOpt b ..) (.seq ?_ ⟨fun _ => rfl⟩)))).eq w
      · cases t.rentee
        · exact .skip b
        · exact at_pay b c ..
      · cases t.rentee
        · exact .skip b
        · exact at_chownOpt b ..

theorem at_call (x : Call) (h : Timed (.rent x) = false) :
    call c (atBlock b w) who x = Except.map (atBlock b) (call c w who x) := by
  cases x with
  | cancel n =>
    have hh := fun w => (at_handleFinished b c n).ext w
    have hc : ∀ w : World, ({ atBlock b w with rent := { (atBlock b w).rent with
        availQ := (atBlock b w).rent.availQ.remove n, offers := (atBlock b w).rent.offers.erase n } } : World) =
        atBlock b { w with rent := { w.rent with availQ := w.rent.availQ.remove n, offers := w.rent.offers.erase n } } :=
      fun _ => rfl
    tim [call, cancel, hc, hh]
  | makeOffer n t => tim [call, makeOffer]
  | retractOffer n => tim [call, retractOffer]
  | changeTerms n f p m ch => tim [call, changeTerms]
  | acceptTerms n f p m ch => tim [call, acceptTerms]
  | _ => exact absurd h (by simp [Timed])

end RentM

namespace TeeM
variable (b : Block) (c : Cfg) (w : World) (who : AccountId)

theorem at_dropRegistration : dropRegistration (atBlock b w) who = Except.map (atBlock b) (dropRegistration w who) := by
  tim [dropRegistration]

theorem at_dropUpdate : dropUpdate (atBlock b w) who = Except.map (atBlock b) (dropUpdate w who) := by
  tim [dropUpdate]

theorem at_unassign : unassign (atBlock b w) who = Except.map (atBlock b) (unassign w who) := by
  tim [unassign]

theorem at_approveAddr (e : Enclave) (a : AccountId) :
    approveAddr (atBlock b w) who e a = Except.map (atBlock b) (approveAddr w who e a) := by
  simp only [approveAddr]
  split
  · rfl
  · tim []

theorem at_forceAddr (e : Enclave) (a : Option AccountId) :
    forceAddr (atBlock b w) who e a = Except.map (fun x => (atBlock b x.1, x.2)) (forceAddr w who e a) := by
  cases a with
  | none => rfl
  | some a =>
    by_cases h : e.addr = a
    · simp only [forceAddr, if_pos h]; tim []
    · simp only [forceAddr, if_neg h]; tim []

theorem at_call (x : Call) (h : Timed (.tee x) = false) :
    call c (atBlock b w) who x = Except.map (atBlock b) (call c w who x) := by
  cases x with
  | register a u => tim [call, register]
  | update a u => tim [call, update]
  | cancelUpdate => exact at_dropUpdate b w who
  | submitReport a r => tim [call, submitReport]
  | claim e => tim [call, claim]
  | bondExtra => tim [call, bondExtra]
  | refundExcess => tim [call, refundExcess]
  | _ => exact absurd h (by simp [Timed])

theorem at_root (x : RootCall) (h : Timed (.root (.tee x)) = false) :
    root c (atBlock b w) x = Except.map (atBlock b) (root c w x) := by
  cases x with
  | assign a s t => tim [root, assign]
  | removeRegistration a => exact at_dropRegistration b w a
  | rejectUpdate a => exact at_dropUpdate b w a
  | approveUnregister a => tim [root, approveUnregister, at_unassign]
  | forceRemove a => exact absurd h (by simp [Timed])
  | approveUpdate a => tim [root, approveUpdate, at_approveAddr]
  | forceUpdate a y u => tim [root, forceUpdate, at_forceAddr]
  | createCluster t => tim [root, createCluster]
  | updateCluster x t => tim [root, updateCluster]
  | removeCluster x => tim [root, removeCluster]
  | registerServer s => tim [root, registerServer]
  | unregisterServer a => tim [root, unregisterServer]
  | setServerType a t => tim [root, setServerType]
  | setWeights p => rfl
  | setStakingAmount x => rfl
  | setPool x => rfl
  | setAssignedEra a e => tim [root, setAssignedEra]

end TeeM

namespace BrM
variable (b : Block) (c : Cfg) (w : World) (who : AccountId)

theorem at_call (x : Call) (h : Timed (.br x) = false) :
    call c (atBlock b w) who x = Except.map (atBlock b) (call c w who x) := by
  cases x with
  | vote x t => exact absurd h (by simp [Timed])
  | deposit v r x => tim [call, deposit]

theorem at_ext (x : ExtCall) : ext c (atBlock b w) x = Except.map (atBlock b) (ext c w x) := by
  cases x with
  | setThreshold t => tim [ext, setThreshold]
  | addChain x => tim [ext, addChain]
  | setRelayers l => rfl
  | setNonce x n => tim [ext, setNonce]
  | setFee x => rfl
  | setExtra x => rfl

end BrM

section
variable (b : Block) (c : Cfg) (w : World)

theorem at_signed (a : AccountId) (x : Call) (h : Timed x = false) :
    signedCall c (atBlock b w) a x = Except.map (atBlock b) (signedCall c w a x) := by
  cases x with
  | nft x => exact NftM.at_call b c w a x
  | mkt x => exact MktM.at_call b c w a x
  | auc x => exact AucM.at_call b c w a x h
  | rent x => exact RentM.at_call b c w a x h
  | tr x => exact absurd h (by simp [Timed])
  | tee x => exact TeeM.at_call b c w a x h
  | br x => exact BrM.at_call b c w a x h
  | bal d v l =>
    show Except.map _ (w.bal.transfer c.ed a d v l) = _
    simp only [signedCall]
    cases w.bal.transfer c.ed a d v l <;> rfl
  | root _ => rfl
  | ext _ => rfl
  | mandate _ => rfl

theorem at_rootCall (x : RootCall) (h : Timed (.root x) = false) :
    rootCall c (atBlock b w) x = Except.map (atBlock b) (rootCall c w x) := by
  cases x with
  | tee r => exact TeeM.at_root b c w r h
  | trFee x v => cases x <;> rfl
  | _ => rfl

theorem at_dispatch (x : Call) (o : Origin) (h : Timed x = false) :
    dispatch c x o (atBlock b w) = Except.map (atBlock b) (dispatch c x o w) := by
  induction x generalizing o with
  | mandate x ih =>
    have hm : ∀ r : Except Err World, mandateResult (atBlock b w) (Except.map (atBlock b) r) =
        Except.map (atBlock b) (mandateResult w r) := by
      intro r
      rcases r with (_ | _) | _ <;> rfl
    cases o with
    | signed a => rfl
    | root => simp only [dispatch, ih .root h, hm]
    | ext => simp only [dispatch, ih .root h, hm]
  | root x =>
    cases o with
    | signed a => rfl
    | root => exact at_rootCall b c w x h
    | ext => rfl
  | ext x =>
    cases o with
    | signed a => rfl
    | root => exact BrM.at_ext b c w x
    | ext => exact BrM.at_ext b c w x
  | nft x => cases o with | signed a => exact at_signed b c w a (.nft x) h | _ => rfl
  | mkt x => cases o with | signed a => exact at_signed b c w a (.mkt x) h | _ => rfl
  | auc x => cases o with | signed a => exact at_signed b c w a (.auc x) h | _ => rfl
  | rent x => cases o with | signed a => exact at_signed b c w a (.rent x) h | _ => rfl
  | tr x => cases o with | signed a => exact at_signed b c w a (.tr x) h | _ => rfl
  | tee x => cases o with | signed a => exact at_signed b c w a (.tee x) h | _ => rfl
  | br x => cases o with | signed a => exact at_signed b c w a (.br x) h | _ => rfl
  | bal d v l => cases o with | signed a => exact at_signed b c w a (.bal d v l) h | _ => rfl

end

/-! ## hooks that find nothing due -/

namespace AucM
theorem hook_quiet {c : Cfg} {w : World} (h : ∀ x ∈ w.auc.deadlines, w.now < x.2) : hook c w = w := by
  unfold hook
  cases hq : w.auc.deadlines with
  | nil => simp only [hookLoop, ← hq]
  | cons x t =>
    rw [hq] at h
    have : ¬ x.2 ≤ w.now := by have := h x (by simp); omega
    simp only [hookLoop, if_neg this, ← hq]
end AucM

namespace RentM
theorem finish_quiet {c : Cfg} {w : World} {q : Queue} (k : Nat) (h : ∀ x ∈ q, w.now < x.2) : finishLoop c w q k = (w, q, k) := by
  cases q with
  | nil => rfl
  | cons x t =>
    have : ¬ x.2 ≤ w.now := by have := h x (by simp); omega
    simp only [finishLoop, if_neg this]

theorem sub_quiet {c : Cfg} {w : World} {q : Queue} (k f : Nat) (h : ∀ x ∈ q, w.now < x.2) : subLoop c w q k f = (w, q, k) := by
  cases f with
  | zero => rfl
  | succ f =>
    cases q with
    | nil => rfl
    | cons x t =>
      have : ¬ x.2 ≤ w.now := by have := h x (by simp); omega
      simp only [subLoop, if_neg this]

theorem hook_quiet {c : Cfg} {w : World} (h1 : ∀ x ∈ w.rent.fixedQ, w.now < x.2) (h2 : ∀ x ∈ w.rent.subQ, w.now < x.2)
    (h3 : ∀ x ∈ w.rent.availQ, w.now < x.2) : hook c w = w := by
  simp [hook, finish_quiet _ h1, sub_quiet _ _ h2, finish_quiet _ h3]
end RentM

namespace TrM
theorem hook_quiet {c : Cfg} {w : World} (h : ∀ x ∈ w.tr.queue, w.now < x.2) : hook c w = w := by
  unfold hook
  cases hq : w.tr.queue with
  | nil => simp [hookLoop]
  | cons x t =>
    rw [hq] at h
    have : ¬ x.2 ≤ w.now := by have := h x (by simp); omega
    simp [hookLoop, this]
end TrM

theorem FMap.filterKeys_all {K V : Type} [DecidableEq K] (m : FMap K V) (p : K → Bool) (h : ∀ k, m.get k ≠ none → p k = true) :
    m.filterKeys p = m := by
  have hl : m.l.filter (fun x => p x.1) = m.l := by
    refine List.filter_eq_self.mpr fun x hx => h x.1 ?_
    rw [FMap.get_some_iff_mem.mpr hx]
    exact Option.some_ne_none _
  cases m
  simp only [filterKeys] at hl ⊢
  congr

namespace TeeM
theorem hook_quiet {c : Cfg} {w : World} (h : Tidy c w) : hook c w = w := by
  unfold hook
  cases ha : w.active with
  | none => rfl
  | some e =>
    simp only
    split
    · rename_i hh
      have h' := fun x hx => h e ha x hx
      unfold clearEra
      rw [FMap.filterKeys_all, FMap.filterKeys_all]
      · intro x hx
        by_contra hc
        exact hx (h' x (by simp at hc; omega)).1
      · intro x hx
        by_contra hc
        exact hx (h' x (by simp at hc; omega)).2
    · rfl
end TeeM

/-- Blocks in which nothing falls due only pass. -/
theorem wait_run {c : Cfg} {w : World} (ht : Tidy c w) (l : List Op) (hl : ∀ o ∈ l, IsBlock o = true) :
    ∀ b, Quiet w (b + blocks l) → run c (atBlock b w) l = atBlock (b + blocks l) w := by
  induction l with
  | nil => intro b _; rfl
  | cons o t ih =>
    intro b hq
    have ih := ih (fun o ho => hl o (List.mem_cons_of_mem _ ho))
    have hle : ∀ q ∈ [w.auc.deadlines, w.rent.fixedQ, w.rent.subQ, w.rent.availQ, w.tr.queue], ∀ x ∈ q, b < x.2 :=
      fun q h x hx => Nat.lt_of_le_of_lt (Nat.le_add_right _ _) (hq q h x hx)
    have ho := hl o List.mem_cons_self
    cases o with
    | tick =>
      have e : b + blocks (.tick :: t) = (b + 1) + blocks t := by
        have : blocks (.tick :: t) = blocks t + 1 := by simp [blocks]
        omega
      rw [e] at hq ⊢
      exact ih (b + 1) hq
    | hookAuc =>
      have : step c (atBlock b w) .hookAuc = atBlock b w := AucM.hook_quiet (hle w.auc.deadlines (by simp))
      rw [run, this]; exact ih b hq
    | hookRent =>
      have : step c (atBlock b w) .hookRent = atBlock b w :=
        RentM.hook_quiet (hle w.rent.fixedQ (by simp)) (hle w.rent.subQ (by simp)) (hle w.rent.availQ (by simp))
      rw [run, this]; exact ih b hq
    | hookTr =>
      have : step c (atBlock b w) .hookTr = atBlock b w := TrM.hook_quiet (hle w.tr.queue (by simp))
      rw [run, this]; exact ih b hq
    | hookTee =>
      have : step c (atBlock b w) .hookTee = atBlock b w := TeeM.hook_quiet (w := atBlock b w) ht
      rw [run, this]; exact ih b hq
    | _ => simp [IsBlock] at ho

/-- The TEE pallet tidies up at every block. -/
theorem hook_tidy (c : Cfg) (w : World) : Tidy c (TeeM.hook c w) := by
  unfold TeeM.hook
  intro e he x hx
  cases ha : w.active with
  | none => rw [ha] at he; simp [ha] at he
  | some e' =>
    simp only [ha] at he ⊢
    split at he
    · rename_i hh
      have : some e' = some e := by rw [← ha]; exact he
      cases this
      have hx' : ¬ x.1 ≠ e - c.history := by omega
      rw [if_pos hh]
      constructor
      · show (w.tee.claimed.filterKeys _).get x = none
        rw [FMap.get_filterKeys]; simp only [decide_eq_true_eq]; rw [if_neg hx']
      · show (w.tee.reports.filterKeys _).get x = none
        rw [FMap.get_filterKeys]; simp only [decide_eq_true_eq]; rw [if_neg hx']
    · rename_i hh
      have : some e' = some e := by rw [← ha]; exact he
      cases this
      omega
