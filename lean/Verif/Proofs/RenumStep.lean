import Verif.Proofs.RenumRent
import Verif.Proofs.MktStep
import Verif.Props.Sync
/-
Renumbering commutes with the transmission, TEE and bridge pallets, and with every operation of the chain.
-/
open Spec Sym

namespace TrM
variable (ρ : Num) (c : Cfg) (w : World) (who : AccountId)

theorem num_transmit (n : NFTId) : transmit (ρ.world w) (ρ.n n) = Except.map ρ.world (transmit w n) := by
  num [transmit, Num.trSt]

theorem num_enqueue (q : Queue) (n : NFTId) (o : Option Block) :
    enqueue (ρ.cfg c) (ρ.queue q) (ρ.n n) o = Except.map ρ.queue (enqueue c q n o) := by
  cases o with
  | none => rfl
  | some b => simp [enqueue, Num.cfg]

theorem num_fee (t : TrSt) (k : ProtocolKind) : protocolFee (ρ.trSt t) k = protocolFee t k := by cases k <;> rfl

theorem num_cleanup (t : TrSt) (n : NFTId) (k : ProtocolKind) : cleanup (ρ.trSt t) (ρ.n n) k = ρ.trSt (cleanup t n k) := by
  cases k <;> simp [cleanup, Num.trSt]

theorem num_consentEffect (n : NFTId) (p : Protocol) (t : Nat) (l : List AccountId) :
    consentEffect (ρ.cfg c) (ρ.world w) (ρ.n n) p t l who = Except.map ρ.world (consentEffect c w n p t l who) := by
  have he : ({ ρ.world w with tr := { (ρ.world w).tr with consents := (ρ.world w).tr.consents.erase (ρ.n n) } } : World) =
      ρ.world { w with tr := { w.tr with consents := w.tr.consents.erase n } } := by
    simp [Num.world, Num.trSt]
  have hi : ({ ρ.world w with tr := { (ρ.world w).tr with consents := (ρ.world w).tr.consents.insert (ρ.n n) l } } : World) =
      ρ.world { w with tr := { w.tr with consents := w.tr.consents.insert n l } } := by
    simp [Num.world, Num.trSt]
  have hq : ∀ q, ({ ρ.world w with tr := { (ρ.world w).tr with
      queue := ρ.queue q, consents := (ρ.world w).tr.consents.erase (ρ.n n) } } : World) =
      ρ.world { w with tr := { w.tr with queue := q, consents := w.tr.consents.erase n } } := by
    intro q
    simp [Num.world, Num.trSt]
  have hv : (Ev.consentAdded (ρ.n n) who) = ρ.ev (.consentAdded n who) := rfl
  have hv' : (Ev.transmitted (ρ.n n)) = ρ.ev (.transmitted n) := rfl
  have hnow : (ρ.world w).now = w.now := rfl
  have hqq : (ρ.world w).tr.queue = ρ.queue w.tr.queue := rfl
  simp only [consentEffect, he, hi, num_transmit, bind_map']
  simp only [hnow, hqq, num_enqueue, bind_map', hq]
  split
  · rw [hv, Num.world_ev]; rfl
  · split
    · split
      · simp only [map_bind', map_pure', ← Num.world_ev]; rfl
      · simp only [map_bind', map_pure', ← Num.world_ev, ← hq]; rfl
    · simp only [map_bind', map_pure', ← Num.world_ev]; rfl

theorem num_call (x : Call) : call (ρ.cfg c) (ρ.world w) who (ρ.trCall x) = Except.map ρ.world (call c w who x) := by
  have hn : ∀ n, (ρ.world w).nfts.get (ρ.n n) = (w.nfts.get n).map ρ.nft := fun n => FMap.mapk_get ρ.n ρ.nInj ..
  have ht : ∀ n, (ρ.world w).tr.trans.get (ρ.n n) = (w.tr.trans.get n).map id := fun n => FMap.mapk_get ρ.n ρ.nInj ..
  have ho : ∀ n, (ρ.world w).tr.consents.get (ρ.n n) = (w.tr.consents.get n).map id := fun n => FMap.mapk_get ρ.n ρ.nInj ..
  have hqq : (ρ.world w).tr.queue = ρ.queue w.tr.queue := rfl
  cases x with
  | set n a p k =>
    have ht : protocolFee (ρ.world w).tr = protocolFee w.tr := funext fun k => num_fee ρ w.tr k
    have hb : (ρ.world w).bal = w.bal := rfl
    simp only [call, Num.trCall, set, hn, getOr_map', bind_map', map_bind', ht, hqq, num_enqueue]
    num [Num.trSt, World.ev, Num.ev]
  | remove n =>
    simp [-bind_pure_comp, call, Num.trCall, remove, hn, ht]
    simp [-bind_pure_comp, Num.world, Num.nft, World.putNft, num_cleanup]
    num [Num.trSt]
  | resetTimer n b =>
    simp [-bind_pure_comp, call, Num.trCall, resetTimer, hn, ht]
    num [Num.trSt]
  | addConsent n =>
    simp only [call, Num.trCall, addConsent, hn, ht, ho, getOr_map', bind_map', map_bind', Option.map_id, id, num_consentEffect]
    num [Num.trSt]

theorem num_setFee (k : ProtocolKind) (v : Balance) : setFee (ρ.world w) k v = ρ.world (setFee w k v) := by
  cases k <;> rfl

theorem num_hookOne (n : NFTId) : hookOne (ρ.world w) (ρ.n n) = (ρ.world (hookOne w n).1, (hookOne w n).2) := by
  simp only [hookOne, num_transmit]
  cases transmit w n <;> rfl

theorem num_hookLoop (q : Queue) (k : Nat) :
    hookLoop (ρ.cfg c) (ρ.world w) (ρ.queue q) k =
      (ρ.world (hookLoop c w q k).1, ρ.queue (hookLoop c w q k).2.1, (hookLoop c w q k).2.2) := by
  induction q generalizing w k with
  | nil => rfl
  | cons x t ih =>
    have ih' := fun w k => ih w k
    simp only [Num.queue] at ih'
    simp only [Num.queue, List.map_cons, hookLoop, num_hookOne, ih']
    rw [show (ρ.world w).now = w.now from rfl, show (ρ.cfg c).trActions = c.trActions from rfl]
    split
    · generalize (if (hookOne w x.1).2 = true then k + 1 else k) = k'
      split <;> rfl
    · rfl

theorem num_hook : hook (ρ.cfg c) (ρ.world w) = ρ.world (hook c w) := by
  simp only [hook, show (ρ.world w).tr.queue = ρ.queue w.tr.queue from rfl, num_hookLoop]
  split <;> rfl

end TrM

namespace TeeM
variable (ρ : Num) (c : Cfg) (w : World) (who : AccountId)

theorem num_unassign : unassign (ρ.world w) who = Except.map ρ.world (unassign w who) := by
  have h1 : ∀ l : List (AccountId × SlotId), swapRemoveBy (fun x => decide (x.1 = who)) (l.map ρ.member) =
      (swapRemoveBy (fun x => decide (x.1 = who)) l).map ρ.member := fun l =>
    ren_swapRemoveBy ρ.member _ _ (fun x => rfl) l
  num [unassign, Num.teeSt, Num.cluster, h1]

theorem num_dropRegistration : dropRegistration (ρ.world w) who = Except.map ρ.world (dropRegistration w who) := by
  num [dropRegistration, Num.teeSt]

theorem num_dropUpdate : dropUpdate (ρ.world w) who = Except.map ρ.world (dropUpdate w who) := by
  num [dropUpdate, Num.teeSt]

theorem num_approveAddr (e : Enclave) (a : AccountId) :
    approveAddr (ρ.world w) who e a = Except.map ρ.world (approveAddr w who e a) := by
  simp only [approveAddr]
  split
  · rfl
  · num [Num.teeSt]

theorem num_forceAddr (e : Enclave) (a : Option AccountId) :
    forceAddr (ρ.world w) who e a = Except.map (fun x => (ρ.world x.1, x.2)) (forceAddr w who e a) := by
  cases a with
  | none => rfl
  | some a =>
    by_cases h : e.addr = a
    · num [forceAddr, h]
    · num [forceAddr, h, Num.teeSt]

theorem num_share (t : TeeSt) : share (ρ.teeSt t) = share t := by
  simp [share, Num.teeSt]

theorem num_reward (e : Era) : reward (ρ.world w).tee e who = reward w.tee e who := by
  have h : share (ρ.world w).tee = share w.tee := num_share ρ w.tee
  simp only [reward, h]
  rfl

theorem num_call (x : Call) : call (ρ.cfg c) (ρ.world w) who x = Except.map ρ.world (call c w who x) := by
  cases x with
  | register a u => num [call, register, Num.teeSt]
  | unregister =>
    have h : (ρ.world w).tee.data.get who = w.tee.data.get who := rfl
    simp only [call, unregister, h]
    cases w.tee.data.get who with
    | none => exact num_dropRegistration ρ w who
    | some e => num [unregisterAssigned, Num.teeSt]
  | update a u => num [call, update, Num.teeSt]
  | cancelUpdate => exact num_dropUpdate ρ w who
  | withdraw => num [call, withdraw, Num.teeSt]
  | submitReport a r =>
    have h : ∀ l r, addReport (ρ.cfg c) l r = addReport c l r := fun _ _ => rfl
    simp only [call, submitReport, h]
    num [Num.teeSt, World.ev, Num.ev]
  | claim e =>
    simp only [call, claim, num_reward]
    num [Num.teeSt, World.ev, Num.ev]
  | bondExtra => num [call, bondExtra, Num.teeSt]
  | refundExcess => num [call, refundExcess, Num.teeSt]

theorem num_root (hk : ρ.Keeps w) (x : RootCall) : root (ρ.cfg c) (ρ.world w) (ρ.teeRoot x) = Except.map ρ.world (root c w x) := by
  have hcl := hk.cl _ (Nat.le_refl _)
  cases x with
  | assign a k s => num [root, Num.teeRoot, assign, Num.teeSt, Num.cluster, Num.member]
  | removeRegistration a => exact num_dropRegistration ρ w a
  | rejectUpdate a => exact num_dropUpdate ρ w a
  | approveUnregister a =>
    simp only [root, Num.teeRoot, approveUnregister, num_unassign, map_bind']
    num [Num.teeSt]
  | forceRemove a =>
    simp only [root, Num.teeRoot, forceRemove, num_unassign, map_bind', bind_map']
    num [Num.teeSt]
  | approveUpdate a =>
    simp only [root, Num.teeRoot, approveUpdate, num_approveAddr, map_bind', bind_map']
    num [Num.teeSt]
  | forceUpdate a b u =>
    simp only [root, Num.teeRoot, forceUpdate, num_forceAddr, map_bind', bind_map']
    num [Num.teeSt]
  | createCluster t => num [root, Num.teeRoot, createCluster, Num.teeSt, Num.cluster, hcl]
  | updateCluster k t => num [root, Num.teeRoot, updateCluster, Num.teeSt, Num.cluster]
  | removeCluster k => num [root, Num.teeRoot, removeCluster, Num.teeSt, Num.cluster]
  | registerServer s => num [root, Num.teeRoot, registerServer, Num.teeSt]
  | unregisterServer a => num [root, Num.teeRoot, unregisterServer, Num.teeSt]
  | setServerType a t => num [root, Num.teeRoot, setServerType, Num.teeSt]
  | setWeights p => rfl
  | setStakingAmount x => rfl
  | setPool x => rfl
  | setAssignedEra a e => num [root, Num.teeRoot, setAssignedEra, Num.teeSt]

theorem num_hook : hook (ρ.cfg c) (ρ.world w) = ρ.world (hook c w) := by
  simp only [hook, show (ρ.world w).active = w.active from rfl, show (ρ.cfg c).history = c.history from rfl]
  cases w.active with
  | none => rfl
  | some e =>
    simp only
    split
    · rfl
    · rfl

end TeeM

namespace BrM
variable (ρ : Num) (c : Cfg) (w : World) (who : AccountId)

theorem num_vote (o : Option Proposal) : vote (ρ.cfg c) (ρ.world w) who o = vote c w who o := by
  cases o <;> rfl

theorem num_payout (k : ChainId) (t : Transfer) (b : Bool) :
    payout (ρ.cfg c) (ρ.world w) (ρ.chain k) t b = ρ.world (payout c w k t b) := by
  cases b <;> rfl

theorem num_allowed (k : ChainId) : allowed (ρ.world w) (ρ.chain k) = allowed w k := by
  simp [allowed, Num.world, Num.brSt]

theorem num_call (x : Call) : call (ρ.cfg c) (ρ.world w) who (ρ.brCall x) = Except.map ρ.world (call c w who x) := by
  cases x with
  | vote k t =>
    have h1 : (ρ.world w).br.votes.get (ρ.chain k, t) = (w.br.votes.get (k, t)).map id :=
      FMap.mapk_get ρ.chainTransfer ρ.chainTransfer_inj _ _ (k, t)
    have h3 : (ρ.world w).br.relayers = w.br.relayers := rfl
    have h4 : ∀ p, ({ ρ.world w with br := { (ρ.world w).br with
        votes := (ρ.world w).br.votes.insert (ρ.chain k, t) p } } : World) =
        ρ.world { w with br := { w.br with votes := w.br.votes.insert (k, t) p } } := by
      intro p
      have : ∀ m : FMap (ChainId × Transfer) Proposal, (m.insert (k, t) p).mapk ρ.chainTransfer ρ.chainTransfer_inj id =
        (m.mapk ρ.chainTransfer ρ.chainTransfer_inj id).insert (ρ.chain k, t) p := fun m => FMap.mapk_insert ..
      simp [Num.world, Num.brSt, this]
    have h5 : Ev.voted (ρ.chain k) t who = ρ.ev (.voted k t who) := rfl
    have h6 : ∀ p b, payout (ρ.cfg c) (World.ev { ρ.world w with br := { (ρ.world w).br with
        votes := (ρ.world w).br.votes.insert (ρ.chain k, t) p } } (Ev.voted (ρ.chain k) t who)) (ρ.chain k) t b =
        ρ.world (payout c (World.ev { w with br := { w.br with votes := w.br.votes.insert (k, t) p } } (.voted k t who)) k t b) := by
      intro p b
      rw [h4, h5, Num.world_ev, num_payout]
    simp only [call, Num.brCall, voteFor, h1, num_vote, num_allowed, Option.map_id, id, map_bind', map_pure', h6]
    rfl
  | deposit v r k =>
    simp [-bind_pure_comp, call, Num.brCall, deposit, num_allowed]
    num [Num.brSt, World.ev, Num.ev]

theorem num_ext (x : ExtCall) : ext (ρ.cfg c) (ρ.world w) (ρ.extCall x) = Except.map ρ.world (ext c w x) := by
  cases x with
  | setThreshold t =>
    simp only [ext, Num.extCall, setThreshold, map_bind', map_pure']
    rfl
  | addChain k =>
    simp only [ext, Num.extCall, addChain, num_allowed]
    num [ext, Num.extCall, addChain, Num.brSt]
  | setRelayers l => rfl
  | setNonce k n => num [ext, Num.extCall, setNonce, Num.brSt]
  | setFee x => rfl
  | setExtra x => rfl

end BrM

namespace RewM
variable (ρ : Num) (c : Cfg) (w : World)

theorem num_txFee (p : AccountId) (f t : Balance) (a : Option AccountId) :
    txFee (ρ.cfg c) (ρ.world w) p f t a = Except.map ρ.world (txFee c w p f t a) := by
  have h : ∀ b, tipTo (ρ.cfg c) b t a = tipTo c b t a := fun b => by cases a <;> rfl
  simp only [txFee, h, map_bind', map_pure']
  rfl

theorem num_eraPayout : eraPayout (ρ.cfg c) (ρ.world w) = (ρ.world (eraPayout c w).1, (eraPayout c w).2) := by
  have hb : (ρ.world w).bal = w.bal := rfl
  have he : (ρ.cfg c).ed = c.ed := rfl
  have hp : (ρ.cfg c).rewPot = c.rewPot := rfl
  have hr : (ρ.world w).rew = w.rew := rfl
  simp only [eraPayout, hb, he, hp, hr]
  cases w.bal.withdraw c.ed c.rewPot (min (w.bal.freeOf c.rewPot) w.rew.extra) .allowDeath <;> rfl

end RewM

/-- NFT numbers are never taken back -/
theorem step_nextNft {c : Cfg} {w : World} (hc : c.Ok) (hr : Reach c w) (o : Op) (ho : o.Ok c) :
    w.nft.nextNft ≤ (_root_.step c w o).nft.nextNft := by
  rcases step_core hc hr o ho with ⟨a, x, rfl, ha, h⟩ | ⟨_, h2⟩
  · generalize _root_.step c w _ = w' at h
    have hs : ∀ {w w' : World} {n data}, NftM.addSecretHelper c w a n data = .ok w' → w'.nft.nextNft = w.nft.nextNft := by
      intro w w' n data h
      simp only [NftM.addSecretHelper] at h; frame_auto at h; rfl
    have ht : ∀ {w w' : World} {n data}, NftM.toCapsuleHelper c w a n data = .ok w' → w'.nft.nextNft = w.nft.nextNft := by
      intro w w' n data h
      simp only [NftM.toCapsuleHelper] at h; frame_auto at h; rfl
    cases x <;> simp only [NftM.call] at h
    case createNft => rw [NftM.num_helper_next c a h]; omega
    case createSecret =>
      simp only [NftM.createSecret] at h; inv_ok at h
      obtain ⟨w1, _, h1, h2⟩ := h
      rw [hs h2, NftM.num_helper_next c a h1]; omega
    case createCapsule =>
      simp only [NftM.createCapsule] at h; inv_ok at h
      obtain ⟨w1, _, h1, h2⟩ := h
      rw [ht h2, NftM.num_helper_next c a h1]; omega
    case addSecret => exact Nat.le_of_eq (hs h).symm
    case toCapsule => exact Nat.le_of_eq (ht h).symm
    case burnNft n =>
      simp only [NftM.burnNft] at h
      inv_ok at h
      obtain ⟨d, w1, hd, _, _, _, _, _, h5, rfl⟩ := h
      have : w1.nft.nextNft = w.nft.nextNft := by
        cases hc : d.coll with
        | none => rw [hc] at h5; simp only [NftM.dropFromColl] at h5; inv_ok at h5; subst h5; rfl
        | some k' =>
          rw [hc] at h5
          simp only [NftM.dropFromColl] at h5; inv_ok at h5
          obtain ⟨col1, hk1, hm, rfl⟩ := h5
          rfl
      simp only [this]; exact Nat.le_refl _
    all_goals
      simp only [NftM.transferNft, NftM.delegateNft, NftM.setRoyalty, NftM.notifyKey, NftM.setCapsuleData, NftM.addSecretShard,
        NftM.addCapsuleShard, NftM.closeColl, NftM.limitColl, NftM.setCollData, NftM.addToColl, NftM.createColl, NftM.burnColl] at h
      frame_auto at h
      exact Nat.le_refl _
  · rw [h2]

namespace Spec.Num
variable (ρ : Num) (c : Cfg) (w : World)

theorem signedCall (hk : ρ.Keeps w) (a : AccountId) (x : Call) :
    _root_.signedCall (ρ.cfg c) (ρ.world w) a (ρ.call x) = Except.map ρ.world (_root_.signedCall c w a x) := by
  cases x with
  | nft x => exact NftM.num_call ρ c w a hk x
  | mkt x => exact MktM.num_call ρ c w a hk x
  | auc x => exact AucM.num_call ρ c w a x
  | rent x => exact RentM.num_call ρ c w a x
  | tr x => exact TrM.num_call ρ c w a x
  | tee x => exact TeeM.num_call ρ c w a x
  | br x => exact BrM.num_call ρ c w a x
  | bal d v l =>
    show Except.map _ (w.bal.transfer c.ed a d v l) = _
    simp only [_root_.signedCall]
    cases w.bal.transfer c.ed a d v l <;> rfl
  | root _ => rfl
  | ext _ => rfl
  | mandate _ => rfl

theorem rootCall_eq (hk : ρ.Keeps w) (x : RootCall) :
    _root_.rootCall (ρ.cfg c) (ρ.world w) (ρ.rootCall x) = Except.map ρ.world (_root_.rootCall c w x) := by
  cases x with
  | tee r => exact TeeM.num_root ρ c w hk r
  | trFee k v => exact congrArg Except.ok (TrM.num_setFee ρ w k v)
  | _ => rfl

theorem mandateResult (r : Except Err World) :
    _root_.mandateResult (ρ.world w) (Except.map ρ.world r) = Except.map ρ.world (_root_.mandateResult w r) := by
  rcases r with (_ | _) | _ <;> rfl

theorem dispatch (hk : ρ.Keeps w) (x : Call) (o : Origin) :
    _root_.dispatch (ρ.cfg c) (ρ.call x) o (ρ.world w) = Except.map ρ.world (_root_.dispatch c x o w) := by
  induction x generalizing o with
  | mandate x ih =>
    cases o with
    | signed a => exact signedCall ρ c w hk a (.mandate x)
    | root =>
      have := ih .root
      simp only [_root_.dispatch, call, this, mandateResult]
    | ext =>
      have := ih .root
      simp only [_root_.dispatch, call, this, mandateResult]
  | root x =>
    cases o with
    | signed a => exact signedCall ρ c w hk a (.root x)
    | root => exact rootCall_eq ρ c w hk x
    | ext => rfl
  | ext x =>
    cases o with
    | signed a => exact signedCall ρ c w hk a (.ext x)
    | root => exact BrM.num_ext ρ c w x
    | ext => exact BrM.num_ext ρ c w x
  | nft x => cases o with | signed a => exact signedCall ρ c w hk a (.nft x) | _ => rfl
  | mkt x => cases o with | signed a => exact signedCall ρ c w hk a (.mkt x) | _ => rfl
  | auc x => cases o with | signed a => exact signedCall ρ c w hk a (.auc x) | _ => rfl
  | rent x => cases o with | signed a => exact signedCall ρ c w hk a (.rent x) | _ => rfl
  | tr x => cases o with | signed a => exact signedCall ρ c w hk a (.tr x) | _ => rfl
  | tee x => cases o with | signed a => exact signedCall ρ c w hk a (.tee x) | _ => rfl
  | br x => cases o with | signed a => exact signedCall ρ c w hk a (.br x) | _ => rfl
  | bal d v l => cases o with | signed a => exact signedCall ρ c w hk a (.bal d v l) | _ => rfl

theorem orSame (r : Except Err World) : _root_.orSame (ρ.world w) (Except.map ρ.world r) = ρ.world (_root_.orSame w r) := by
  cases r <;> rfl

theorem step (hk : ρ.Keeps w) (o : Op) : _root_.step (ρ.cfg c) (ρ.world w) (ρ.op o) = ρ.world (_root_.step c w o) := by
  cases o with
  | call o x => simp only [_root_.step, op, dispatch ρ c w hk, orSame]
  | hookAuc => exact AucM.num_hook ρ c w
  | hookRent => exact RentM.num_hook ρ c w
  | hookTr => exact TrM.num_hook ρ c w
  | hookTee => exact TeeM.num_hook ρ c w
  | tick => rfl
  | era e =>
    simp only [_root_.step, op, show (ρ.world w).active = w.active from rfl]
    split <;> rfl
  | txFee p f t a => simp only [_root_.step, op, RewM.num_txFee, orSame]
  | eraPayout => exact congrArg Prod.fst (RewM.num_eraPayout ρ c w)
  | mint a v => rfl
  | lock a v => rfl

variable {ρ c w}

theorem Keeps.step (hk : ρ.Keeps w) (hc : c.Ok) (hr : Reach c w) (o : Op) (ho : o.Ok c) : ρ.Keeps (_root_.step c w o) where
  n x hx := hk.n x (Nat.le_trans (step_nextNft hc hr o ho) hx)
  k x hx := hk.k x (Nat.le_trans (step_nextColl hc hr o ho).1 hx)
  m x hx := hk.m x (by rcases (step_mkt w o ho 0).2 with h | h <;> omega)
  cl x hx := hk.cl x (Nat.le_trans (step_nextCluster w o ho).1 hx)

theorem run (hc : c.Ok) (l : List Op) (hk : ρ.Keeps w) (hr : Reach c w) (hl : ∀ o ∈ l, o.Ok c) :
    _root_.run (ρ.cfg c) (ρ.world w) (l.map ρ.op) = ρ.world (_root_.run c w l) := by
  induction l generalizing w with
  | nil => rfl
  | cons o t ih =>
    have ho := hl o (by simp)
    simp only [List.map_cons, _root_.run, step ρ c w hk]
    exact ih (hk.step hc hr o ho) (hr.step o ho) fun x hx => hl x (by simp [hx])

end Spec.Num
