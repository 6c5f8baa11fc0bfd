import Verif.Proofs.LaterTee
/-
Moving in time commutes with bridge and staking-rewards, and with every operation of the chain.
-/
open Spec Sym

namespace BrM
variable (k : Block) (c : Cfg) (w : World) (who : AccountId)

theorem later_complete (t : Nat) (p : Proposal) :
    complete t (Later.proposal k p) = (Later.proposal k (complete t p).1, (complete t p).2) := by
  by_cases h : t ≤ p.votes.length <;> simp [complete, Later.proposal, h]

theorem later_vote (o : Option Proposal) :
    vote c (Later.world k w) who (o.map (Later.proposal k)) = Except.map (fun x => (Later.proposal k x.1, x.2)) (vote c w who o) := by
  have ht : (Later.world k w).br.threshold = w.br.threshold := rfl
  cases o with
  | none =>
    have hn : (Later.world k w).now + c.proposalLife = w.now + c.proposalLife + k := Nat.add_right_comm ..
    have : (⟨[who], w.now + c.proposalLife + k, false⟩ : Proposal) = Later.proposal k ⟨[who], w.now + c.proposalLife, false⟩ := rfl
    simp only [vote, Option.map_none, ht, hn, this, later_complete, map_bind', map_pure']
  | some p =>
    have : ∀ l, (⟨l, (Later.proposal k p).expiry, p.approved⟩ : Proposal) = Later.proposal k ⟨l, p.expiry, p.approved⟩ := fun _ => rfl
    have h3 : ((Later.proposal k p).expiry ≤ (Later.world k w).now) = (p.expiry ≤ w.now) := propext (Nat.add_le_add_iff_right ..)
    have h1 : (Later.proposal k p).votes = p.votes := rfl
    have h2 : (Later.proposal k p).approved = p.approved := rfl
    simp only [vote, Option.map_some, ht, h3, map_bind', map_pure', h1, h2, this, later_complete]

theorem later_payout (x : ChainId) (t : Transfer) (b : Bool) :
    payout c (Later.world k w) x t b = Later.world k (payout c w x t b) := by
  cases b with
  | false => rfl
  | true => exact TrM.later_ev k (w.putBal (w.bal.mint c.ed t.recipient t.amount)) _ rfl

theorem later_call (x : Call) : call c (Later.world k w) who x = Except.map (Later.world k) (call c w who x) := by
  cases x with
  | vote x t =>
    have h1 : (Later.world k w).br.votes.get (x, t) = (w.br.votes.get (x, t)).map (Later.proposal k) := FMap.mapv_get ..
    have h2 : allowed (Later.world k w) x = allowed w x := rfl
    have h3 : (Later.world k w).br.relayers = w.br.relayers := rfl
    have h4 : ∀ p, ({ Later.world k w with br := { (Later.world k w).br with
        votes := (Later.world k w).br.votes.insert (x, t) (Later.proposal k p) } } : World) =
        Later.world k { w with br := { w.br with votes := w.br.votes.insert (x, t) p } } := by
      intro p
      simp [Later.world, Later.brSt]
    have h5 : ∀ w : World, (Later.world k w).ev (.voted x t who) = Later.world k (w.ev (.voted x t who)) := fun w =>
      TrM.later_ev k w _ rfl
    simp only [call, voteFor, h1, later_vote, bind_map', map_bind', map_pure', h4, h5, later_payout]
    rfl
  | deposit v r x =>
    have h2 : allowed (Later.world k w) x = allowed w x := rfl
    simp only [call, deposit, h2, map_bind', map_pure']
    ren [Later.world, Later.brSt, World.putBal, World.ev, Later.ev]

theorem later_ext (x : ExtCall) : ext c (Later.world k w) x = Except.map (Later.world k) (ext c w x) := by
  cases x with
  | setThreshold t => lat [ext, setThreshold]
  | addChain x => lat [ext, addChain]
  | setRelayers l => rfl
  | setNonce x n => lat [ext, setNonce]
  | setFee x => rfl
  | setExtra x => rfl

end BrM

namespace RewM
variable (k : Block) (c : Cfg) (w : World)

theorem later_txFee (p : AccountId) (f t : Balance) (a : Option AccountId) :
    txFee c (Later.world k w) p f t a = Except.map (Later.world k) (txFee c w p f t a) := by
  lat [txFee]

theorem later_eraPayout : eraPayout c (Later.world k w) = (Later.world k (eraPayout c w).1, (eraPayout c w).2) := by
  have hb : (Later.world k w).bal = w.bal := rfl
  have hr : (Later.world k w).rew = w.rew := rfl
  simp only [eraPayout, hb, hr]
  cases w.bal.withdraw c.ed c.rewPot (min (w.bal.freeOf c.rewPot) w.rew.extra) .allowDeath <;> rfl

end RewM

namespace Later
variable (k : Block) (c : Cfg) (w : World)
open Spec.Later

theorem signedCall (a : AccountId) (x : Call) :
    _root_.signedCall c (world k w) a (call k x) = Except.map (world k) (_root_.signedCall c w a x) := by
  cases x with
  | nft x => exact NftM.later_call k c w a x
  | mkt x => exact MktM.later_call k c w a x
  | auc x => exact AucM.later_call k c w a x
  | rent x => exact RentM.later_call k c w a x
  | tr x => exact TrM.later_call k c w a x
  | tee x => exact TeeM.later_call k c w a x
  | br x => exact BrM.later_call k c w a x
  | bal d v l =>
    show Except.map _ (w.bal.transfer c.ed a d v l) = _
    simp only [_root_.signedCall]
    cases w.bal.transfer c.ed a d v l <;> rfl
  | root _ => rfl
  | ext _ => rfl
  | mandate _ => rfl

theorem rootCall (x : RootCall) : _root_.rootCall c (world k w) x = Except.map (world k) (_root_.rootCall c w x) := by
  cases x with
  | tee r => exact TeeM.later_root k c w r
  | trFee x v => exact congrArg Except.ok (TrM.later_setFee k w x v)
  | _ => rfl

theorem mandateResult (r : Except Err World) :
    _root_.mandateResult (world k w) (Except.map (world k) r) = Except.map (world k) (_root_.mandateResult w r) := by
  rcases r with (_ | _) | _ <;> rfl

theorem dispatch (x : Call) (o : Origin) :
    _root_.dispatch c (call k x) o (world k w) = Except.map (world k) (_root_.dispatch c x o w) := by
  induction x generalizing o with
  | mandate x ih =>
    cases o with
    | signed a => exact signedCall k c w a (.mandate x)
    | root => simp only [_root_.dispatch, call, ih .root, mandateResult]
    | ext => simp only [_root_.dispatch, call, ih .root, mandateResult]
  | root x =>
    cases o with
    | signed a => exact signedCall k c w a (.root x)
    | root => exact rootCall k c w x
    | ext => rfl
  | ext x =>
    cases o with
    | signed a => exact signedCall k c w a (.ext x)
    | root => exact BrM.later_ext k c w x
    | ext => exact BrM.later_ext k c w x
  | nft x => cases o with | signed a => exact signedCall k c w a (.nft x) | _ => rfl
  | mkt x => cases o with | signed a => exact signedCall k c w a (.mkt x) | _ => rfl
  | auc x => cases o with | signed a => exact signedCall k c w a (.auc x) | _ => rfl
  | rent x => cases o with | signed a => exact signedCall k c w a (.rent x) | _ => rfl
  | tr x => cases o with | signed a => exact signedCall k c w a (.tr x) | _ => rfl
  | tee x => cases o with | signed a => exact signedCall k c w a (.tee x) | _ => rfl
  | br x => cases o with | signed a => exact signedCall k c w a (.br x) | _ => rfl
  | bal d v l => cases o with | signed a => exact signedCall k c w a (.bal d v l) | _ => rfl

theorem orSame (r : Except Err World) : _root_.orSame (world k w) (Except.map (world k) r) = world k (_root_.orSame w r) := by
  cases r <;> rfl

theorem step (o : Op) : _root_.step c (world k w) (op k o) = world k (_root_.step c w o) := by
  cases o with
  | call o x => simp only [_root_.step, op, dispatch, orSame]
  | hookAuc => exact AucM.later_hook k c w
  | hookRent => exact RentM.later_hook k c w
  | hookTr => exact TrM.later_hook k c w
  | hookTee => exact TeeM.later_hook k c w
  | tick =>
    have : w.now + k + 1 = w.now + 1 + k := Nat.add_right_comm ..
    simp [_root_.step, op, world, this]
  | era e =>
    simp only [_root_.step, op, show (world k w).active = w.active from rfl]
    split <;> rfl
  | txFee p f t a => simp only [_root_.step, op, RewM.later_txFee, orSame]
  | eraPayout => exact congrArg Prod.fst (RewM.later_eraPayout k c w)
  | mint a v => rfl
  | lock a v => rfl

theorem run (l : List Op) : _root_.run c (world k w) (l.map (op k)) = world k (_root_.run c w l) := by
  induction l generalizing w with
  | nil => rfl
  | cons o t ih => simp only [List.map_cons, _root_.run, step, ih]

theorem op_ok (o : Op) : (op k o).Ok c = o.Ok c := by
  rcases o with ⟨_ | _ | _, _⟩ | _ | _ | _ | _ | _ | _ | _ | _ | _ | _ <;> rfl

theorem genesis (h : Genesis c w) : Genesis c (world k w) := by
  obtain ⟨b, g1, n, m, ⟨a1, a2, a3, a4⟩, ⟨r1, r2, r3, r4, r5⟩, ⟨t1, t2, t3⟩,
    ⟨e1, e2, e3, e4, e5, e6, e7, e8, e9, e10, e11, e12, e13⟩, ⟨k1, k2⟩, g2, g3⟩ := h
  constructor
  · exact b
  · exact g1
  · exact n
  · exact m
  · simp only [world, aucSt, a1, a2, a3, a4]; repeat' constructor
  · simp only [world, rentSt, r1, r2, r3, r4, r5]; repeat' constructor
  · simp only [world, trSt, t1, t2, t3]; repeat' constructor
  · simp only [world, teeSt, e1, e2, e3, e4, e5, e6, e7, e8, e9, e10, e11, e12, e13]; repeat' constructor
  · simp only [world, brSt, k1, k2]; repeat' constructor
  · exact g2
  · show List.map _ w.evs = _
    rw [g3]; rfl

theorem reach {c : Cfg} {w : World} (h : Reach c w) : Reach c (world k w) := by
  induction h with
  | init hg => exact .init (genesis k _ _ hg)
  | step o _ ho ih =>
    rw [← step]
    exact .step _ ih (by rw [op_ok]; exact ho)

end Later
