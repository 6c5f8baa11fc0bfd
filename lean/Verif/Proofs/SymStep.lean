import Verif.Proofs.SymTee
/-
Renaming commutes with bridge and staking-rewards, and with every operation of the chain.
-/
open Spec Sym

namespace BrM
variable (ρ : Ren) (c : Cfg) (w : World) (who : AccountId)

theorem ren_complete (t : Nat) (p : Proposal) : complete t (ρ.proposal p) = (ρ.proposal (complete t p).1, (complete t p).2) := by
  by_cases h : t ≤ p.votes.length <;> simp [complete, Ren.proposal, h]

theorem ren_vote (o : Option Proposal) :
    vote (ρ.cfg c) (ρ.world w) (ρ.acc who) (o.map ρ.proposal) = Except.map (fun x => (ρ.proposal x.1, x.2)) (vote c w who o) := by
  have ht : (ρ.world w).br.threshold = w.br.threshold := rfl
  have hn : (ρ.world w).now = w.now := rfl
  cases o with
  | none =>
    have : (⟨[ρ.acc who], w.now + c.proposalLife, false⟩ : Proposal) = ρ.proposal ⟨[who], w.now + c.proposalLife, false⟩ := rfl
    simp only [vote, Option.map_none, ht, hn, Ren.cfg, this, ren_complete, map_bind', map_pure']
    rfl
  | some p =>
    have : ∀ a b, (⟨p.votes.map ρ.acc ++ [ρ.acc who], a, b⟩ : Proposal) = ρ.proposal ⟨p.votes ++ [who], a, b⟩ := by
      simp [Ren.proposal]
    have h1 : (ρ.proposal p).votes = p.votes.map ρ.acc := rfl
    have h2 : (ρ.proposal p).approved = p.approved := rfl
    have h3 : (ρ.proposal p).expiry = p.expiry := rfl
    simp only [vote, Option.map_some, ht, hn, h1, h2, h3, this, show (ρ.cfg c).relayerLimit = c.relayerLimit from rfl, ren_complete, map_bind', map_pure', Ren.acc_mem, List.length_map]

theorem ren_payout (k : ChainId) (t : Transfer) (b : Bool) :
    payout (ρ.cfg c) (ρ.world w) k (ρ.transfer t) b = ρ.world (payout c w k t b) := by
  cases b with
  | false => rfl
  | true =>
    have h : (ρ.world w).bal.mint (ρ.cfg c).ed (ρ.acc t.recipient) t.amount = ρ.bal (w.bal.mint c.ed t.recipient t.amount) :=
      Ren.bal_mint ..
    show ((ρ.world w).putBal ((ρ.world w).bal.mint (ρ.cfg c).ed (ρ.acc t.recipient) t.amount)).ev _ = _
    rw [h]
    rfl

theorem ren_call (x : Call) : call (ρ.cfg c) (ρ.world w) (ρ.acc who) (ρ.brCall x) = Except.map ρ.world (call c w who x) := by
  cases x with
  | vote k t =>
    have h1 : (ρ.world w).br.votes.get (k, ρ.transfer t) = (w.br.votes.get (k, t)).map ρ.proposal :=
      FMap.mapk_get ρ.chainTransfer ρ.chainTransfer_inj _ _ (k, t)
    have h2 : allowed (ρ.world w) k = allowed w k := rfl
    have h3 : (ρ.world w).br.relayers = w.br.relayers.map ρ.acc := rfl
    have h4 : ∀ p, ({ ρ.world w with br := { (ρ.world w).br with
        votes := (ρ.world w).br.votes.insert (k, ρ.transfer t) (ρ.proposal p) } } : World) =
        ρ.world { w with br := { w.br with votes := w.br.votes.insert (k, t) p } } := by
      intro p
      have : ∀ m : FMap (ChainId × Transfer) Proposal, (m.insert (k, t) p).mapk ρ.chainTransfer ρ.chainTransfer_inj ρ.proposal =
        (m.mapk ρ.chainTransfer ρ.chainTransfer_inj ρ.proposal).insert (k, ρ.transfer t) (ρ.proposal p) := fun m => FMap.mapk_insert ..
      simp [Ren.world, Ren.brSt, this]
    have h5 : Ev.voted k (ρ.transfer t) (ρ.acc who) = ρ.ev (.voted k t who) := rfl
    simp only [call, Ren.brCall, voteFor, h1, ren_vote, bind_map', map_bind', map_pure', h4, h5, Ren.world_ev, ren_payout]
    congr! 2
    simp [h3]
  | deposit v r k =>
    have h2 : allowed (ρ.world w) k = allowed w k := rfl
    simp [-bind_pure_comp, call, Ren.brCall, deposit, h2]
    ren [Ren.world, Ren.brSt, Ren.bal_payFee, Ren.bal_withdraw, World.putBal, World.ev, Ren.ev, Ren.cfg]

theorem ren_ext (x : ExtCall) : ext (ρ.cfg c) (ρ.world w) (ρ.extCall x) = Except.map ρ.world (ext c w x) := by
  cases x with
  | setThreshold t =>
    simp only [ext, Ren.extCall, setThreshold, map_bind', map_pure']
    rfl
  | addChain k =>
    simp only [ext, Ren.extCall, addChain, map_bind', map_pure']
    rfl
  | setRelayers l => rfl
  | setNonce k n =>
    simp only [ext, Ren.extCall, setNonce, map_bind', map_pure']
    rfl
  | setFee x => rfl
  | setExtra x => rfl

end BrM

namespace RewM
variable (ρ : Ren) (c : Cfg) (w : World)

theorem ren_txFee (p : AccountId) (f t : Balance) (a : Option AccountId) :
    txFee (ρ.cfg c) (ρ.world w) (ρ.acc p) f t (a.map ρ.acc) = Except.map ρ.world (txFee c w p f t a) := by
  have h : ∀ b, tipTo (ρ.cfg c) (ρ.bal b) t (a.map ρ.acc) = ρ.bal (tipTo c b t a) := fun b => by
    cases a with
    | none => rfl
    | some a => exact Ren.bal_mint ..
  have hb : (ρ.world w).bal = ρ.bal w.bal := rfl
  have he : (ρ.cfg c).ed = c.ed := rfl
  simp only [txFee, hb, he, Ren.bal_withdraw, bind_map', map_bind', map_pure', Ren.bal_burn, h]
  rfl

theorem ren_eraPayout : eraPayout (ρ.cfg c) (ρ.world w) = (ρ.world (eraPayout c w).1, (eraPayout c w).2) := by
  have hb : (ρ.world w).bal = ρ.bal w.bal := rfl
  have he : (ρ.cfg c).ed = c.ed := rfl
  have hp : (ρ.cfg c).rewPot = ρ.acc c.rewPot := rfl
  have hr : (ρ.world w).rew = w.rew := rfl
  simp only [eraPayout, hb, he, hp, hr, Ren.bal_withdraw, Ren.bal_freeOf]
  cases w.bal.withdraw c.ed c.rewPot (min (w.bal.freeOf c.rewPot) w.rew.extra) .allowDeath <;> rfl

end RewM

namespace Spec.Ren
variable (ρ : Ren) (c : Cfg) (w : World)

theorem signedCall (a : AccountId) (x : Call) :
    _root_.signedCall (ρ.cfg c) (ρ.world w) (ρ.acc a) (ρ.call x) = Except.map ρ.world (_root_.signedCall c w a x) := by
  cases x with
  | nft x => exact NftM.ren_call ρ c w a x
  | mkt x => exact MktM.ren_call ρ c w a x
  | auc x => exact AucM.ren_call ρ c w a x
  | rent x => exact RentM.ren_call ρ c w a x
  | tr x => exact TrM.ren_call ρ c w a x
  | tee x => exact TeeM.ren_call ρ c w a x
  | br x => exact BrM.ren_call ρ c w a x
  | bal d v l =>
    have h : (ρ.world w).bal.transfer (ρ.cfg c).ed (ρ.acc a) (ρ.acc d) v l = Except.map ρ.bal (w.bal.transfer c.ed a d v l) :=
      bal_transfer ..
    show Except.map _ ((ρ.world w).bal.transfer (ρ.cfg c).ed (ρ.acc a) (ρ.acc d) v l) = _
    rw [h]
    simp only [_root_.signedCall]
    cases w.bal.transfer c.ed a d v l <;> rfl
  | root _ => rfl
  | ext _ => rfl
  | mandate _ => rfl

theorem rootCall_eq (x : RootCall) : _root_.rootCall (ρ.cfg c) (ρ.world w) (ρ.rootCall x) = Except.map ρ.world (_root_.rootCall c w x) := by
  cases x with
  | tee r => exact TeeM.ren_root ρ c w r
  | trFee k v => exact congrArg Except.ok (TrM.ren_setFee ρ w k v)
  | _ => rfl

theorem mandateResult (r : Except Err World) :
    _root_.mandateResult (ρ.world w) (Except.map ρ.world r) = Except.map ρ.world (_root_.mandateResult w r) := by
  rcases r with (_ | _) | _ <;> rfl

theorem dispatch (x : Call) (o : Origin) :
    _root_.dispatch (ρ.cfg c) (ρ.call x) (ρ.origin o) (ρ.world w) = Except.map ρ.world (_root_.dispatch c x o w) := by
  induction x generalizing o with
  | mandate x ih =>
    cases o with
    | signed a => exact signedCall ρ c w a (.mandate x)
    | root =>
      have := ih .root
      simp only [origin] at this
      simp only [_root_.dispatch, call, origin, this, mandateResult]
    | ext =>
      have := ih .root
      simp only [origin] at this
      simp only [_root_.dispatch, call, origin, this, mandateResult]
  | root x =>
    cases o with
    | signed a => exact signedCall ρ c w a (.root x)
    | root => exact rootCall_eq ρ c w x
    | ext => rfl
  | ext x =>
    cases o with
    | signed a => exact signedCall ρ c w a (.ext x)
    | root => exact BrM.ren_ext ρ c w x
    | ext => exact BrM.ren_ext ρ c w x
  | nft x => cases o with | signed a => exact signedCall ρ c w a (.nft x) | _ => rfl
  | mkt x => cases o with | signed a => exact signedCall ρ c w a (.mkt x) | _ => rfl
  | auc x => cases o with | signed a => exact signedCall ρ c w a (.auc x) | _ => rfl
  | rent x => cases o with | signed a => exact signedCall ρ c w a (.rent x) | _ => rfl
  | tr x => cases o with | signed a => exact signedCall ρ c w a (.tr x) | _ => rfl
  | tee x => cases o with | signed a => exact signedCall ρ c w a (.tee x) | _ => rfl
  | br x => cases o with | signed a => exact signedCall ρ c w a (.br x) | _ => rfl
  | bal d v l => cases o with | signed a => exact signedCall ρ c w a (.bal d v l) | _ => rfl

theorem orSame (r : Except Err World) : _root_.orSame (ρ.world w) (Except.map ρ.world r) = ρ.world (_root_.orSame w r) := by
  cases r <;> rfl

theorem step (o : Op) : _root_.step (ρ.cfg c) (ρ.world w) (ρ.op o) = ρ.world (_root_.step c w o) := by
  cases o with
  | call o x => simp only [_root_.step, op, dispatch, orSame]
  | hookAuc => exact AucM.ren_hook ρ c w
  | hookRent => exact RentM.ren_hook ρ c w
  | hookTr => exact TrM.ren_hook ρ c w
  | hookTee => exact TeeM.ren_hook ρ c w
  | tick => rfl
  | era e =>
    simp only [_root_.step, op, show (ρ.world w).active = w.active from rfl]
    split <;> rfl
  | txFee p f t a => simp only [_root_.step, op, RewM.ren_txFee, orSame]
  | eraPayout => exact congrArg Prod.fst (RewM.ren_eraPayout ρ c w)
  | mint a v =>
    show (ρ.world w).putBal ((ρ.bal w.bal).mint c.ed (ρ.acc a) v) = _
    rw [bal_mint]
    rfl
  | lock a v =>
    simp [_root_.step, op, world, bal, World.putBal]

theorem run (l : List Op) : _root_.run (ρ.cfg c) (ρ.world w) (l.map ρ.op) = ρ.world (_root_.run c w l) := by
  induction l generalizing w with
  | nil => rfl
  | cons o t ih => simp only [List.map_cons, _root_.run, step, ih]

theorem pot_eq (a : AccountId) : (ρ.cfg c).pot (ρ.acc a) = c.pot a := by
  simp [Cfg.pot, cfg]

theorem op_ok (o : Op) : (ρ.op o).Ok (ρ.cfg c) = o.Ok c := by
  rcases o with ⟨_ | _ | _, _⟩ | _ | _ | _ | _ | _ | _ | _ | _ | _ | _ <;> simp only [Op.Ok, op, origin, pot_eq]

/-! ## reachable states -/

theorem mapk_empty {K V K' V' : Type} (f : K → K') (hf : ∀ a b, f a = f b → a = b) (g : V → V') :
    (FMap.empty : FMap K V).mapk f hf g = .empty := rfl

theorem mapk_some {K V K' V' : Type} [DecidableEq K] [DecidableEq K'] {f : K → K'} {hf : ∀ a b, f a = f b → a = b} {g : V → V'}
    {m : FMap K V} {k : K'} {v : V'} (h : (m.mapk f hf g).get k = some v) : ∃ a u, f a = k ∧ m.get a = some u ∧ g u = v := by
  obtain ⟨a, ha⟩ : ∃ a, f a = k := by
    by_contra hn
    push Not at hn
    have : ∀ l : List (K × V), FMap.look k (l.map fun x => (f x.1, g x.2)) = none := by
      intro l
      induction l with
      | nil => rfl
      | cons x t ih => simp [FMap.look, hn, ih]
    have h' : FMap.look k (m.l.map fun x => (f x.1, g x.2)) = some v := h
    rw [this] at h'
    exact absurd h' (by simp)
  subst ha
  rw [FMap.mapk_get f hf] at h
  cases hm : m.get a with
  | none => rw [hm] at h; exact absurd h (by simp)
  | some u => rw [hm] at h; exact ⟨a, u, rfl, hm, by simpa using h⟩

theorem genesis (h : Genesis c w) : Genesis (ρ.cfg c) (ρ.world w) := by
  obtain ⟨⟨b1, b2, b3, b4, b5⟩, g1, ⟨n1, n2, n3, n4, n5, n6, n7, n8⟩, ⟨m1, m2, m3⟩, ⟨a1, a2, a3, a4⟩, ⟨r1, r2, r3, r4, r5⟩, ⟨t1, t2, t3⟩,
    ⟨e1, e2, e3, e4, e5, e6, e7, e8, e9, e10, e11, e12, e13⟩, ⟨k1, k2⟩, g2, g3⟩ := h
  constructor
  · constructor
    · show FMap.mapk ρ.acc ρ.inj id w.bal.tee = _
      rw [b1]; rfl
    · intro a ha
      have : ∃ b, a = ρ.acc b ∧ c.pot b := by
        rcases ha with rfl | rfl | rfl | rfl
        · exact ⟨c.aucPot, rfl, .inl rfl⟩
        · exact ⟨c.rentPot, rfl, .inr (.inl rfl)⟩
        · exact ⟨c.teePot, rfl, .inr (.inr (.inl rfl))⟩
        · exact ⟨c.rewPot, rfl, .inr (.inr (.inr rfl))⟩
      obtain ⟨b, rfl, hb⟩ := this
      show ((FMap.mapk ρ.acc ρ.inj id w.bal.other).get _).getD 0 = 0
      rw [FMap.mapk_get ρ.acc ρ.inj, Option.map_id]
      exact b2 b hb
    · intro a v hv
      obtain ⟨b, u, _, hb, rfl⟩ := mapk_some (hf := ρ.inj) hv
      exact b3 b u hb
    · show w.bal.issuance = (FMap.mapk ρ.acc ρ.inj id w.bal.free).sumBy _ + w.bal.collected
      rw [b4]
      simp [FMap.sumBy, FMap.mapk, Function.comp_def]
    · exact b5
  · show FMap.mapv _ w.nfts = _
    rw [g1]; rfl
  · simp only [world, nftSt, n1, n2, n3, n4, n5, n6, n7, n8]; repeat' constructor
  · simp only [world, mktSt, m1, m2, m3]; repeat' constructor
  · simp only [world, aucSt, a1, a2, a3, a4]; repeat' constructor
  · simp only [world, rentSt, r1, r2, r3, r4, r5]; repeat' constructor
  · simp only [world, trSt, t1, t2, t3]; repeat' constructor
  · simp only [world, teeSt, e1, e2, e3, e4, e5, e6, e7, e8, e9, e10, e11, e12, e13]; repeat' constructor
  · simp only [world, brSt, k1, k2]; repeat' constructor
  · exact g2
  · show List.map _ w.evs = _
    rw [g3]; rfl

theorem reach {c : Cfg} {w : World} (h : Reach c w) : Reach (ρ.cfg c) (ρ.world w) := by
  induction h with
  | init hg => exact .init (genesis ρ _ _ hg)
  | step o _ ho ih =>
    rw [← step]
    exact .step _ ih (by rw [op_ok]; exact ho)

end Spec.Ren
