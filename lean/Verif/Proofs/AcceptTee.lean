import Verif.Proofs.AcceptBase
import Verif.Proofs.AcceptRent
import Verif.Props.Govern
import Verif.Proofs.Panic
/-
Lemmas for C115: calls of the tee and bridge pallets, calls of root and of the committee, and mandates.
-/
variable {c : Cfg} {w w' : World} {a : AccountId}
set_option maxRecDepth 10000
open Spec Spec.Accept

namespace TeeM

theorem report_iff {l : List Report} {r : Report} :
    (∃ l', addReport c l r = .ok l') ↔ (∃ x ∈ l, x.by_ = r.by_) ∨ l.length < c.teeList := by
  have hp : ∀ l, (∃ l', putReport r l = some l') ↔ ∃ x ∈ l, x.by_ = r.by_ := by
    intro l
    induction l with
    | nil => simp [putReport]
    | cons y t ih =>
      simp only [putReport]
      by_cases e : y.by_ = r.by_
      · simp [e]
      · simp only [e, if_false, Option.map_eq_some_iff, List.mem_cons, exists_eq_or_imp, false_or]
        rw [← ih]
        constructor
        · rintro ⟨_, z, hz, _⟩; exact ⟨z, hz⟩
        · rintro ⟨z, hz⟩; exact ⟨_, z, hz, rfl⟩
  unfold addReport
  cases e : putReport r l with
  | some l' =>
    exact ⟨fun _ => .inl ((hp l).1 ⟨l', e⟩), fun _ => ⟨l', rfl⟩⟩
  | none =>
    simp only [Exec.bind_ok, Exec.require_ok, Exec.exists_unit, Exec.pure_ok]
    constructor
    · rintro ⟨_, h, _⟩; exact .inr h
    · rintro (h | h)
      · obtain ⟨l', h⟩ := (hp l).2 h
        rw [e] at h; simp at h
      · exact ⟨_, h, rfl⟩

theorem accept_fwd {x : Call} (h : call c w a x = .ok w') :
    Room c w a (.tee x) ∧ CanPayAll c.ed (purse w.bal) (dues c w a (.tee x)) := by
  cases x <;> simp only [call] at h <;> simp only [Room, dues]
  case register b u =>
    simp only [register] at h; inv_ok at h
    obtain ⟨_, _, _, _, _, _, h1, h2, _⟩ := h
    exact ⟨(ensure_iff w a _ h1).2 h2, trivial⟩
  case bondExtra =>
    simp only [bondExtra] at h; inv_ok at h
    obtain ⟨s, h0, _, h1, h2, _⟩ := h
    exact ⟨⟨s, h0, (ensure_iff w a _ h1).2 h2⟩, trivial⟩
  case submitReport op r =>
    simp only [submitReport] at h; inv_ok at h
    obtain ⟨s, d, e, l, _, _, _, h1, h2, _⟩ := h
    refine ⟨fun e' he => ?_, trivial⟩
    obtain rfl : e = e' := by rw [h1] at he; exact Option.some.inj he
    exact report_iff.1 ⟨l, h2⟩
  case claim e =>
    simp only [claim] at h; inv_ok at h
    obtain ⟨n, s, d, b, _, _, _, _, h1, _, _, hb, _⟩ := h
    rw [paysAll_cons, reward_eq]
    exact ⟨by omega, b, hb, trivial⟩
  all_goals exact ⟨trivial, trivial⟩

theorem accept_bwd (hr : Reach c w) {x : Call} (he : Entitled w a (.tee x)) (hf : Refuse.Fit c w a (.tee x))
    (hm : Room c w a (.tee x)) (hp : CanPayAll c.ed (purse w.bal) (dues c w a (.tee x))) :
    ∃ w', call c w a x = .ok w' := by
  have hs := hr.sinv
  have hg := hr.ginv
  have some_inj : ∀ {α : Type} {o : Option α} {x y : α}, o = some x → o = some y → x = y := by
    intro α o x y h1 h2; rw [h1] at h2; exact Option.some.inj h2
  cases x <;> simp only [call] <;> simp only [Entitled, Refuse.Fit, Room, dues] at he hf hm hp
  case register b u =>
    obtain ⟨h1, h2⟩ := he
    obtain ⟨h3, h4, h5, h6, h7⟩ := hf
    simp only [register, Exec.bind_ok, Exec.require_ok, Exec.exists_unit, Exec.pure_ok]
    exact ⟨_, h3, h4.symm, h1, h2, h5, h6, h7, (ensure_iff w a _ h7).1 hm, rfl⟩
  case unregister =>
    cases e : w.tee.data.get a with
    | some d =>
      obtain ⟨h1, h2⟩ := hf (by simp [e])
      obtain ⟨s, hs, _⟩ := hs.act a d e h1
      simp only [unregister, e, unregisterAssigned, Exec.bind_ok, Exec.require_ok, Exec.exists_unit, Exec.getOr_ok, Exec.pure_ok]
      exact ⟨_, h1, h2, s, hs, rfl⟩
    | none =>
      obtain ⟨r, hr⟩ := Option.ne_none_iff_exists'.1 (he.resolve_left fun h => h e)
      simp only [unregister, e, dropRegistration, Exec.bind_ok, Exec.getOr_ok, Exec.pure_ok]
      exact ⟨_, r, hr, rfl⟩
  case update b u =>
    obtain ⟨d, hd⟩ := Option.ne_none_iff_exists'.1 he
    obtain ⟨h1, h2, h3, h4⟩ := hf
    simp only [update, Exec.bind_ok, Exec.require_ok, Exec.exists_unit, Exec.getOr_ok, Exec.pure_ok]
    exact ⟨_, h1, h2.symm, d, hd, h3, h4 d hd, rfl⟩
  case cancelUpdate =>
    obtain ⟨d, hd⟩ := Option.ne_none_iff_exists'.1 he
    simp only [dropUpdate, Exec.bind_ok, Exec.getOr_ok, Exec.pure_ok]
    exact ⟨_, d, hd, rfl⟩
  case withdraw =>
    obtain ⟨s, h1, h2⟩ := he
    obtain ⟨s', h1', h3⟩ := hf
    obtain rfl := some_inj h1 h1'
    simp only [withdraw, Exec.bind_ok, Exec.require_ok, Exec.exists_unit, Exec.getOr_ok, Exec.pure_ok]
    exact ⟨_, s, h1, h2, h3, rfl⟩
  case submitReport op r =>
    obtain ⟨s, hs1, hs2, hs3⟩ := he
    obtain ⟨h1, h2⟩ := hf
    obtain ⟨d, hd⟩ := Option.ne_none_iff_exists'.1 h1
    obtain ⟨e, he⟩ := Option.ne_none_iff_exists'.1 h2
    obtain ⟨l, hl⟩ := (report_iff (c := c)).2 (hm e he)
    have hfind : w.tee.servers.find? (fun x => decide (x.addr = a)) = some s := by
      have := hg.srv
      revert hs1 this
      generalize w.tee.servers = l
      intro hs1 hn
      induction l with
      | nil => simp at hs1
      | cons y t ih =>
        simp only [List.map_cons, List.nodup_cons] at hn
        rcases List.mem_cons.1 hs1 with rfl | h
        · simp [List.find?, hs2]
        · have : y.addr ≠ a := by
            rintro e
            exact hn.1 (List.mem_map.2 ⟨s, h, by rw [hs2, e]⟩)
          simp [List.find?, this, ih h hn.2]
    simp only [submitReport, Exec.bind_ok, Exec.require_ok, Exec.exists_unit, Exec.getOr_ok, Exec.pure_ok]
    exact ⟨_, s, hfind, hs3, d, hd, e, he, l, hl, rfl⟩
  case claim e =>
    obtain ⟨d, hd⟩ := Option.ne_none_iff_exists'.1 he
    obtain ⟨h1, n, s, h2, h3, h4, h5, h6⟩ := hf
    rw [paysAll_cons, reward_eq] at hp
    obtain ⟨b, hb, _⟩ := hp
    simp only [claim, Exec.bind_ok, Exec.require_ok, Exec.exists_unit, Exec.getOr_ok, Exec.pure_ok]
    exact ⟨_, h1, n, h2, s, h3, ⟨by omega, by omega, h4⟩, d, hd, b, hb, rfl⟩
  case bondExtra =>
    obtain ⟨s, h1, h2, h3⟩ := hf
    obtain ⟨s', h1', h4⟩ := hm
    obtain rfl := some_inj h1 h1'
    simp only [bondExtra, Exec.bind_ok, Exec.require_ok, Exec.exists_unit, Exec.getOr_ok, Exec.pure_ok]
    exact ⟨_, s, h1, h2, h3, (ensure_iff w a _ h3).1 h4, rfl⟩
  case refundExcess =>
    obtain ⟨s, h1, h2⟩ := hf
    simp only [refundExcess, Exec.bind_ok, Exec.require_ok, Exec.exists_unit, Exec.getOr_ok, Exec.pure_ok]
    exact ⟨_, s, h1, h2, rfl⟩

theorem unassign_iff (hr : Reach c w) {op : AccountId} (h : w.tee.data.get op ≠ none) :
    ∃ w', unassign w op = .ok w' ∧ w'.tee.ledger = w.tee.ledger := by
  have ht := hr.tinv
  obtain ⟨d, hd⟩ := Option.ne_none_iff_exists'.1 h
  have h1 := ht.addr op d hd
  obtain ⟨k, hk⟩ := Option.ne_none_iff_exists'.1 fun e => h ((ht.clu op).1 e)
  obtain ⟨cl, hcl, _⟩ := ht.mem op k hk
  simp only [unassign, Exec.bind_ok, Exec.require_ok, Exec.exists_unit, Exec.getOr_ok, Exec.pure_ok]
  exact ⟨_, ⟨d, hd, by rw [h1]; rfl, k, hk, cl, hcl, rfl⟩, rfl⟩

theorem root_iff (hr : Reach c w) {x : RootCall} : (∃ w', root c w x = .ok w') ↔ Refuse.FitRoot c w x ∧ RoomRoot w x := by
  have hg := hr.ginv
  constructor
  · rintro ⟨w', h⟩
    refine ⟨root_fit h, ?_⟩
    cases x <;> simp only [root] at h <;> simp only [RoomRoot]
    case createCluster t =>
      simp only [createCluster] at h; inv_ok at h
      have := h.1
      by_contra hn
      have e : ¬ w.tee.nextCluster < U32MAX := hn
      simp [e] at this
    case forceRemove op =>
      simp only [forceRemove] at h; inv_ok at h
      obtain ⟨w1, s, h1, h2, _⟩ := h
      simp only [unassign] at h1; inv_ok at h1
      obtain ⟨_, _, _, _, _, _, _, rfl⟩ := h1
      simp only at h2
      rw [h2]; simp
  · rintro ⟨h, hm⟩
    cases x <;> simp only [root] <;> simp only [Refuse.FitRoot, RoomRoot] at h hm
    case assign op k s =>
      obtain ⟨h1, h2, ⟨e, h3, h4⟩, y, h5, h6⟩ := h
      obtain ⟨z, hz⟩ := Option.ne_none_iff_exists'.1 h1
      simp only [assign, Exec.bind_ok, Exec.require_ok, Exec.exists_unit, Exec.getOr_ok, Exec.pure_ok]
      exact ⟨_, e, h3, y, h5, h6, h4, h2, z, hz, rfl⟩
    case removeRegistration op =>
      obtain ⟨d, hd⟩ := Option.ne_none_iff_exists'.1 h
      simp only [dropRegistration, Exec.bind_ok, Exec.getOr_ok, Exec.pure_ok]
      exact ⟨_, d, hd, rfl⟩
    case rejectUpdate op =>
      obtain ⟨d, hd⟩ := Option.ne_none_iff_exists'.1 h
      simp only [dropUpdate, Exec.bind_ok, Exec.getOr_ok, Exec.pure_ok]
      exact ⟨_, d, hd, rfl⟩
    case approveUnregister op =>
      obtain ⟨w', hw, _⟩ := unassign_iff hr h.2
      simp only [approveUnregister, Exec.bind_ok, Exec.require_ok, Exec.exists_unit]
      exact ⟨w', h.1, hw⟩
    case forceRemove op =>
      obtain ⟨w', hw, e⟩ := unassign_iff hr h
      obtain ⟨d, hd⟩ := Option.ne_none_iff_exists'.1 hm
      simp only [forceRemove, Exec.bind_ok, Exec.getOr_ok, Exec.pure_ok]
      exact ⟨_, w', hw, d, by rw [e]; exact hd, rfl⟩
    case approveUpdate op =>
      obtain ⟨e, u, h1, h2, h3⟩ := h
      obtain ⟨g1, g2⟩ := hg.upd op u h2
      have : ∃ w1, approveAddr w op e u.addr = .ok w1 := by
        unfold approveAddr
        by_cases hy : e.addr = u.addr
        · rw [if_pos hy]; exact ⟨_, rfl⟩
        · rw [if_neg hy]
          simp only [Exec.bind_ok, Exec.require_ok, Exec.exists_unit, Exec.pure_ok]
          exact ⟨_, h3.resolve_left hy, rfl⟩
      obtain ⟨w1, hw⟩ := this
      simp only [approveUpdate, Exec.bind_ok, Exec.require_ok, Exec.exists_unit, Exec.getOr_ok, Exec.pure_ok]
      exact ⟨_, u, h2, g2, g1.symm, e, h1, w1, hw, rfl⟩
    case forceUpdate op b u =>
      obtain ⟨h1, h2, h3, e, h4, h5⟩ := h
      have : ∃ z, forceAddr w op e b = .ok z := by
        cases b with
        | none => exact ⟨_, rfl⟩
        | some b =>
          simp only [forceAddr, Exec.bind_ok, Exec.require_ok, Exec.exists_unit, Exec.pure_ok]
          exact ⟨_, fun e => h3 (by rw [e]), fun hy => (h5 b rfl).resolve_left hy, rfl⟩
      obtain ⟨z, hz⟩ := this
      simp only [forceUpdate, Exec.bind_ok, Exec.require_ok, Exec.exists_unit, Exec.getOr_ok, Exec.pure_ok]
      refine ⟨_, by simpa [Option.isSome_iff_ne_none] using h1, e, h4, z, hz, ?_, rfl⟩
      rintro v hv rfl
      exact h2 hv
    case createCluster t =>
      simp only [createCluster, Exec.bind_ok, Exec.expect_ok, Exec.pure_ok]
      exact ⟨_, (), by rw [if_pos (show w.tee.nextCluster < U32MAX from hm)], rfl⟩
    case updateCluster k t =>
      obtain ⟨d, hd⟩ := Option.ne_none_iff_exists'.1 h
      simp only [updateCluster, Exec.bind_ok, Exec.getOr_ok, Exec.pure_ok]
      exact ⟨_, d, hd, rfl⟩
    case removeCluster k =>
      obtain ⟨d, hd, h1⟩ := h
      simp only [removeCluster, Exec.bind_ok, Exec.getOr_ok, Exec.require_ok, Exec.exists_unit, Exec.pure_ok]
      exact ⟨_, d, hd, by rw [h1]; rfl, rfl⟩
    case registerServer s =>
      simp only [registerServer, Exec.bind_ok, Exec.require_ok, Exec.exists_unit, Exec.pure_ok]
      exact ⟨_, h.1, h.2, rfl⟩
    case unregisterServer b =>
      simp only [unregisterServer, Exec.bind_ok, Exec.require_ok, Exec.exists_unit, Exec.pure_ok]
      exact ⟨_, h, rfl⟩
    case setServerType b t =>
      simp only [setServerType, Exec.bind_ok, Exec.require_ok, Exec.exists_unit, Exec.pure_ok]
      exact ⟨_, h, rfl⟩
    case setAssignedEra op e =>
      obtain ⟨d, hd⟩ := Option.ne_none_iff_exists'.1 h
      simp only [setAssignedEra, Exec.bind_ok, Exec.getOr_ok, Exec.pure_ok]
      exact ⟨_, d, hd, rfl⟩
    all_goals exact ⟨_, rfl⟩

end TeeM

namespace BrM

theorem accept_fwd {x : Call} (h : call c w a x = .ok w') :
    Room c w a (.br x) ∧ CanPayAll c.ed (purse w.bal) (dues c w a (.br x)) := by
  cases x <;> simp only [call] at h <;> simp only [Room, dues]
  case vote k t =>
    simp only [voteFor] at h; inv_ok at h
    obtain ⟨y, _, _, h, _⟩ := h
    refine ⟨?_, trivial⟩
    cases e : w.br.votes.get (k, t) <;> simp only [e, vote] at h <;> inv_ok at h <;> omega
  case deposit v r d =>
    simp only [deposit] at h; inv_ok at h
    obtain ⟨b1, b2, _, _, h1, h2, _⟩ := h
    refine ⟨trivial, fee_cons.2 ⟨b1, h1, ?_⟩⟩
    have := (withdraw_payable (P := fun _ => True) (t := []) fun _ _ => ⟨fun _ => trivial, fun _ => trivial⟩).1
      ⟨b2, h2, trivial⟩
    simpa using this

/-- an account that can pay the fee and make the deposit has both -/
theorem deposit_holds {v : Balance} (hp : CanPayAll c.ed (purse w.bal) [fee a w.br.fee, ⟨a, none, v, true⟩]) :
    w.br.fee + v ≤ w.bal.freeOf a := by
  obtain ⟨b1, h1, h2⟩ := fee_cons.1 hp
  obtain ⟨b2, h2, _⟩ := (withdraw_payable (ed := c.ed) (b := b1) (s := a) (v := v) (P := fun _ => True) (t := []) (l := .allowDeath)
    fun _ _ => ⟨fun _ => trivial, fun _ => trivial⟩).2 (by simpa using h2)
  obtain ⟨b3, h3, rfl⟩ := Bal.payFee_ok h1
  have e3 : (b3.collect w.br.fee).freeOf a = b3.freeOf a := rfl
  have g1 : w.br.fee + b3.freeOf a ≤ w.bal.freeOf a := by
    rcases Bal.withdraw_ok h3 with ⟨k1, rfl⟩ | ⟨k1, k2, k3, rfl⟩
    · omega
    · rw [Bal.freeOf_settle, if_pos rfl]; split <;> omega
  rcases Bal.withdraw_ok h2 with ⟨k1, _⟩ | ⟨k1, k2, _⟩
  · omega
  · rw [e3] at k2; omega

theorem accept_bwd {x : Call} (he : Entitled w a (.br x)) (hf : Refuse.Fit c w a (.br x))
    (hm : Room c w a (.br x)) (hp : CanPayAll c.ed (purse w.bal) (dues c w a (.br x))) :
    ∃ w', call c w a x = .ok w' := by
  cases x <;> simp only [call] <;> simp only [Entitled, Refuse.Fit, Room, dues] at he hf hm hp
  case vote k t =>
    obtain ⟨h1, h2⟩ := hf
    have hv : ∃ z, vote c w a (w.br.votes.get (k, t)) = .ok z := by
      cases e : w.br.votes.get (k, t) with
      | none =>
        simp only [vote, Exec.bind_ok, Exec.require_ok, Exec.exists_unit, Exec.pure_ok]
        exact ⟨_, hm, rfl⟩
      | some p =>
        obtain ⟨g1, g2, g3, g4⟩ := h2 p e
        simp only [vote, Exec.bind_ok, Exec.require_ok, Exec.exists_unit, Exec.pure_ok]
        exact ⟨_, g1, by omega, g3, g4, rfl⟩
    obtain ⟨z, hz⟩ := hv
    simp only [voteFor, Exec.bind_ok, Exec.require_ok, Exec.exists_unit, Exec.pure_ok]
    exact ⟨_, he, Option.isSome_iff_ne_none.2 h1, z, hz, rfl⟩
  case deposit v r d =>
    obtain ⟨b1, h1, h2⟩ := fee_cons.1 hp
    obtain ⟨b2, h2, _⟩ := (withdraw_payable (ed := c.ed) (b := b1) (s := a) (v := v) (P := fun _ => True) (t := []) (l := .allowDeath)
      fun _ _ => ⟨fun _ => trivial, fun _ => trivial⟩).2 (by simpa using h2)
    have hle := deposit_holds hp
    have := Nat.mod_le (w.br.fee + v) (U128MAX + 1)
    simp only [deposit, Exec.bind_ok, Exec.require_ok, Exec.exists_unit, Exec.pure_ok]
    exact ⟨_, Option.isSome_iff_ne_none.2 hf, by omega, b1, h1, b2, h2, rfl⟩

theorem ext_iff {x : ExtCall} : (∃ w', ext c w x = .ok w') ↔ Refuse.FitExt c w x ∧ NonceFits x := by
  constructor
  · rintro ⟨w', h⟩
    refine ⟨ext_fit h, ?_⟩
    cases x <;> simp only [ext] at h <;> simp only [NonceFits]
    simp only [setNonce] at h; inv_ok at h
    obtain ⟨_, _, _, h, _⟩ := h
    unfold U64MAX at h
    omega
  · rintro ⟨h, hn⟩
    cases x <;> simp only [ext] <;> simp only [Refuse.FitExt, NonceFits] at h hn
    case setThreshold t =>
      simp only [setThreshold, Exec.bind_ok, Exec.require_ok, Exec.exists_unit, Exec.pure_ok]
      exact ⟨_, h, rfl⟩
    case addChain k =>
      simp only [addChain, Exec.bind_ok, Exec.require_ok, Exec.exists_unit, Exec.pure_ok]
      exact ⟨_, h.1, by simp [allowed, h.2], rfl⟩
    case setNonce k x =>
      obtain ⟨y, h1, h2⟩ := h
      simp only [setNonce, Exec.bind_ok, Exec.require_ok, Exec.exists_unit, Exec.getOr_ok, Exec.pure_ok]
      exact ⟨_, y, h1, h2, by unfold U64MAX; omega, rfl⟩
    all_goals exact ⟨_, rfl⟩

end BrM

theorem mandate_panic {r : Except Err World} {s : String} : mandateResult w r = .error (.panic s) ↔ r = .error (.panic s) := by
  rcases r with (_ | _) | _ <;> simp [mandateResult]

theorem mandate_ok {r : Except Err World} : (∃ w', mandateResult w r = .ok w') ↔ ¬ ∃ s, r = .error (.panic s) := by
  rcases r with (_ | _) | _ <;> simp [mandateResult]

/-- which call of root crashes -/
theorem crashes_iff (hc : c.Ok) (hr : Reach c w) (hs : SomeShards w) {x : Call} :
    (∃ s, dispatch c x .root w = .error (.panic s)) ↔ Crashes w x := by
  induction x with
  | mandate y ih =>
    simp only [dispatch, Crashes, mandate_panic]
    exact ih
  | root y =>
    constructor
    · rintro ⟨s, h⟩
      have := dispatch_panic hc hr hs h
      rcases y with _ | _ | _ | _ | _ | y
      all_goals try exact this
      cases y <;> exact this
    · intro h
      rcases y with _ | _ | _ | _ | _ | y
      all_goals try exact h.elim
      cases y
      case tee.createCluster t =>
        have h : ¬ w.tee.nextCluster < U32MAX := by
          have : U32MAX ≤ w.tee.nextCluster := h
          omega
        simp [dispatch, rootCall, TeeM.root, TeeM.createCluster, expectSome, h, bind, Except.bind]
      all_goals exact h.elim
  | ext y =>
    simp only [Crashes, iff_false]
    rintro ⟨s, h⟩
    exact dispatch_panic hc hr hs h
  | _ => simp [dispatch, Crashes]
