import Verif.Proofs.ReasonNft
import Verif.Proofs.ReasonMkt
import Verif.Proofs.ReasonRent
import Verif.Proofs.ReasonTr
import Verif.Proofs.AcceptTee
import Verif.Props.Leftover
/-
Lemmas for C117: errors of the tee and bridge pallets, of calls of root and the committee, and of all calls.
-/
variable {c : Cfg} {w w' : World} {a : AccountId} {s : String}
set_option maxRecDepth 10000
open Spec Spec.Why Spec.Accept

namespace TeeM

theorem putReport_iff {r : Report} {l : List Report} : (∃ l', putReport r l = some l') ↔ ∃ x ∈ l, x.by_ = r.by_ := by
  induction l with
  | nil => simp [putReport]
  | cons y t ih =>
    simp only [putReport]
    by_cases e : y.by_ = r.by_
    · simp [e]
    · simp only [e, if_false, Option.map_eq_some_iff, List.mem_cons, exists_eq_or_imp, false_or]
      rw [← ih]
      constructor
      · rintro ⟨_, z, hz, _⟩; exact ⟨z, hz⟩
      · rintro ⟨z, hz⟩; exact ⟨_, z, hz, rfl⟩

theorem reason {x : Call} (hr : Reach c w) (h : call c w a x = .error (.e s)) : Reason c w a (.tee x) s := by
  have ht := hr.tinv
  have hs := hr.sinv
  cases x <;> simp only [call] at h
  case register b u =>
    simp only [register] at h; inv_err at h
    rcases h with ⟨h, rfl⟩ | ⟨_, ⟨h, rfl⟩ | ⟨_, ⟨h, rfl⟩ | ⟨h1, ⟨h, rfl⟩ | ⟨h2, ⟨h, rfl⟩ | ⟨_, ⟨h, rfl⟩ | ⟨_, ⟨h, rfl⟩ | ⟨h3, h, rfl⟩⟩⟩⟩⟩⟩⟩
    · subst h; exact .tee (.noUri (.inl rfl))
    · subst h; exact .tee (.same (.inl rfl))
    · exact .tee (.pending h)
    · exact .tee (.operator h)
    · exact .tee (.address1 h)
    · obtain ⟨l, hl⟩ := Option.ne_none_iff_exists'.1 h
      refine .tee (.unbonding ⟨l, hl, ?_⟩)
      rcases (C99_tee hr).stake a l hl with h | h | h
      · exact h
      · exact absurd h1 h
      · exact absurd h2 h
    · exact .tee (.funds1 (by omega))
    · exact .tee (.locked1 fun g => h ((ensure_iff w a _ h3).1 g))
  case unregister =>
    simp only [unregister] at h
    split at h
    · rename_i e he
      simp only [unregisterAssigned] at h; inv_err at h
      rcases h with ⟨h, rfl⟩ | ⟨h1, ⟨h, rfl⟩ | ⟨_, h, rfl⟩⟩
      · exact .tee (.leaving h)
      · exact .tee (.queue (by rw [he]; simp) (by omega))
      · obtain ⟨l, hl, _⟩ := hs.act a e he h1
        rw [hl] at h; cases h
    · rename_i he
      simp only [dropRegistration] at h; inv_err at h
      obtain ⟨h, rfl⟩ := h
      exact .tee (.unknown he h)
  case update b u =>
    simp only [update] at h; inv_err at h
    rcases h with ⟨h, rfl⟩ | ⟨_, ⟨h, rfl⟩ | ⟨_, ⟨h, rfl⟩ | ⟨e, he, ⟨h, rfl⟩ | ⟨_, h, rfl⟩⟩⟩⟩
    · subst h; exact .tee (.noUri (.inr rfl))
    · subst h; exact .tee (.same (.inr rfl))
    · exact .tee (.unassigned h)
    · exact .tee (.updating h)
    · exact .tee (.address2 ⟨e, he, fun g => h (.inl g)⟩ fun g => h (.inr g))
  case cancelUpdate =>
    simp only [dropUpdate] at h; inv_err at h
    obtain ⟨h, rfl⟩ := h
    exact .tee (.noUpdate h)
  case withdraw =>
    simp only [withdraw] at h; inv_err at h
    rcases h with ⟨h, rfl⟩ | ⟨l, hl, ⟨h, rfl⟩ | ⟨_, h, rfl⟩⟩
    · exact .tee (.noStake (.inl rfl) h)
    · exact .tee (.bonded ⟨l, hl, h⟩)
    · exact .tee (.early ⟨l, hl, by omega⟩)
  case submitReport op r =>
    simp only [submitReport] at h; inv_err at h
    rcases h with ⟨h, rfl⟩ | ⟨y, hy, ⟨h, rfl⟩ | ⟨_, ⟨h, rfl⟩ | ⟨d, hd, ⟨h, rfl⟩ | ⟨e, he, h⟩⟩⟩⟩
    · refine .tee (.noServer fun x hx => ?_)
      simpa using List.find?_eq_none.1 h x hx
    · exact .tee (.server ⟨y, List.mem_of_find?_eq_some hy, by simpa using List.find?_some hy, h⟩)
    · exact .tee (.noOperator h)
    · exact .tee (.noEra (.inl ⟨op, r, rfl⟩) h)
    · unfold addReport at h
      split at h
      · cases h
      · rename_i hp
        inv_err at h
        obtain ⟨h, rfl⟩ := h
        refine .tee (.reports ⟨e, _, he, rfl, fun y hy e => ?_, by omega⟩)
        obtain ⟨l', hl⟩ := putReport_iff.2 ⟨y, hy, e⟩
        rw [hl] at hp; cases hp
  case claim e =>
    simp only [claim] at h; inv_err at h
    rcases h with ⟨h, rfl⟩ | ⟨_, ⟨h, rfl⟩ | ⟨n, hn, ⟨h, rfl⟩ | ⟨y, hy, ⟨h, rfl⟩ | ⟨_, ⟨h, rfl⟩ | ⟨d, hd, h⟩⟩⟩⟩⟩
    · exact .tee (.claimed h)
    · exact .tee (.noEra (.inr ⟨e, rfl⟩) h)
    · exact .tee (.notAssigned ((ht.era a).1 h))
    · exact .tee (.era ⟨n, y, hn, hy, by omega⟩)
    · rw [(ht.era a).2 h] at hy; cases hy
    · refine .pay ?_
      simp only [dues, reward_eq]
      exact paysAll_err h
  case bondExtra =>
    simp only [bondExtra] at h; inv_err at h
    rcases h with ⟨h, rfl⟩ | ⟨l, hl, ⟨h, rfl⟩ | ⟨_, ⟨h, rfl⟩ | ⟨h3, h, rfl⟩⟩⟩
    · exact .tee (.noStake (.inr (.inl rfl)) h)
    · exact .tee (.enough ⟨l, hl, by omega⟩)
    · exact .tee (.funds2 ⟨l, hl, by omega⟩)
    · exact .tee (.locked2 ⟨l, hl, fun g => h ((ensure_iff w a _ h3).1 g)⟩)
  case refundExcess =>
    simp only [refundExcess] at h; inv_err at h
    rcases h with ⟨h, rfl⟩ | ⟨l, hl, h, rfl⟩
    · exact .tee (.noStake (.inr (.inr rfl)) h)
    · exact .tee (.notMore ⟨l, hl, by omega⟩)

/-- removing an operator fails only for one that is none -/
theorem unassign_err (hr : Reach c w) {op : AccountId} (h : unassign w op = .error (.e s)) :
    s = "EnclaveNotFound" ∧ w.tee.data.get op = none := by
  by_cases hd : w.tee.data.get op = none
  · simp only [unassign] at h; inv_err at h
    rcases h with ⟨_, rfl⟩ | ⟨d, he, _⟩
    · exact ⟨rfl, hd⟩
    · rw [hd] at he; cases he
  · obtain ⟨w', hw, _⟩ := unassign_iff hr hd
    rw [hw] at h; cases h

theorem root_reason {x : RootCall} (hr : Reach c w) (h : root c w x = .error (.e s)) : Root c w x s := by
  have ht := hr.tinv
  have hg := hr.ginv
  cases x <;> simp only [root] at h
  case assign op k y =>
    simp only [assign] at h; inv_err at h
    rcases h with ⟨h, rfl⟩ | ⟨e, he, ⟨h, rfl⟩ | ⟨cl, hcl, ⟨h, rfl⟩ | ⟨_, ⟨h, rfl⟩ | ⟨_, ⟨h, rfl⟩ | ⟨_, h, rfl⟩⟩⟩⟩⟩
    · exact .noReg (.inr ⟨k, y, rfl⟩) h
    · exact .noCluster (.inl ⟨op, y, rfl⟩) h
    · exact .full ⟨cl, hcl, by omega⟩
    · exact .address1 ⟨e, he, h⟩
    · exact absurd (ht.reg op e he) h
    · exact .noEra h
  case removeRegistration op =>
    simp only [dropRegistration] at h; inv_err at h
    obtain ⟨h, rfl⟩ := h
    exact .noReg (.inl rfl) h
  case rejectUpdate op =>
    simp only [dropUpdate] at h; inv_err at h
    obtain ⟨h, rfl⟩ := h
    exact .noUpdate (.inl rfl) h
  case approveUnregister op =>
    simp only [approveUnregister] at h; inv_err at h
    rcases h with ⟨h, rfl⟩ | ⟨h1, h⟩
    · exact .notLeaving h
    · exact absurd (unassign_err hr h).2 (ht.unrData op h1)
  case forceRemove op =>
    simp only [forceRemove] at h; inv_err at h
    rcases h with h | ⟨w1, h1, h, rfl⟩
    · obtain ⟨rfl, g⟩ := unassign_err hr h
      exact .noEnclave (.inl rfl) g
    · simp only [unassign] at h1; inv_ok at h1
      obtain ⟨_, _, _, _, _, _, _, rfl⟩ := h1
      exact .noStake h
  case approveUpdate op =>
    simp only [approveUpdate] at h; inv_err at h
    rcases h with ⟨h, rfl⟩ | ⟨u, hu, ⟨h, rfl⟩ | ⟨_, ⟨h, rfl⟩ | ⟨_, ⟨h, rfl⟩ | ⟨e, he, h⟩⟩⟩⟩
    · exact .noUpdate (.inr rfl) h
    · exact absurd h (hg.upd op u hu).2
    · exact absurd h (hg.upd op u hu).1.symm
    · exact absurd h (ht.upd op u hu)
    · unfold approveAddr at h
      split at h
      · cases h
      · rename_i hne
        inv_err at h
        obtain ⟨h, rfl⟩ := h
        exact .address2 (.inl ⟨rfl, u, hu, rfl⟩) ⟨e, he, hne⟩ h
  case forceUpdate op b u =>
    simp only [forceUpdate] at h; inv_err at h
    rcases h with ⟨h, rfl⟩ | ⟨_, ⟨h, rfl⟩ | ⟨e, he, h | ⟨z, hz, h, rfl⟩⟩⟩
    · cases b <;> cases u <;> simp at h
      exact .nothing
    · exact .noEnclave (.inr ⟨b, u, rfl⟩) h
    · cases b with
      | none => cases h
      | some b =>
        simp only [forceAddr] at h; inv_err at h
        rcases h with ⟨h, rfl⟩ | ⟨_, h, rfl⟩
        · subst h; exact .same
        · exact .address2 (.inr ⟨u, rfl⟩) ⟨e, he, fun g => h fun g2 => absurd g g2⟩ fun g => h fun _ => g
    · cases u with
      | none => simp at h
      | some u => simp at h; subst h; exact .noUri
  case createCluster t =>
    simp only [createCluster] at h; inv_err at h
  case updateCluster k t =>
    simp only [updateCluster] at h; inv_err at h
    obtain ⟨h, rfl⟩ := h
    exact .noCluster (.inr (.inl ⟨t, rfl⟩)) h
  case removeCluster k =>
    simp only [removeCluster] at h; inv_err at h
    rcases h with ⟨h, rfl⟩ | ⟨cl, hcl, h, rfl⟩
    · exact .noCluster (.inr (.inr rfl)) h
    · exact .used ⟨cl, hcl, fun e => h (by rw [e]; rfl)⟩
  case registerServer y =>
    simp only [registerServer] at h; inv_err at h
    rcases h with ⟨h, rfl⟩ | ⟨_, h, rfl⟩
    · refine .server ?_
      simpa using h
    · exact .servers (by omega)
  case unregisterServer b =>
    simp only [unregisterServer] at h; inv_err at h
    obtain ⟨h, rfl⟩ := h
    exact .noServer (.inl rfl) fun y hy e => h ⟨y, hy, e⟩
  case setServerType b t =>
    simp only [setServerType] at h; inv_err at h
    obtain ⟨h, rfl⟩ := h
    exact .noServer (.inr ⟨t, rfl⟩) fun y hy e => h ⟨y, hy, e⟩
  case setAssignedEra op e =>
    simp only [setAssignedEra] at h; inv_err at h
    obtain ⟨h, rfl⟩ := h
    exact .notAssigned ((ht.era op).1 h)
  all_goals cases h

end TeeM

namespace BrM

theorem reason {x : Call} (h : call c w a x = .error (.e s)) : Reason c w a (.br x) s := by
  cases x <;> simp only [call] at h
  case vote k t =>
    simp only [voteFor] at h; inv_err at h
    rcases h with ⟨h, rfl⟩ | ⟨_, ⟨h, rfl⟩ | ⟨_, h⟩⟩
    · exact .br (.relayer h)
    · exact .br (.chain1 (by simpa [allowed] using h))
    · cases e : w.br.votes.get (k, t) with
      | none =>
        simp only [e, vote] at h; inv_err at h
        obtain ⟨h, rfl⟩ := h
        exact .br (.many ⟨_, rfl, by simp [e]; omega⟩)
      | some p =>
        simp only [e, vote] at h; inv_err at h
        rcases h with ⟨h, rfl⟩ | ⟨_, ⟨h, rfl⟩ | ⟨_, ⟨h, rfl⟩ | ⟨_, h, rfl⟩⟩⟩
        · exact .br (.done ⟨p, e, h⟩)
        · exact .br (.expired ⟨p, e, h⟩)
        · exact .br (.again ⟨p, e, h⟩)
        · exact .br (.many ⟨_, rfl, by simp [e]; omega⟩)
  case deposit v r d =>
    simp only [deposit] at h; inv_err at h
    rcases h with ⟨h, rfl⟩ | ⟨_, ⟨h, rfl⟩ | ⟨_, h | ⟨b, hb, h⟩⟩⟩
    · exact .br (.chain2 (by simpa [allowed] using h))
    · have := Nat.mod_le (w.br.fee + v) (U128MAX + 1)
      exact .br (.funds (by omega))
    · exact .pay (payFee_err h)
    · refine .pay (payFee_next hb (.inl ?_))
      have := withdraw_err h
      simpa using this

theorem ext_reason {x : ExtCall} (h : ext c w x = .error (.e s)) : Committee c w x s := by
  cases x <;> simp only [ext] at h
  case setThreshold t =>
    simp only [setThreshold] at h; inv_err at h
    obtain ⟨h, rfl⟩ := h
    obtain rfl : t = 0 := by omega
    exact .zero
  case addChain k =>
    simp only [addChain] at h; inv_err at h
    rcases h with ⟨h, rfl⟩ | ⟨_, h, rfl⟩
    · subst h; exact .self
    · exact .chain (by simpa [allowed, Option.isSome_iff_ne_none] using h)
  case setNonce k x =>
    simp only [setNonce] at h; inv_err at h
    rcases h with ⟨h, rfl⟩ | ⟨y, hy, ⟨h, rfl⟩ | ⟨_, h, rfl⟩⟩
    · exact .noChain h
    · exact .low ⟨y, hy, by omega⟩
    · exact .range (by unfold U64MAX at h; omega)
  all_goals cases h

end BrM

/-- the error of a signed call -/
theorem signed_reason {x : Call} (hc : c.Ok) (hr : Reach c w) (ha : ¬ c.pot a) (h : signedCall c w a x = .error (.e s)) :
    States c w (.signed a) x s := by
  cases x <;> simp only [signedCall] at h
  case nft x => exact .signed (NftM.reason hc hr h)
  case mkt x => exact .signed (MktM.reason hc hr h)
  case auc x => exact .signed (AucM.reason hc hr ha h)
  case rent x => exact .signed (RentM.reason hc hr h)
  case tr x => exact .signed (TrM.reason hc hr h)
  case tee x => exact .signed (TeeM.reason hr h)
  case br x => exact .signed (BrM.reason h)
  case bal b v l =>
    refine .signed (.pay (.inl ?_))
    cases e : w.bal.transfer c.ed a b v l with
    | ok b => rw [e] at h; cases h
    | error e' =>
      rw [e] at h
      cases h
      exact transfer_err e
  all_goals
    cases h
    exact .origin id

/-- the error of any call -/
theorem dispatch_reason {x : Call} {o : Origin} (hc : c.Ok) (hr : Reach c w) (ho : ∀ a, o = .signed a → ¬ c.pot a)
    (h : dispatch c x o w = .error (.e s)) : States c w o x s := by
  have hm : ∀ r : Except Err World, mandateResult w r ≠ .error (.e s) := by
    rintro ((_ | _) | _) <;> simp [mandateResult]
  cases o with
  | signed a =>
    have : signedCall c w a x = .error (.e s) := by cases x <;> exact h
    exact signed_reason hc hr (ho a rfl) this
  | root =>
    cases x <;> simp only [dispatch] at h
    case root y =>
      cases y <;> simp only [rootCall] at h
      case tee y => exact .root (TeeM.root_reason hr h)
      all_goals cases h
    case ext y => exact .byRoot (BrM.ext_reason h)
    case mandate y => exact absurd h (hm _)
    all_goals
      cases h
      exact .origin id
  | ext =>
    cases x <;> simp only [dispatch] at h
    case ext y => exact .byCommittee (BrM.ext_reason h)
    case mandate y => exact absurd h (hm _)
    all_goals
      cases h
      exact .origin id
