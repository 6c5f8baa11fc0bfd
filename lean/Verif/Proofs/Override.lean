import Verif.Props.OverrideSpec
import Verif.Proofs.Twice
import Verif.Proofs.AucActs
import Verif.Proofs.Inv
import Verif.Proofs.StepCase
/-
Lemmas for C124.
-/
open Spec

variable {c : Cfg} {w w1 : World} {a : AccountId}

theorem FMap.del_comm {K V : Type} [DecidableEq K] (k k' : K) (l : List (K × V)) :
    FMap.del k (FMap.del k' l) = FMap.del k' (FMap.del k l) := by
  induction l with
  | nil => rfl
  | cons x t ih => obtain ⟨j, v⟩ := x; by_cases h : j = k <;> by_cases h' : j = k' <;> simp [FMap.del, h, h', ih] <;> simp_all [FMap.del]

/-- writing two entries again -/
theorem FMap.insert_again {K V : Type} [DecidableEq K] (m : FMap K V) {k k' : K} (h : k ≠ k') (u v u' v' : V) :
    (((m.insert k u).insert k' v).insert k u').insert k' v' = (m.insert k u').insert k' v' := by
  simp [FMap.insert, FMap.del, FMap.del_del, h, h.symm, FMap.del_comm k' k]

/-- paying in two parts is paying at once -/
theorem Bal.transfer_parts {ed : Balance} (hed : 0 < ed) {b b1 : Bal} {s d : AccountId} {v u : Balance}
    (h : b.transfer ed s d v .keepAlive = .ok b1) :
    b1.transfer ed s d u .keepAlive = b.transfer ed s d (v + u) .keepAlive := by
  by_cases hv : v = 0
  · subst hv
    simp [transfer] at h
    subst h; simp
  by_cases hs : s = d
  · subst hs
    simp [transfer] at h ⊢
    exact h.symm
  by_cases hu : u = 0
  · subst hu
    rw [Nat.add_zero, h]; simp [transfer]
  unfold transfer at h
  rw [if_neg (by simp [hv, hs])] at h
  inv_ok at h
  obtain ⟨h1, h2, h3, rfl⟩ := h
  obtain ⟨h4, h5⟩ := h2
  have h6 : ed ≤ b.freeOf s - v := by
    by_contra hlt
    have := (h5 (by omega)).1
    simp at this
  have e1 : b.settle ed s (b.freeOf s - v) = b.setFree s (b.freeOf s - v) := by
    unfold settle; rw [if_neg (by omega)]
  rw [e1]
  have z : ∀ x : Balance, ed ≤ x → x ≠ 0 := by intro x hx; omega
  have z1 := z _ h6
  have z2 := z _ h3
  have f1 : ((b.setFree s (b.freeOf s - v)).setFree d (b.freeOf d + v)).freeOf s = b.freeOf s - v := by
    rw [freeOf_setFree, if_neg hs, freeOf_setFree, if_pos rfl]
  have f2 : ((b.setFree s (b.freeOf s - v)).setFree d (b.freeOf d + v)).freeOf d = b.freeOf d + v := by
    rw [freeOf_setFree, if_pos rfl]
  have f3 : ∀ x l, canLeave ed ((b.setFree s (b.freeOf s - v)).setFree d (b.freeOf d + v)) s x l ↔ canLeave ed b s x l :=
    fun _ _ => Iff.rfl
  unfold transfer
  rw [if_neg (by simp [hu, hs]), if_neg (by simp [hv, hs]), f1, f2]
  simp only [f3, Nat.sub_sub, Nat.add_assoc]
  by_cases h7 : v + u ≤ b.freeOf s
  · have h7' : u ≤ b.freeOf s - v := by omega
    simp only [require, h7, h7', if_true]
    by_cases h8 : canLeave ed b s (b.freeOf s - (v + u)) .keepAlive
    · have h9 : ed ≤ b.freeOf d + (v + u) := by omega
      simp only [h8, h9, if_true]
      have h10 : ed ≤ b.freeOf s - (v + u) := by
        by_contra hlt
        have := (h8.2 (by omega)).1
        simp at this
      have e2 : ∀ b' : Bal, b'.settle ed s (b.freeOf s - (v + u)) = b'.setFree s (b.freeOf s - (v + u)) := by
        intro b'; unfold settle; rw [if_neg (by omega)]
      rw [e2, e2]
      have z3 := z _ h10
      have z4 := z _ h9
      simp only [bind, Except.bind, pure, Except.pure, Except.ok.injEq]
      unfold setFree
      simp only [if_neg z1, if_neg z2, if_neg z3, if_neg z4]
      rw [FMap.insert_again _ hs]
    · simp only [h8, if_false]; rfl
  · have h7' : ¬ u ≤ b.freeOf s - v := by omega
    simp only [require, h7, h7', if_false]; rfl

theorem Queue.has_ids {q : Queue} {n : NFTId} (h : n ∈ q.ids) : q.has n = true := by
  by_contra hc
  have : q.find n = none := by simpa [has] using hc
  exact (find_none.1 this) h

theorem Queue.update_again {lim : Nat} {q q1 : Queue} (hq : q.WF) {n : NFTId} {b b' : Block} (h : q.update lim n b = .ok q1) :
    q1.update lim n b' = q.update lim n b' := by
  rcases update_ok h with ⟨h1, rfl⟩ | ⟨h1, rfl⟩
  · rfl
  · have hm : n ∉ (q.remove n).ids := by simp [mem_ids_remove hq]
    unfold update
    have e1 : has (ins n b (q.remove n)) n = true := has_ids (mem_ids_ins.2 (.inl rfl))
    have e2 : has q n = true := has_ids h1
    rw [if_pos e1, if_pos e2, remove_ins _ hm]

theorem FMap.set_set_over {K V : Type} [DecidableEq K] (m : FMap K V) (k : K) (o o' : Option V) :
    (m.set k o).set k o' = m.set k o' := by
  cases o <;> cases o' <;> simp [FMap.set, FMap.insert, FMap.erase, FMap.del, FMap.del_del]

set_option hygiene false in
/-- open the first call, then run the second on both states -/
macro "override" : tactic => `(tactic|
  (inv_ok at h
   casesm* _ ∧ _, ∃ _, _
   subst_vars
   simp_all [getOr, require, World.putNft, bind, Except.bind, pure, Except.pure, FMap.set_set_over]))

namespace NftM

theorem override {x y : NftM.Call} (ho : Overrides (.nft x) (.nft y)) (h : call c w a x = .ok w1) :
    call c w1 a y = call c w a y := by
  cases ho with
  | royalty => simp only [call, setRoyalty] at h ⊢; override
  | delegate => simp only [call, delegateNft] at h ⊢; override
  | capsuleData => simp only [call, setCapsuleData] at h ⊢; override
  | collData => simp only [call, setCollData] at h ⊢; override

end NftM

namespace MktM

theorem apply_over {α : Type} {x y : ConfigOp α} (h : Replaces x y) (o : Option α) : apply (apply o x) y = apply o y := by
  cases x <;> cases y <;> simp_all [Replaces, apply]

theorem override {x y : MktM.Call} (ho : Overrides (.mkt x) (.mkt y)) (h : call c w a x = .ok w1) :
    call c w1 a y = call c w a y := by
  cases ho with
  | mktKind => simp only [call, setKind] at h ⊢; override
  | mktConfig h1 h2 h3 h4 h5 =>
    simp only [call, setConfig] at h ⊢
    inv_ok at h
    casesm* _ ∧ _, ∃ _, _
    subst_vars
    simp_all [getOr, require, bind, Except.bind, pure, Except.pure, apply_over]

end MktM

namespace RentM

theorem override {x y : RentM.Call} (ho : Overrides (.rent x) (.rent y)) (h : call c w a x = .ok w1) :
    call c w1 a y = call c w a y := by
  cases ho with
  | terms =>
    simp only [call, changeTerms] at h ⊢
    inv_ok at h
    casesm* _ ∧ _, ∃ _, _
    subst_vars
    rename_i k _ _ _ _ _ _
    by_cases hk : k.rentee.isSome <;>
    simp_all [getOr, require, bind, Except.bind, pure, Except.pure, canAdjust]

end RentM

namespace TrM

theorem override (hq : w.tr.queue.WF) {x y : TrM.Call} (ho : Overrides (.tr x) (.tr y)) (h : call c w a x = .ok w1) :
    call c w1 a y = call c w a y := by
  cases ho with
  | @timer n b b' =>
    simp only [call, resetTimer] at h ⊢
    inv_ok at h
    obtain ⟨d, t, q, h1, h2, h3, h4, h5, h6, h7, h8, rfl⟩ := h
    have := Queue.update_again hq (b' := b') h8
    simp_all [getOr, require, bind, Except.bind, pure, Except.pure, canReset]

end TrM

namespace TeeM

theorem setKind_again (l : List MetricsServer) (b : AccountId) (t t' : ClusterType) :
    setKind b t' (setKind b t l) = setKind b t' l := by
  induction l with
  | nil => rfl
  | cons x r ih => by_cases h : x.addr = b <;> simp [setKind, h, ih]

theorem addReport_again {l l1 : List Report} {r r' : Report} (hb : r.by_ = r'.by_) (h : addReport c l r = .ok l1) :
    addReport c l1 r' = addReport c l r' := by
  have key : ∀ l l1 : List Report, putReport r l = some l1 → putReport r' l1 = putReport r' l ∧ ∃ l2, putReport r' l = some l2 := by
    intro l
    induction l with
    | nil => simp [putReport]
    | cons x t ih =>
      intro l1 h
      simp only [putReport] at h
      split at h
      · rename_i hx
        simp at h; subst h
        simp [putReport, hb, hx.trans hb]
      · rename_i hx
        simp only [Option.map_eq_some_iff] at h
        obtain ⟨t1, h1, rfl⟩ := h
        have hx' : x.by_ ≠ r'.by_ := by rw [← hb]; exact hx
        obtain ⟨i1, l2, i2⟩ := ih t1 h1
        simp [putReport, hx', i1, i2]
  have key2 : ∀ l : List Report, putReport r l = none → putReport r' l = none ∧ putReport r' (l ++ [r]) = some (l ++ [r']) := by
    intro l
    induction l with
    | nil => simp [putReport, hb]
    | cons x t ih =>
      intro h
      simp only [putReport] at h
      split at h
      · simp at h
      · rename_i hx
        simp only [Option.map_eq_none_iff] at h
        obtain ⟨i1, i2⟩ := ih h
        have hx' : x.by_ ≠ r'.by_ := by rw [← hb]; exact hx
        simp [putReport, hx', i1, i2]
  unfold addReport at h
  cases e : putReport r l with
  | some l2 =>
    rw [e] at h; cases h
    obtain ⟨h1, l3, h2⟩ := key _ _ e
    simp [addReport, h1, h2]
  | none =>
    rw [e] at h
    inv_ok at h
    obtain ⟨h1, rfl⟩ := h
    obtain ⟨h2, h3⟩ := key2 _ e
    simp [addReport, h2, h3, require, h1, bind, Except.bind, pure, Except.pure]

theorem override {x y : TeeM.Call} (ho : Overrides (.tee x) (.tee y)) (h : call c w a x = .ok w1) :
    outcome (call c w1 a y) = outcome (call c w a y) := by
  cases ho with
  | report hb =>
    simp only [call, submitReport] at h ⊢
    inv_ok at h
    obtain ⟨s, d, e, l, h1, h2, h3, h4, h5, rfl⟩ := h
    have := addReport_again (c := c) hb h5
    simp_all [getOr, require, bind, Except.bind, pure, Except.pure, World.ev]
    cases addReport c ((w.tee.reports.get (e - 1, _)).getD []) _ <;> simp_all [outcome]

theorem override_root {x y : TeeM.RootCall} (ho : Overrides (.root (.tee x)) (.root (.tee y))) (h : root c w x = .ok w1) :
    root c w1 y = root c w y := by
  cases ho with
  | weights => cases h; rfl
  | staking => cases h; rfl
  | pool => cases h; rfl
  | era => simp only [root, setAssignedEra] at h ⊢; override
  | cluster => simp only [root, updateCluster] at h ⊢; override
  | server =>
    simp only [root, setServerType] at h ⊢
    inv_ok at h
    obtain ⟨z, hz, rfl, rfl⟩ := h
    have h1 : ∃ x ∈ w.tee.servers, x.addr = z.addr := ⟨z, hz, rfl⟩
    have h2 : ∀ t, ∃ x ∈ setKind z.addr t w.tee.servers, x.addr = z.addr := by
      intro t
      have : ∀ l : List MetricsServer, (∃ x ∈ l, x.addr = z.addr) → ∃ x ∈ setKind z.addr t l, x.addr = z.addr := by
        intro l
        induction l with
        | nil => simp
        | cons x r ih =>
          rintro ⟨y, hy, he⟩
          by_cases hx : x.addr = z.addr
          · simp [setKind, hx]
          · rcases List.mem_cons.1 hy with rfl | hy
            · exact absurd he hx
            · obtain ⟨u, hu, hu'⟩ := ih ⟨y, hy, he⟩
              exact ⟨u, by simp [setKind, hx, hu], hu'⟩
      exact this _ h1
    simp only [require, if_pos h1, if_pos (h2 _), setKind_again]

end TeeM

namespace BrM

theorem override {x y : BrM.ExtCall} (ho : Overrides (.ext x) (.ext y)) (h : ext c w x = .ok w1) :
    ext c w1 y = ext c w y := by
  cases ho with
  | threshold => simp only [ext, setThreshold] at h ⊢; override
  | relayers => cases h; rfl
  | nonce hn =>
    simp only [ext, setNonce] at h ⊢
    inv_ok at h
    obtain ⟨k, h1, h2, h3, rfl⟩ := h
    simp_all [getOr, require, bind, Except.bind, pure, Except.pure, Nat.lt_trans h2 hn]
  | bridgeFee => cases h; rfl
  | extra => cases h; rfl

end BrM

namespace AucM

theorem findBid_last {l : List (AccountId × Balance)} {v : Balance} (h : findBid a l = none) :
    findBid a (l ++ [(a, v)]) = some v := by
  induction l with
  | nil => simp [findBid]
  | cons x t ih =>
    obtain ⟨b, u⟩ := x
    simp only [findBid] at h
    split at h
    · simp at h
    · rename_i hb; simp [findBid, hb, ih h]

theorem removeBid_last {l : List (AccountId × Balance)} {v : Balance} (h : findBid a l = none) :
    removeBid a (l ++ [(a, v)]) = l := by
  induction l with
  | nil => simp [removeBid]
  | cons x t ih =>
    obtain ⟨b, u⟩ := x
    simp only [findBid] at h
    split at h
    · simp at h
    · rename_i hb; simp [removeBid, hb, ih h]

/-- putting in the higher bid at once or after the lower one -/
theorem insertBid_again {l0 l : List (AccountId × Balance)} {v v' : Balance} {dr} (h0 : l0.length ≤ c.bidLimit)
    (hf : findBid a l0 = none) (h : insertBid c l0 a v = .ok (dr, l)) :
    ∃ l1, l = l1 ++ [(a, v)] ∧ findBid a l1 = none ∧ insertBid c l0 a v' = .ok (dr, l1 ++ [(a, v')]) ∧
      insertBid c l1 a v' = .ok (none, l1 ++ [(a, v')]) := by
  unfold insertBid at h ⊢
  split at h
  · rename_i hl
    cases l0 with
    | nil => simp at h
    | cons x t =>
      simp only [Except.ok.injEq, Prod.mk.injEq] at h
      obtain ⟨rfl, rfl⟩ := h
      obtain ⟨b, u⟩ := x
      have hf' : findBid a t = none := by
        simp only [findBid] at hf
        split at hf
        · simp at hf
        · exact hf
      simp only [List.length_cons] at h0 hl
      exact ⟨t, rfl, hf', by rw [if_pos (by simpa using hl)], by rw [if_neg (by omega)]⟩
  · rename_i hl
    simp only [Except.ok.injEq, Prod.mk.injEq] at h
    obtain ⟨rfl, rfl⟩ := h
    exact ⟨l0, rfl, hf, by rw [if_neg hl], by rw [if_neg hl]⟩

theorem override (hc : c.Ok) (hi : Inv c w) {x y : AucM.Call} (ho : Overrides (.auc x) (.auc y))
    (hn : ∀ n v z, x = .addBid n v → w.auc.auctions.get n = some z → w.now ≤ z.fin) (h : call c w a x = .ok w1) :
    call c w1 a y = call c w a y := by
  cases ho with
  | @bid n v v' hv =>
    have h := call_act h
    cases h with
    | @addBid _ _ z b dr l q hz h1 h2 h3 h4 h5 h6 h7 =>
      have ok := hi.ok n z hz
      have hnow := hn n v z rfl hz
      have hb := beats_max h4 ok.ladder fun y hy => (ok.bid y hy).2.1
      obtain ⟨l1, rfl, e1, e2, e3⟩ := insertBid_again (v' := v')
        (Nat.le_trans (removeBid_sublist.length_le) ok.len) (findBid_removeBid ok.one) h6
      have hold : (findBid a z.bids).getD 0 ≤ v := by
        cases hf : findBid a z.bids with
        | none => simp
        | some u => exact Nat.le_of_lt (hb.2 _ (findBid_mem hf))
      have ht := Bal.transfer_parts (u := v' - v) hc.ed h5
      have hsum : v - (findBid a z.bids).getD 0 + (v' - v) = v' - (findBid a z.bids).getD 0 := by omega
      rw [hsum] at ht
      have hbt : beats z v' = true := by
        unfold beats at h4 ⊢
        cases hl : z.bids.getLast? with
        | none => simp only [hl, decide_eq_true_eq] at h4 ⊢; exact Nat.lt_trans h4 hv
        | some t => simp only [hl, decide_eq_true_eq] at h4 ⊢; exact Nat.lt_trans h4 hv
      have hbt' : beats { z with bids := l1 ++ [(a, v)] } v' = true := by
        simp [beats, hv]
      have hed : c.ed < v' := by omega
      rw [extend_eq] at h7 ⊢
      simp only [call, AucM.addBid]
      by_cases hg : z.fin - w.now < c.grace
      · simp only [hg, if_true] at h7 ⊢
        have hg2 : ¬ z.fin + (c.grace - (z.fin - w.now)) - w.now < c.grace := by omega
        have hbt2 : beats { z with bids := l1 ++ [(a, v)], fin := z.fin + (c.grace - (z.fin - w.now)), extended := true } v'
            = true := hbt'
        have u1 : w.auc.deadlines.update c.aucLimit n (z.fin + (c.grace - (z.fin - w.now))) = .ok q := h7
        simp only [getOr, require, FMap.get_insert_self, hz, h1, h2, hed, hbt, hbt2, if_true, ne_eq, not_false_eq_true, ht,
          findBid_last e1, removeBid_last e1, Option.getD_some, e2, e3, bind, Except.bind, pure, Except.pure, extend_eq,
          hg, hg2, if_false, updateDeadline, u1, addClaimOpt, FMap.insert_insert_self, World.putBal]
      · simp only [hg, if_false, updateDeadline] at h7 ⊢
        cases h7
        simp only [getOr, require, FMap.get_insert_self, hz, h1, h2, hed, hbt, hbt', if_true, ne_eq, not_false_eq_true, ht,
          findBid_last e1, removeBid_last e1, Option.getD_some, e2, e3, bind, Except.bind, pure, Except.pure, extend_eq,
          hg, if_false, addClaimOpt, FMap.insert_insert_self, World.putBal]

end AucM

/-- what one of the calls does to what another one that overrides it would do -/
theorem override (hc : c.Ok) (hr : Reach c w) {o : Origin} {x y : Call} (hxy : Overrides x y)
    (hn : ∀ n v z, x = .auc (.addBid n v) → w.auc.auctions.get n = some z → w.now ≤ z.fin)
    (h : dispatch c x o w = .ok w1) : outcome (dispatch c y o w1) = outcome (dispatch c y o w) := by
  cases o with
  | signed b =>
    cases x <;> cases y <;> try (cases hxy; done)
    case nft => rw [show dispatch c (.nft _) (.signed b) w1 = dispatch c (.nft _) (.signed b) w from NftM.override hxy h]
    case mkt => rw [show dispatch c (.mkt _) (.signed b) w1 = dispatch c (.mkt _) (.signed b) w from MktM.override hxy h]
    case auc =>
      rw [show dispatch c (.auc _) (.signed b) w1 = dispatch c (.auc _) (.signed b) w from
        AucM.override hc (hr.auc hc) hxy (fun n v z e => hn n v z (by rw [e])) h]
    case rent => rw [show dispatch c (.rent _) (.signed b) w1 = dispatch c (.rent _) (.signed b) w from RentM.override hxy h]
    case tr =>
      rw [show dispatch c (.tr _) (.signed b) w1 = dispatch c (.tr _) (.signed b) w from
        TrM.override (hr.inv hc).tr.wf hxy h]
    case tee => exact TeeM.override hxy h
    case root => simp [dispatch, signedCall] at h
    case ext => simp [dispatch, signedCall] at h
  | root =>
    cases x <;> cases y <;> try (cases hxy; done)
    case root x y =>
      have : rootCall c w1 y = rootCall c w y := by
        have h : rootCall c w x = .ok w1 := h
        cases x <;> cases y <;> try (cases hxy; done)
        case tee => exact TeeM.override_root hxy h
        case trFee => cases hxy; rename_i k _ _ _; cases k <;> cases h <;> rfl
        all_goals cases h; rfl
      exact congrArg outcome this
    case ext => exact congrArg outcome (BrM.override hxy h)
    all_goals simp [dispatch] at h
  | ext =>
    cases x <;> cases y <;> try (cases hxy; done)
    case ext => exact congrArg outcome (BrM.override hxy h)
    all_goals simp [dispatch] at h
