import Verif.Props.CashSpec
import Verif.Proofs.Observe
import Verif.Props.Market
import Verif.Props.Auction
import Verif.Proofs.StepBal
/-
The payments that the events stand for are those that are made, call by call and hook by hook.
-/
open Spec

variable {c : Cfg} {w w' : World} {a : AccountId}

/-- payments `l` lead from `b` to `b'`, apart from what pots lose as dust -/
structure Spec.Paying (c : Cfg) (b b' : Bal) (l : List Payment) : Prop where
  free : ∀ x, x ≠ c.aucPot → x ≠ c.rentPot → b'.freeOf x + outgo x l = b.freeOf x + income x l
  collected : b'.collected = b.collected + toCollector l

namespace Spec.Paying
variable {b b' b1 b2 : Bal} {l l' : List Payment}

theorem nil (b : Bal) : Paying c b b [] := ⟨fun _ _ _ => rfl, rfl⟩

theorem append (h : Paying c b b1 l) (h' : Paying c b1 b2 l') : Paying c b b2 (l ++ l') := by
  refine ⟨fun x h1 h2 => ?_, ?_⟩
  · have e1 := h.free x h1 h2
    have e2 := h'.free x h1 h2
    simp only [outgo, income, List.filter_append, List.map_append, List.sum_append] at *
    omega
  · rw [h'.collected, h.collected]
    simp only [toCollector, List.filter_append, List.map_append, List.sum_append]
    omega

theorem cons {p : Payment} (h : Paying c b b1 [p]) (h' : Paying c b1 b2 l') : Paying c b b2 (p :: l') := h.append h'

theorem keep {s d : AccountId} {v : Balance} (h : b.transfer c.ed s d v .keepAlive = .ok b') :
    Paying c b b' [⟨s, some d, v⟩] := by
  refine ⟨fun x _ _ => ?_, ?_⟩
  · have := transfer_moves h x
    simp only [gets, @eq_comm _ x] at this
    by_cases e1 : s = x <;> by_cases e2 : d = x <;> simp_all [outgo, income]
  · simp [toCollector, (Bal.transfer_locks h).2.2]

theorem pot {s d : AccountId} {v : Balance} {lv : Live} (hs : s = c.aucPot ∨ s = c.rentPot)
    (h : b.transfer c.ed s d v lv = .ok b') : Paying c b b' [⟨s, some d, v⟩] := by
  refine ⟨fun x h1 h2 => ?_, ?_⟩
  · have hx : s ≠ x := by rintro rfl; rcases hs with h | h <;> simp_all
    by_cases e : s = d
    · subst e; rw [Bal.transfer_self h]; simp [outgo, income, hx]
    · rw [Bal.transfer_free h e]
      by_cases e2 : d = x
      · simp [outgo, income, hx, e2]
      · have e3 : ¬ x = d := fun h => e2 h.symm
        have e4 : ¬ x = s := fun h => hx h.symm
        simp [outgo, income, hx, e2, e3, e4]
  · simp [toCollector, (Bal.transfer_locks h).2.2]

theorem fee {s : AccountId} {v : Balance} (h : b.payFee c.ed s v = .ok b') : Paying c b b' [⟨s, none, v⟩] := by
  refine ⟨fun x _ _ => ?_, ?_⟩
  · rw [Bal.payFee_free h]
    have := Bal.payFee_le h
    by_cases e : s = x
    · subst e; simp [outgo, income]; omega
    · have e3 : ¬ x = s := fun h => e h.symm
      simp [outgo, income, e, e3]
  · simp [toCollector, (Bal.payFee_issuance h).2]

theorem same (h1 : b'.free = b.free) (h2 : b'.collected = b.collected) : Paying c b b' [] :=
  ⟨fun x _ _ => by simp [Bal.freeOf, h1, outgo, income], by simp [h2, toCollector]⟩

/-- payments of nothing do not matter -/
theorem zero {s : AccountId} {d : Option AccountId} (b : Bal) : Paying c b b [⟨s, d, 0⟩] := by
  refine ⟨fun x _ _ => ?_, ?_⟩
  · by_cases e : s = x <;> by_cases e2 : d = some x <;> simp [outgo, income, e, e2]
  · by_cases e2 : d = none <;> simp [toCollector, e2]

end Spec.Paying

theorem Spec.charge_eq (p : Balance) (f : Option CompoundFee) : charge p f = MktM.feeOnOpt p f := by
  cases f with
  | none => rfl
  | some f => cases f <;> rfl
theorem Spec.inTokens_eq (f : CancelFee) : inTokens f = RentM.feeTokens f := by cases f <;> rfl
theorem Spec.rentInTokens_eq (f : RentFee) : rentInTokens f = RentM.rentTokens f := by cases f <;> rfl
theorem Spec.earned_eq (k : Contract) (now : Block) (f : CancelFee) : earned k now f = RentM.keptPart k now f := by
  unfold RentM.keptPart RentM.full
  cases f <;> rfl
theorem Spec.protocol_eq (w : World) (p : Protocol) :
    (tariff w).protocol p = TrM.protocolFee w.tr (TrM.kind p) := by cases p <;> rfl

/-- the payments of the events of one operation -/
abbrev Spec.bill (c : Cfg) (w : World) (l : List Event) : List Payment :=
  ledger c (tariff w) (truth w) (l.map fun e => (w.now, e))

theorem NftM.create_paid {d r k sb} (h : createHelper c w a d r k sb = .ok w') :
    ∃ b, w.bal.payFee c.ed a w.nft.fee = .ok b ∧ w'.bal = b ∧ tariff w' = tariff w := by
  simp only [createHelper, nextNftId] at h
  inv_ok at h
  obtain ⟨b, w1, y, n, hb, h1, hn, rfl, rfl⟩ := h
  split at hn <;> simp at hn
  subst hn
  cases k <;> simp only [pushToColl] at h1 <;> inv_ok at h1
  · subst h1; exact ⟨b, hb, rfl, rfl⟩
  · obtain ⟨col, hc, _, _, _, _, rfl⟩ := h1; exact ⟨b, hb, rfl, rfl⟩

theorem NftM.secret_paid {n s} (h : addSecretHelper c w a n s = .ok w') :
    ∃ b d, w.nfts.get n = some d ∧ d.owner = a ∧ w.bal.payFee c.ed a w.nft.secretFee = .ok b ∧ w'.bal = b := by
  simp only [addSecretHelper] at h; inv_ok at h
  obtain ⟨d, b, hd, ho, _, _, _, _, _, _, hb, rfl⟩ := h
  exact ⟨b, d, hd, ho, hb, rfl⟩

theorem NftM.capsule_paid {n s} (h : toCapsuleHelper c w a n s = .ok w') :
    ∃ b d, w.nfts.get n = some d ∧ d.owner = a ∧ w.bal.payFee c.ed a w.nft.capsuleFee = .ok b ∧ w'.bal = b := by
  simp only [toCapsuleHelper] at h; inv_ok at h
  obtain ⟨d, b, hd, ho, _, _, _, _, _, _, hb, rfl⟩ := h
  exact ⟨b, d, hd, ho, hb, rfl⟩

theorem NftM.paid {x} (h : call c w a x = .ok w') : Paying c w.bal w'.bal (bill c w (emit c w a x)) := by
  cases x <;> simp only [call] at h <;> simp only [emit]
  case createNft =>
    obtain ⟨b, hb, rfl, _⟩ := create_paid h
    exact .fee hb
  case addSecret n s =>
    obtain ⟨b, d, hd, rfl, hb, rfl⟩ := secret_paid h
    have e : (truth w).nft n = some d := hd
    simp only [bill, ledger, List.map_cons, List.map_nil, payments, e, Option.elim]
    exact .fee hb
  case toCapsule n s =>
    obtain ⟨b, d, hd, rfl, hb, rfl⟩ := capsule_paid h
    have e : (truth w).nft n = some d := hd
    simp only [bill, ledger, List.map_cons, List.map_nil, payments, e, Option.elim]
    exact .fee hb
  case createSecret =>
    simp only [createSecret] at h; inv_ok at h
    obtain ⟨w1, _, h1, h⟩ := h
    obtain ⟨e1, _, e2⟩ := create_eq h1
    obtain ⟨b, hb, hb1, ht⟩ := create_paid h1
    obtain ⟨b2, d, hd, rfl, hb2, rfl⟩ := secret_paid h
    rw [e1, Nat.add_sub_cancel] at hd
    have e : (truth w1).nft w.nft.nextNft = some d := hd
    rw [e2] at e
    simp only [reads, List.foldl_cons, List.foldl_nil] at e
    simp only [bill, ledger, List.map_cons, List.map_nil, payments, e, Option.elim]
    subst hb1
    rw [show w1.nft.secretFee = (tariff w).secret from by rw [← ht]; rfl] at hb2
    exact Paying.cons (.fee hb) (.fee hb2)
  case createCapsule =>
    simp only [createCapsule] at h; inv_ok at h
    obtain ⟨w1, _, h1, h⟩ := h
    obtain ⟨e1, _, e2⟩ := create_eq h1
    obtain ⟨b, hb, hb1, ht⟩ := create_paid h1
    obtain ⟨b2, d, hd, rfl, hb2, rfl⟩ := capsule_paid h
    rw [e1, Nat.add_sub_cancel] at hd
    have e : (truth w1).nft w.nft.nextNft = some d := hd
    rw [e2] at e
    simp only [reads, List.foldl_cons, List.foldl_nil] at e
    simp only [bill, ledger, List.map_cons, List.map_nil, payments, e, Option.elim]
    subst hb1
    rw [show w1.nft.capsuleFee = (tariff w).capsule from by rw [← ht]; rfl] at hb2
    exact Paying.cons (.fee hb) (.fee hb2)
  case burnNft n =>
    simp only [burnNft] at h; inv_ok at h
    obtain ⟨d, w1, hd, _, _, _, _, _, h1, rfl⟩ := h
    cases e : d.coll <;> rw [e] at h1 <;> simp only [dropFromColl] at h1 <;> inv_ok at h1
    · subst h1; exact .nil _
    · obtain ⟨col, hc, _, rfl⟩ := h1; exact .nil _
  case transferNft n r =>
    simp only [transferNft] at h; inv_ok at h
    obtain ⟨d, hd, _, _, _, _, _, _, _, _, _, rfl⟩ := h
    exact .nil _
  case delegateNft n r =>
    simp only [delegateNft] at h; inv_ok at h
    obtain ⟨d, hd, _, _, _, _, _, _, rfl⟩ := h
    exact .nil _
  case setRoyalty n r =>
    simp only [setRoyalty] at h; inv_ok at h
    obtain ⟨d, hd, _, _, _, _, _, _, _, _, rfl⟩ := h
    exact .nil _
  case createColl =>
    simp only [createColl] at h; inv_ok at h
    obtain ⟨y, _, h1, rfl⟩ := h
    exact .nil _
  case burnColl =>
    simp only [burnColl] at h; inv_ok at h
    obtain ⟨y, _, _, _, rfl⟩ := h
    exact .nil _
  case closeColl =>
    simp only [closeColl] at h; inv_ok at h
    obtain ⟨y, _, _, rfl⟩ := h
    exact .nil _
  case limitColl =>
    simp only [limitColl] at h; inv_ok at h
    obtain ⟨y, _, _, _, _, _, _, rfl⟩ := h
    exact .nil _
  case addToColl =>
    simp only [addToColl] at h; inv_ok at h
    obtain ⟨y, d, _, _, _, _, _, _, _, _, rfl⟩ := h
    exact .nil _
  case addSecretShard n =>
    simp only [addSecretShard] at h; inv_ok at h
    obtain ⟨s, d, l, _, hd, _, hs, hl, rfl⟩ := h
    split <;> exact .nil _
  case setCapsuleData =>
    simp only [setCapsuleData] at h; inv_ok at h
    obtain ⟨d, _, _, _, _, _, _, _, _, rfl⟩ := h
    exact .nil _
  case addCapsuleShard n =>
    simp only [addCapsuleShard] at h; inv_ok at h
    obtain ⟨s, d, l, _, hd, _, hs, hl, rfl⟩ := h
    split <;> exact .nil _
  case notifyKey =>
    simp only [notifyKey] at h; inv_ok at h
    obtain ⟨d, _, _, _, _, _, _, _, _, _, rfl⟩ := h
    exact .nil _
  case setCollData =>
    simp only [setCollData] at h; inv_ok at h
    obtain ⟨y, _, _, rfl⟩ := h
    exact .nil _

theorem MktM.paid {x} (h : call c w a x = .ok w') : Paying c w.bal w'.bal (bill c w (emit w a x)) := by
  cases x <;> simp only [call] at h <;> simp only [emit]
  case create =>
    simp only [create] at h; inv_ok at h
    obtain ⟨b, y, hb, _, rfl⟩ := h
    exact .fee hb
  case setOwner =>
    simp only [setOwner] at h; inv_ok at h
    obtain ⟨d, _, hd, _, rfl⟩ := h
    exact .nil _
  case setKind =>
    simp only [setKind] at h; inv_ok at h
    obtain ⟨d, hd, _, rfl⟩ := h
    exact .nil _
  case setConfig m f l k o q =>
    simp only [setConfig] at h; inv_ok at h
    obtain ⟨d, hd, _, rfl⟩ := h
    exact .nil _
  case list n m p =>
    simp only [list] at h; inv_ok at h
    obtain ⟨d, k, b, hd, rfl, _, _, _, _, _, _, _, hk, _, _, hb, rfl⟩ := h
    have e1 : (truth w).nft n = some d := hd
    have e2 : (truth w).mkt m = some k := hk
    simp only [bill, ledger, List.map_cons, List.map_nil, payments, e1, e2, charge_eq]
    exact .keep hb
  case unlist =>
    simp only [unlist] at h; inv_ok at h
    obtain ⟨d, k, hd, _, _, rfl⟩ := h
    exact .nil _
  case buy n p =>
    simp only [buy] at h; inv_ok at h
    obtain ⟨d, s, k, b1, b2, b3, hd, hs, hk, _, _, _, h1, _, h2, _, h3, rfl⟩ := h
    have e1 : (truth w).nft n = some d := hd
    have e2 : (truth w).mkt s.mkt = some k := hk
    have e3 : (truth w).sale n = some s := hs
    simp only [hd, hs, bill, ledger, List.map_cons, List.map_nil, payments, e1, e2, e3]
    exact .cons (.keep h1) (.cons (.keep h2) (.keep h3))

theorem AucM.pay_paid {n src v d x b} (h : payForNft c w n src v d x = (b, .ok ())) :
    ∃ k f, w.mkt.mkts.get x.mkt = some k ∧ w.auc.comm.get n = some f ∧
      Paying c w.bal b [⟨src, some k.owner, (cuts v f d.royalty).1⟩, ⟨src, some d.creator, (cuts v f d.royalty).2.1⟩,
        ⟨src, some x.creator, (cuts v f d.royalty).2.2⟩] := by
  unfold payForNft at h
  split at h
  · simp at h
  · rename_i k hk
    split at h
    · simp at h
    · rename_i f hf
      refine ⟨k, f, hk, hf, ?_⟩
      have one : ∀ {b b' : Bal} {y z}, b.transfer c.ed src y z
          (if src = c.aucPot then .allowDeath else .keepAlive) = .ok b' → Paying c b b' [⟨src, some y, z⟩] := by
        intro b b' y z h
        split at h
        · rename_i e; exact .pot (.inl e) h
        · exact .keep h
      simp only [paySeq] at h
      split at h
      · simp at h
      · rename_i b1 h1
        split at h
        · simp at h
        · rename_i b2 h2
          split at h
          · simp at h
          · rename_i b3 h3
            simp only [Prod.mk.injEq, and_true] at h
            subst h
            exact .cons (one h1) (.cons (one h2) (one h3))

theorem AucM.earlier (l : List (AccountId × Balance)) (h : (l.map Prod.fst).Nodup) :
    ((l.filter (·.1 = a)).map (·.2)).sum = (findBid a l).getD 0 := by
  induction l with
  | nil => rfl
  | cons y t ih =>
    obtain ⟨b, v⟩ := y
    rw [List.map_cons, List.nodup_cons] at h
    simp only [findBid]
    by_cases e : b = a
    · subst e
      have : t.filter (fun y => decide (y.1 = b)) = [] := by
        rw [List.filter_eq_nil_iff]
        intro z hz
        simp only [decide_eq_true_eq]
        rintro rfl
        exact h.1 (List.mem_map.2 ⟨z, hz, rfl⟩)
      simp [this]
    · simp [e, ih h.2]

theorem AucM.paid (hc : c.Ok) (hr : Reach c w) {x} (h : call c w a x = .ok w') :
    Paying c w.bal w'.bal (bill c w (emit c w a x)) := by
  have hi := hr.auc hc
  cases call_act h with
  | create h1 h2 h3 h4 h5 h6 hd h7 h8 hk h9 h10 hq => exact .nil _
  | cancel hd hx h1 h2 => exact .nil _
  | @end_ n d x top b hd hx h1 h2 h3 h4 =>
    obtain ⟨k, f, hk, hf, hp⟩ := pay_paid h4
    have e1 : (truth w).nft n = some d := hd
    have e2 : (truth w).auction n = some x := hx
    have e3 : (truth w).mkt x.mkt = some k := hk
    simp only [emit, hx, h3, Option.bind_some, soldEvent, hd, hf, bill, ledger, List.map_cons, List.map_nil, payments, e1,
      e2, e3, Option.elim, Prod.mk.eta, if_pos (List.mem_of_getLast? h3), List.append_nil]
    exact hp
  | @addBid n v x b dr l q hx h1 h2 h3 h4 h5 h6 h7 =>
    have e2 : (truth w).auction n = some x := hx
    have hone := (hi.ok n x hx).one
    have hb := earlier (a := a) x.bids hone
    simp only [emit, droppedEvent, hx, h6]
    rcases dr with _ | y
    · simp only [List.nil_append, bill, ledger, List.map_cons, List.map_nil, payments, e2, Option.elim, hb]
      exact .keep h5
    · have hy : y.1 ≠ a := by
        rw [removeBid_filter hone] at h6
        unfold insertBid at h6
        split at h6
        · split at h6
          · simp at h6
          · rename_i z t ht
            simp only [Except.ok.injEq, Prod.mk.injEq, Option.some.injEq] at h6
            obtain ⟨rfl, rfl⟩ := h6
            have : z ∈ x.bids.filter fun y => decide (y.1 ≠ a) := by rw [ht]; simp
            simpa using (List.mem_filter.1 this).2
        · simp at h6
      have e3 : (see c.rentPot c.grace w.now (truth w) (.bidDropped n y.1 y.2)).auction n =
          some { x with bids := x.bids.filter fun z => z.1 ≠ y.1 } := by
        simp only [see, View.on, View.at_, View.refund, e2, if_true, Option.map_some]
      have e4 : (x.bids.filter fun z => decide (z.1 ≠ y.1)).filter (fun z => decide (z.1 = a)) =
          x.bids.filter fun z => decide (z.1 = a) := by
        rw [List.filter_filter]
        apply List.filter_congr
        intro z _
        by_cases e : z.1 = a
        · simp [e, Ne.symm hy]
        · simp [e]
      simp only [List.cons_append, List.nil_append, bill, ledger, List.map_cons, List.map_nil, payments, e3, Option.elim, e4,
        hb]
      exact .keep h5
  | @removeBid n x v b hx h1 h2 h3 =>
    simp only [emit, hx, Option.bind_some, h2, Option.getD_some]
    exact .pot (.inl rfl) h3
  | @buyItNow n p d x b hd hx h1 h2 h3 h4 h5 =>
    obtain ⟨k, f, hk, hf, hp⟩ := pay_paid h5
    have e1 : (truth w).nft n = some d := hd
    have e2 : (truth w).auction n = some x := hx
    have e3 : (truth w).mkt x.mkt = some k := hk
    have hn : (a, p) ∉ x.bids := by
      intro hm
      obtain ⟨top, hl⟩ : ∃ top, x.bids.getLast? = some top := by
        cases e : x.bids.getLast? with
        | none => rw [List.getLast?_eq_none_iff] at e; simp [e] at hm
        | some t => exact ⟨t, rfl⟩
      have := h4 top hl
      rcases last_max (hi.ok n x hx).ladder hl hm with rfl | h2
      · simp at this
      · simp only at h2; omega
    simp only [emit, soldEvent, hd, hf, bill, ledger, List.map_cons, List.map_nil, payments, e1,
      e2, e3, Option.elim, if_neg hn, List.append_nil]
    exact hp
  | claim h1 h2 =>
    simp only [emit, h1, Option.getD_some]
    exact .pot (.inl rfl) h2

theorem TrM.paid {x} (h : call c w a x = .ok w') : Paying c w.bal w'.bal (bill c w (emit w a x)) := by
  cases x <;> simp only [call] at h <;> simp only [emit]
  case set n r p k =>
    simp only [set] at h; inv_ok at h
    obtain ⟨d, q, b, _, hd, rfl, _, _, _, _, _, _, _, _, _, _, _, _, _, _, _, _, hb, rfl⟩ := h
    have e1 : (truth w).nft n = some d := hd
    simp only [bill, ledger, List.map_cons, List.map_nil, payments, e1, Option.elim, protocol_eq]
    exact .fee hb
  case remove n =>
    simp only [remove] at h; inv_ok at h
    obtain ⟨d, t, hd, _, _, ht, _, rfl⟩ := h
    exact .nil _
  case resetTimer =>
    simp only [resetTimer] at h; inv_ok at h
    obtain ⟨d, t, q, _, _, _, ht, _, _, _, _, rfl⟩ := h
    exact .nil _
  case addConsent n =>
    have hb : w'.bal = w.bal := by
      simp only [addConsent] at h; inv_ok at h
      obtain ⟨d, t, x, hd, _, ht, hx, _, _, _, _, h⟩ := h
      have key : ∀ w0 w1 : World, transmit w0 n = .ok w1 → w1.bal = w0.bal := by
        intro w0 w1 h1
        simp only [transmit] at h1; inv_ok at h1
        obtain ⟨_, _, _, _, rfl⟩ := h1; rfl
      unfold consentEffect at h
      split at h
      · inv_ok at h; subst h; rfl
      · split at h
        · split at h
          · inv_ok at h
            obtain ⟨w1, h1, rfl⟩ := h
            exact (key _ _ h1 :)
          · inv_ok at h
            obtain ⟨q, h1, rfl⟩ := h
            rfl
        · inv_ok at h
          obtain ⟨w1, h1, rfl⟩ := h
          exact (key _ _ h1 :)
    rw [hb]
    split
    · split <;> exact .nil _
    · exact .nil _

theorem Spec.ledger_append (t : Tariff) (v : View) (l l' : List (Block × Event)) :
    ledger c t v (l ++ l') = ledger c t v l ++
      ledger c (l.foldl (fun t e => t.see e.2) t) (books c.rentPot c.grace v l) l' := by
  induction l generalizing t v with
  | nil => rfl
  | cons e l ih =>
    obtain ⟨now, e⟩ := e
    simp only [List.cons_append, ledger, List.foldl_cons, books, ih, List.append_assoc]

theorem RentM.given {n} (h : handleFinished c n w = (w', .ok ())) :
    ∃ k, w.rent.contracts.get n = some k ∧ tariff w' = tariff w ∧ Paying c w.bal w'.bal (givenBack c.rentPot k) := by
  obtain ⟨k, d, b1, b2, hk, hd, h1, h2, rfl⟩ := finished_ok h
  refine ⟨k, hk, rfl, ?_⟩
  unfold givenBack
  unfold renteeTokens at h2
  refine .cons (by rw [inTokens_eq]; exact .pot (.inr rfl) h1) ?_
  cases e : k.rentee with
  | none =>
    simp only [e, Option.isSome, Bool.false_eq_true, if_false] at h2
    rcases Bal.transfer_ok h2 with ⟨_, rfl⟩ | ⟨h, _⟩
    · exact .nil _
    · exact absurd rfl h
  | some r =>
    simp only [e, Option.isSome, if_true, Option.getD_some] at h2
    simp only [inTokens_eq]
    exact .pot (.inr rfl) h2

theorem RentM.start_paid {n k r} (hk : w.rent.contracts.get n = some k) (h : startContract c w n k r = .ok w') :
    Paying c w.bal w'.bal (bill c w [.contractStarted n r]) := by
  obtain ⟨w1, q, h1, h2, rfl⟩ := startContract_ok h
  obtain ⟨b1, b2, t1, t2, _, _, rfl⟩ := takeFees_ok h1
  have e : (truth w).contract n = some k := hk
  simp only [bill, ledger, List.map_cons, List.map_nil, payments, e, Option.elim, inTokens_eq, rentInTokens_eq]
  exact .cons (.keep t1) (.keep t2)

theorem RentM.paid {x} (h : call c w a x = .ok w') : Paying c w.bal w'.bal (bill c w (emit c a x)) := by
  cases x <;> simp only [call] at h <;> simp only [emit]
  case create n du acc rv f x y =>
    simp only [create] at h; inv_ok at h
    obtain ⟨d, b, w1, q, _, hd, _, _, _, _, _, _, _, _, _, _, _, _, _, hb, h1, hq, rfl⟩ := h
    have e : w1.bal = b := by
      cases e : feeNft x <;> rw [e] at h1 <;> simp only [depositRenterNft] at h1 <;> inv_ok at h1
      · subst h1; rfl
      · obtain ⟨z, hz, _, _, rfl⟩ := h1; rfl
    simp only [bill, ledger, List.map_cons, List.map_nil, payments, inTokens_eq]
    show Paying c w.bal w1.bal _
    rw [e]
    exact .keep hb
  case cancel n =>
    simp only [cancel] at h; inv_ok at h
    obtain ⟨k, hk, _, _, h⟩ := h
    obtain ⟨k', hk', _, h⟩ := given (ext_ok h)
    have hk' : w.rent.contracts.get n = some k' := hk'
    rw [hk] at hk'; cases hk'
    have e : (truth w).contract n = some k := hk
    simp only [bill, ledger, List.map_cons, List.map_nil, payments, e, Option.elim, List.append_nil]
    exact h
  case revoke n =>
    obtain ⟨k, r, d, b0, b1, b2, hk, hr, hp, _, hd, t0, t1, t2, _, rfl⟩ := revoke_ok h
    have e : (truth w).contract n = some k := hk
    simp only [bill, ledger, List.map_cons, List.map_nil, payments, e, Option.elim, hr, Option.getD_some, inTokens_eq,
      earned_eq]
    exact .cons (.pot (.inr rfl) t0) (.cons (.pot (.inr rfl) t1) (.pot (.inr rfl) t2))
  case rent =>
    simp only [rent] at h; inv_ok at h
    obtain ⟨k, hk, _, _, _, _, _, h⟩ := h
    exact start_paid hk h
  case makeOffer =>
    simp only [makeOffer] at h; inv_ok at h
    obtain ⟨k, _, hk, _, _, _, _, _, _, _, _, _, _, _, rfl⟩ := h
    exact .nil _
  case acceptOffer =>
    simp only [acceptOffer] at h; inv_ok at h
    obtain ⟨k, l, hk, _, _, _, h⟩ := h
    exact start_paid hk h
  case retractOffer =>
    simp only [retractOffer] at h; inv_ok at h
    obtain ⟨l, hl, _, rfl⟩ := h
    exact .nil _
  case changeTerms n f p m ch =>
    simp only [changeTerms] at h; inv_ok at h
    obtain ⟨k, hk, _, _, _, _, _, _, rfl⟩ := h
    exact .nil _
  case acceptTerms =>
    simp only [acceptTerms] at h; inv_ok at h
    obtain ⟨k, s, hk, hs, _, _, _, _, _, _, rfl⟩ := h
    exact .nil _

/-- the payments of events `l` of block `now` -/
abbrev Spec.billAt (c : Cfg) (t : Tariff) (now : Block) (v : View) (l : List Event) : List Payment :=
  ledger c t v (l.map fun e => (now, e))

theorem RentM.given_here {F S A n k} (h : RInv c (setQ w F S A)) (hb : BalInv c w.bal)
    (hk : w.rent.contracts.get n = some k) :
    Paying c w.bal (handleFinished c n w).1.bal (givenBack c.rentPot k) := by
  obtain ⟨w1, h1⟩ := h.finish_succeeds hb hk
  rw [handleFinished_comm] at h1
  simp only [Prod.mk.injEq] at h1
  obtain ⟨k', hk', _, e⟩ := given (c := c) (w := w) (w' := (handleFinished c n w).1) (n := n) (by rw [← h1.2])
  rw [hk] at hk'; cases hk'
  exact e

theorem RentM.loopF_paid (t : Tariff) (q : Queue) (w : World) (i : Nat) {S A} (h : RInv c (setQ w q S A))
    (hb : BalInv c w.bal) :
    Paying c w.bal (finishLoop c w q i).1.bal (billAt c t w.now (truth w) (finishEmit c .contractEnded w q i)) := by
  induction q generalizing w i with
  | nil => exact .nil _
  | cons x q ih =>
    obtain ⟨n, b⟩ := x
    obtain ⟨k, _, _, hk, _⟩ := h.q.inF n b (List.mem_cons_self ..)
    have hk : w.rent.contracts.get n = some k := hk
    have e := given_here h hb hk
    have e' := finish_here h hb hk
    have ek : (truth w).contract n = some k := hk
    have h1 := (popF (off := fun _ _ => True) h hb).1
    have hb1 := handleFinished_bal w n hb
    simp only [finishLoop, finishEmit]
    split
    · split
      · simp only [billAt, List.map_cons, List.map_nil, ledger, payments, ek, Option.elim, List.append_nil]
        exact e
      · have i1 := ih _ (i + 1) h1 hb1
        rw [handleFinished_now, e'] at i1
        simp only [billAt, List.map_cons, ledger, payments, ek, Option.elim, see]
        exact e.append i1
    · exact .nil _

theorem RentM.loopA_paid (t : Tariff) (q : Queue) (w : World) (i : Nat) {F S} (h : RInv c (setQ w F S q))
    (hb : BalInv c w.bal) :
    Paying c w.bal (finishLoop c w q i).1.bal (billAt c t w.now (truth w) (finishEmit c .contractExpired w q i)) := by
  induction q generalizing w i with
  | nil => exact .nil _
  | cons x q ih =>
    obtain ⟨n, b⟩ := x
    obtain ⟨k, hk, _⟩ := h.q.inA n b (List.mem_cons_self ..)
    have hk : w.rent.contracts.get n = some k := hk
    have e := given_here h hb hk
    have e' := finish_here h hb hk
    have ek : (truth w).contract n = some k := hk
    have h1 := (popA (off := fun _ _ => True) h hb).1
    have hb1 := handleFinished_bal w n hb
    simp only [finishLoop, finishEmit]
    split
    · split
      · simp only [billAt, List.map_cons, List.map_nil, ledger, payments, ek, Option.elim, List.append_nil]
        exact e
      · have i1 := ih _ (i + 1) h1 hb1
        rw [handleFinished_now, e'] at i1
        simp only [billAt, List.map_cons, ledger, payments, ek, Option.elim, see]
        exact e.append i1
    · exact .nil _

theorem RentM.sub_paid (t : Tariff) {n b q F A} (h : RInv c (setQ w F ((n, b) :: q) A)) (hb : BalInv c w.bal) :
    Paying c w.bal (subOne c w n q).1.bal (payments c.aucPot c.rentPot w.now t (truth w) (subEvent c w n)) ∧
      t.see (subEvent c w n) = t := by
  obtain ⟨k, _, _, hk, _⟩ := h.q.inS n b (List.mem_cons_self ..)
  have hk : w.rent.contracts.get n = some k := hk
  have ek : (truth w).contract n = some k := hk
  unfold subOne subEvent
  rcases e : handleSub c w n with ⟨w1, _ | b1⟩
  · rw [handleSub_none e]
    simp only [Option.isSome, Bool.false_eq_true, if_false, payments, ek, Option.elim]
    exact ⟨given_here h hb hk, rfl⟩
  · obtain ⟨k', r, fee, bal, hk', hr, hf, ht, he, hbl, rfl, rfl⟩ := handleSub_some e
    rw [hk] at hk'; cases hk'
    simp only [Option.isSome, if_true, payments, ek, Option.elim, hr, hf, rentInTokens]
    exact ⟨.keep hbl, rfl⟩

theorem RentM.loopS_paid (t : Tariff) (fuel : Nat) (w : World) (q : Queue) (i : Nat) {F A} (h : RInv c (setQ w F q A))
    (hb : BalInv c w.bal) :
    Paying c w.bal (subLoop c w q i fuel).1.bal (billAt c t w.now (truth w) (subEmit c w q i fuel)) := by
  induction fuel generalizing w q i with
  | zero => exact .nil _
  | succ f ih =>
    unfold subLoop subEmit
    cases q with
    | nil => exact .nil _
    | cons x q =>
      obtain ⟨n, b⟩ := x
      obtain ⟨h1, h2, h3, _⟩ := stepS (off := fun _ _ => True) h hb
      obtain ⟨e, et⟩ := sub_paid t h hb
      have e' := sub_seen h hb
      dsimp only
      split
      · split
        · simp only [billAt, List.map_cons, List.map_nil, ledger, List.append_nil]
          exact e
        · have i1 := ih _ _ (i + 1) h1 h2
          rw [h3, e'] at i1
          simp only [billAt, List.map_cons, ledger, et]
          exact e.append i1
      · exact .nil _

/-- events that do not change the tariff -/
def Spec.Same (l : List Event) : Prop := ∀ t : Tariff, l.foldl Tariff.see t = t

theorem Spec.Same.nil : Same [] := fun _ => rfl
theorem Spec.Same.cons {e l} (h : ∀ t : Tariff, t.see e = t) (h' : Same l) : Same (e :: l) := fun t => by
  rw [List.foldl_cons, h, h']
theorem Spec.Same.append {l l'} (h : Same l) (h' : Same l') : Same (l ++ l') := fun t => by
  rw [List.foldl_append, h, h']

theorem Spec.billAt_append {l l'} (hs : Same l) (t : Tariff) (now : Block) (v : View) :
    billAt c t now v (l ++ l') = billAt c t now v l ++ billAt c t now (reads c now v l) l' := by
  unfold billAt
  rw [List.map_append, ledger_append, books_map]
  congr 2
  rw [List.foldl_map]
  exact hs t

theorem RentM.finish_same {e : NFTId → Event} (he : ∀ n (t : Tariff), t.see (e n) = t) (q : Queue) (w : World) (i : Nat) :
    Same (finishEmit c e w q i) := by
  induction q generalizing w i with
  | nil => exact .nil
  | cons x q ih =>
    obtain ⟨n, b⟩ := x
    simp only [finishEmit]
    split
    · refine .cons (he n) ?_
      split
      · exact .nil
      · exact ih _ _
    · exact .nil

theorem RentM.sub_same (fuel : Nat) (w : World) (q : Queue) (i : Nat) : Same (subEmit c w q i fuel) := by
  induction fuel generalizing w q i with
  | zero => exact .nil
  | succ f ih =>
    unfold subEmit
    cases q with
    | nil => exact .nil
    | cons x q =>
      obtain ⟨n, b⟩ := x
      dsimp only
      split
      · refine .cons (fun t => ?_) ?_
        · unfold subEvent; split <;> rfl
        · split
          · exact .nil
          · exact ih _ _ _
      · exact .nil

theorem RentM.hook_tariff : Same (hookEmit c w) := by
  simp only [hookEmit]
  exact ((finish_same (fun _ _ => rfl) _ _ _).append (sub_same _ _ _ _)).append (finish_same (fun _ _ => rfl) _ _ _)

theorem RentM.hook_paid (h : RInv c w) (hb : BalInv c w.bal) :
    Paying c w.bal (hook c w).bal (bill c w (hookEmit c w)) := by
  have he := hook_eq (c := c) w
  dsimp only at he
  rw [he]
  have f0 := loopF_seen w.rent.fixedQ w 0 (S := w.rent.subQ) (A := w.rent.availQ) h hb
  have p0 := loopF_paid (tariff w) w.rent.fixedQ w 0 (S := w.rent.subQ) (A := w.rent.availQ) h hb
  obtain ⟨f1, f2⟩ := loopF (off := fun _ _ => True) w.rent.fixedQ w 0 (S := w.rent.subQ) (A := w.rent.availQ) h hb
  have fb := hb.pays (finishLoop_pays w.rent.fixedQ w 0)
  have fn := finishLoop_now (c := c) w.rent.fixedQ w 0
  have s0 := loopS_seen (max 1 (c.rentActions - (finishLoop c w w.rent.fixedQ 0).2.2)) _ w.rent.subQ
    (finishLoop c w w.rent.fixedQ 0).2.2 f1 fb
  have p1 := loopS_paid (tariff w) (max 1 (c.rentActions - (finishLoop c w w.rent.fixedQ 0).2.2)) _ w.rent.subQ
    (finishLoop c w w.rent.fixedQ 0).2.2 f1 fb
  obtain ⟨s1, s2, s3, s4⟩ := loopS (off := fun _ _ => True)
    (max 1 (c.rentActions - (finishLoop c w w.rent.fixedQ 0).2.2)) _ w.rent.subQ
    (finishLoop c w w.rent.fixedQ 0).2.2 f1 fb
  have p2 := loopA_paid (tariff w) w.rent.availQ _
    (subLoop c (finishLoop c w w.rent.fixedQ 0).1 w.rent.subQ (finishLoop c w w.rent.fixedQ 0).2.2
      (max 1 (c.rentActions - (finishLoop c w w.rent.fixedQ 0).2.2))).2.2 s1 s2
  rw [s3, fn, s0, fn, f0] at p2
  rw [fn, f0] at p1
  have := (p0.append p1).append p2
  simp only [hookEmit, bill]
  rw [← billAt_append (finish_same (fun _ _ => rfl) _ _ _)] at this
  rw [show reads c w.now (reads c w.now (truth w) (finishEmit c .contractEnded w w.rent.fixedQ 0)) _ = _ from
    (List.foldl_append ..).symm] at this
  rw [← billAt_append ((finish_same (fun _ _ => rfl) _ _ _).append (sub_same _ _ _ _))] at this
  exact this

theorem AucM.settle_paid (t : Tariff) (n : NFTId) (h : (settleOne c w n).1.auc.auctions.get n = none) :
    Paying c w.bal (settleOne c w n).1.bal (billAt c t w.now (truth w) (settleEmit c w n)) := by
  unfold settleOne at h ⊢
  unfold settleEmit
  cases hx : w.auc.auctions.get n with
  | none => exact .nil _
  | some x =>
    simp only [hx] at h
    cases hd : w.nfts.get n with
    | none => exact .nil _
    | some d =>
      simp only [hd] at h
      simp only
      cases ht : x.bids.getLast? with
      | none => exact .nil _
      | some top =>
        simp only [ht] at h
        rcases hp : payForNft c w n c.aucPot top.2 d x with ⟨b, _ | _⟩
        · simp only [hp, World.putBal, hx, reduceCtorEq] at h
        · obtain ⟨k, f, hk, hf, hpp⟩ := pay_paid hp
          have e1 : (truth w).nft n = some d := hd
          have e2 : (truth w).auction n = some x := hx
          have e3 : (truth w).mkt x.mkt = some k := hk
          simp only [hp, soldEvent, hd, hf, billAt, ledger, List.map_cons, List.map_nil, payments, e1,
            e2, e3, Option.elim, Prod.mk.eta, if_pos (List.mem_of_getLast? ht), List.append_nil]
          exact hpp

theorem AucM.settle_others (n m : NFTId) (h : m ≠ n) :
    (settleOne c w n).1.auc.auctions.get m = w.auc.auctions.get m := by
  unfold settleOne
  cases hx : w.auc.auctions.get n with
  | none => rfl
  | some x =>
    cases hd : w.nfts.get n with
    | none => rfl
    | some d =>
      cases ht : x.bids.getLast? with
      | none => simp [World.putNft, World.ev, FMap.get_erase, h, ht]
      | some top =>
        rcases hp : payForNft c w n c.aucPot top.2 d x with ⟨b, _ | _⟩ <;>
          simp [World.putNft, World.putBal, World.ev, FMap.get_erase, h, ht, hp]

theorem AucM.loop_others (q : Queue) (k : Nat) {m : NFTId} (h : m ∉ q.ids) :
    (hookLoop c w q k).1.auc.auctions.get m = w.auc.auctions.get m := by
  induction q generalizing w k with
  | nil => rfl
  | cons x q ih =>
    obtain ⟨n, e⟩ := x
    simp only [Queue.ids, List.map_cons, List.mem_cons, not_or] at h
    have e := settle_others (c := c) (w := w) n m h.1
    simp only [hookLoop]
    split
    · split
      · split
        · exact e
        · rw [ih _ h.2, e]
      · rw [ih _ h.2, e]
    · rfl

theorem AucM.loop_rest (q : Queue) (k : Nat) {m : NFTId} (h : m ∈ Queue.ids (hookLoop c w q k).2) : m ∈ q.ids := by
  induction q generalizing w k with
  | nil => exact h
  | cons x q ih =>
    obtain ⟨n, e⟩ := x
    simp only [Queue.ids, List.map_cons, List.mem_cons]
    simp only [hookLoop] at h
    split at h
    · split at h
      · split at h
        · exact .inr h
        · exact .inr (ih _ h)
      · exact .inr (ih _ h)
    · simpa [Queue.ids] using h

theorem AucM.loop_paid (t : Tariff) (hi : Ladders w) (q : Queue) (k : Nat) (hq : q.ids.Nodup)
    (hs : ∀ n ∈ q.ids, n ∉ Queue.ids (hookLoop c w q k).2 → (hookLoop c w q k).1.auc.auctions.get n = none) :
    Paying c w.bal (hookLoop c w q k).1.bal (billAt c t w.now (truth w) (hookEmit c w q k)) := by
  induction q generalizing w k with
  | nil => exact .nil _
  | cons x q ih =>
    obtain ⟨n, e⟩ := x
    obtain ⟨h1, h2, h3⟩ := settle_seen (c := c) hi n
    have hsame : Same (settleEmit c w n) := by
      unfold settleEmit
      split
      · exact .nil
      · split
        · exact .nil
        · split
          · split
            · exact .nil
            · exact .cons (fun _ => rfl) .nil
          · exact .cons (fun _ => rfl) .nil
    simp only [Queue.ids, List.map_cons, List.nodup_cons] at hq
    simp only [hookLoop, hookEmit] at hs ⊢
    split
    · rename_i hn
      simp only [if_pos hn] at hs
      have next : ∀ k', (∀ m ∈ Queue.ids ((n, e) :: q), m ∉ Queue.ids (hookLoop c (settleOne c w n).1 q k').2 →
            (hookLoop c (settleOne c w n).1 q k').1.auc.auctions.get m = none) →
          Paying c w.bal (hookLoop c (settleOne c w n).1 q k').1.bal
            (billAt c t w.now (truth w) (settleEmit c w n ++ hookEmit c (settleOne c w n).1 q k')) := by
        intro k' hs
        have hz := hs n (by simp [Queue.ids]) fun h => hq.1 (loop_rest _ _ h)
        rw [loop_others q k' hq.1] at hz
        have i1 := ih h2 k' hq.2 fun m hm => hs m (by simp only [Queue.ids, List.map_cons, List.mem_cons]; exact .inr hm)
        rw [h3, h1] at i1
        rw [billAt_append hsame]
        exact (settle_paid t n hz).append i1
      split
      · rename_i hr
        rw [if_pos hr] at hs
        split
        · rename_i hk
          rw [if_pos hk] at hs
          simp only [List.append_nil]
          exact settle_paid t n (hs n (by simp [Queue.ids]) hq.1)
        · rename_i hk
          rw [if_neg hk] at hs
          exact next _ hs
      · rename_i hr
        rw [if_neg hr] at hs
        exact next _ hs
    · exact .nil _

theorem AucM.hook_paid (hc : c.Ok) (hr : Reach c w) (hs : Settled w (hook c w)) :
    Paying c w.bal (hook c w).bal (bill c w (hookEmit c w w.auc.deadlines 0)) :=
  loop_paid (tariff w) (fun n x hx => ((hr.auc hc).ok n x hx).ladder) _ _ (hr.auc hc).wf.nd hs

theorem TrM.hook_tariff (w : World) (q : Queue) (k : Nat) : Same (hookEmit c w q k) := by
  induction q generalizing w k with
  | nil => exact .nil
  | cons x q ih =>
    obtain ⟨n, b⟩ := x
    simp only [hookEmit]
    split
    · refine .cons (fun t => ?_) ?_
      · unfold oneEvent; split <;> rfl
      · generalize (if (hookOne w n).2 = true then k + 1 else k) = k'
        split
        · exact .nil
        · exact ih _ _
    · exact .nil

theorem AucM.hook_tariff (w : World) (q : Queue) (k : Nat) : Same (hookEmit c w q k) := by
  induction q generalizing w k with
  | nil => exact .nil
  | cons x q ih =>
    obtain ⟨n, b⟩ := x
    simp only [hookEmit]
    split
    · refine .append ?_ ?_
      · unfold settleEmit
        split
        · exact .nil
        · split
          · exact .nil
          · split
            · split
              · exact .nil
              · exact .cons (fun _ => rfl) .nil
            · exact .cons (fun _ => rfl) .nil
      · split
        · split
          · exact .nil
          · exact ih _ _
        · exact ih _ _
    · exact .nil

theorem TrM.loop_free (t : Tariff) (w : World) (v : View) (now : Block) (q : Queue) (k : Nat) :
    billAt c t now v (hookEmit c w q k) = [] := by
  induction q generalizing w k v with
  | nil => rfl
  | cons x q ih =>
    obtain ⟨n, b⟩ := x
    simp only [hookEmit]
    split
    · generalize (if (hookOne w n).2 = true then k + 1 else k) = k'
      have e : payments c.aucPot c.rentPot now t v (oneEvent w n) = [] ∧ t.see (oneEvent w n) = t := by
        unfold oneEvent; split <;> exact ⟨rfl, rfl⟩
      simp only [billAt, List.map_cons, ledger, e, List.nil_append]
      split
      · rfl
      · exact ih _ _ _
    · rfl

theorem TrM.loop_bal (q : Queue) (w : World) (k : Nat) : (hookLoop c w q k).1.bal = w.bal := by
  have one : ∀ (w : World) n, (hookOne w n).1.bal = w.bal := by
    intro w n
    unfold hookOne
    cases h : transmit w n with
    | error => rfl
    | ok w1 =>
      simp only [transmit] at h; inv_ok at h
      obtain ⟨_, _, _, _, rfl⟩ := h; rfl
  induction q generalizing w k with
  | nil => rfl
  | cons x q ih =>
    obtain ⟨n, b⟩ := x
    simp only [hookLoop]
    split
    · generalize (if (hookOne w n).2 = true then k + 1 else k) = k'
      split
      · exact one w n
      · rw [ih, one]
    · rfl

theorem TrM.hook_paid : Paying c w.bal (hook c w).bal (bill c w (hookEmit c w w.tr.queue 0)) := by
  have e : (hook c w).bal = w.bal := by
    unfold hook
    have := loop_bal (c := c) w.tr.queue w 0
    simp only
    split <;> exact this
  rw [e, show bill c w (hookEmit c w w.tr.queue 0) = [] from loop_free ..]
  exact .nil _

theorem rootEmit_free (x : RootCall) (t : Tariff) (v : View) (now : Block) : billAt c t now v (rootEmit x) = [] := by
  cases x <;> rfl

theorem callEmit_free (x : Call) : ∀ (o : Origin) (w : World) (t : Tariff) (v : View) (now : Block),
    (∀ a, o ≠ .signed a) → billAt c t now v (callEmit c w x o) = [] := by
  induction x with
  | mandate y ih =>
    intro o w t v now ho
    cases o with
    | signed a => exact absurd rfl (ho a)
    | root =>
      simp only [callEmit]
      split
      · exact ih .root w t v now (by simp)
      · rfl
    | ext =>
      simp only [callEmit]
      split
      · exact ih .root w t v now (by simp)
      · rfl
  | root y =>
    intro o w t v now ho
    cases o with
    | signed a => exact absurd rfl (ho a)
    | root => exact rootEmit_free y t v now
    | ext => rfl
  | _ =>
    intro o w t v now ho
    cases o with
    | signed a => exact absurd rfl (ho a)
    | root => rfl
    | ext => rfl

theorem TeeM.call_free {x} (hx : ∀ e, x ≠ .claim e) (h : call c w a x = .ok w') :
    w'.bal.free = w.bal.free ∧ w'.bal.collected = w.bal.collected := by
  cases x <;> simp only [call] at h
  case claim e => exact absurd rfl (hx e)
  case unregister =>
    unfold unregister at h
    split at h
    · simp only [unregisterAssigned] at h
      inv_ok at h
      obtain ⟨_, _, _, _, rfl⟩ := h; exact ⟨rfl, rfl⟩
    · simp only [dropRegistration] at h
      inv_ok at h
      obtain ⟨_, _, rfl⟩ := h; exact ⟨rfl, rfl⟩
  case register =>
    simp only [register] at h
    inv_ok at h
    obtain ⟨_, _, _, _, _, _, _, _, rfl⟩ := h
    simp only [World.putBal, Bal.setLock]; split <;> exact ⟨rfl, rfl⟩
  case update =>
    simp only [update] at h
    inv_ok at h
    obtain ⟨_, _, _, _, _, _, rfl⟩ := h; exact ⟨rfl, rfl⟩
  case cancelUpdate =>
    simp only [dropUpdate] at h
    inv_ok at h
    obtain ⟨_, _, rfl⟩ := h; exact ⟨rfl, rfl⟩
  case withdraw =>
    simp only [withdraw] at h
    inv_ok at h
    obtain ⟨_, _, _, _, rfl⟩ := h; exact ⟨rfl, rfl⟩
  case submitReport =>
    simp only [submitReport] at h
    inv_ok at h
    obtain ⟨_, _, _, _, _, _, _, _, _, rfl⟩ := h; exact ⟨rfl, rfl⟩
  case bondExtra =>
    simp only [bondExtra] at h
    inv_ok at h
    obtain ⟨_, _, _, _, _, rfl⟩ := h
    simp only [World.putBal, Bal.setLock]; split <;> exact ⟨rfl, rfl⟩
  case refundExcess =>
    simp only [refundExcess] at h
    inv_ok at h
    obtain ⟨_, _, _, rfl⟩ := h
    simp only [World.putBal, Bal.setLock]; split <;> exact ⟨rfl, rfl⟩

/-- One operation, its events and the tokens it moves. -/
theorem step_paying (hc : c.Ok) (hr : Reach c w) (o : Op) (ho : ¬ Elsewhere o) (hcl : Clean c w o) :
    Paying c w.bal (step c w o).bal (bill c w (emit c w o)) := by
  cases o <;> simp only [step, emit]
  case call o x =>
    cases h : dispatch c x o w with
    | error e => exact .nil _
    | ok w' =>
      show Paying c w.bal w'.bal _
      simp only
      cases o with
      | signed a =>
        cases x <;> simp only [dispatch, signedCall] at h <;> simp only [callEmit, signedEmit]
        case nft x => exact NftM.paid h
        case mkt x => exact MktM.paid h
        case auc x => exact AucM.paid hc hr h
        case rent x => exact RentM.paid h
        case tr x => exact TrM.paid h
        case tee x =>
          have := TeeM.call_free (by rintro e rfl; exact ho trivial) h
          exact .same this.1 this.2
        case br x => exact absurd trivial ho
        case bal d v l => exact absurd trivial ho
        all_goals simp at h
      | root =>
        rw [show bill c w _ = [] from callEmit_free x _ _ _ _ _ (by simp), dispatch_bal x _ w w' (by simp) h]
        exact .same rfl rfl
      | ext =>
        rw [show bill c w _ = [] from callEmit_free x _ _ _ _ _ (by simp), dispatch_bal x _ w w' (by simp) h]
        exact .same rfl rfl
  case hookAuc => exact AucM.hook_paid hc hr hcl.settled
  case hookRent => exact RentM.hook_paid (hr.inv hc).rent hr.micro.balInv
  case hookTr => exact TrM.hook_paid
  case hookTee =>
    have e : (TeeM.hook c w).bal = w.bal := by
      unfold TeeM.hook
      split
      · rfl
      · split <;> rfl
    rw [e]
    exact .nil _
  case tick => exact .nil _
  case era e => split <;> exact .nil _
  case txFee p f t au => exact absurd trivial ho
  case eraPayout => exact absurd trivial ho
  case mint a v => exact absurd trivial ho
  case lock a v => exact .same rfl rfl

theorem signedEmit_same (x : Call) : Same (signedEmit c w a x) := by
  cases x with
  | nft x =>
    cases x <;> simp only [signedEmit, NftM.emit] <;>
      first | exact fun _ => rfl | (split <;> exact fun _ => rfl)
  | mkt x =>
    cases x <;> simp only [signedEmit, MktM.emit] <;>
      first | exact fun _ => rfl | (split <;> exact fun _ => rfl)
  | auc x =>
    cases x <;> simp only [signedEmit, AucM.emit, AucM.soldEvent, AucM.droppedEvent] <;>
      first | exact fun _ => rfl | (split <;> exact fun _ => rfl) |
        (split
         · exact fun _ => rfl
         · split <;> exact fun _ => rfl)
  | rent x => cases x <;> exact fun _ => rfl
  | tr x =>
    cases x <;> simp only [signedEmit, TrM.emit] <;>
      first | exact fun _ => rfl |
        (split
         · split <;> exact fun _ => rfl
         · exact fun _ => rfl)
  | _ => exact fun _ => rfl

theorem signedCall_tariff {x : Call} (h : signedCall c w a x = .ok w') : tariff w' = tariff w := by
  cases x <;> simp only [signedCall] at h
  case nft x => exact (congrArg tariff (NftM.call_frame h) :)
  case mkt x => exact (congrArg tariff (MktM.call_frame h) :)
  case auc x => exact (congrArg tariff (AucM.call_frame h) :)
  case rent x => exact (congrArg tariff (RentM.call_frame h) :)
  case tr x => exact (congrArg tariff (TrM.call_frame h) :)
  case tee x => exact (congrArg tariff (TeeM.call_frame h) :)
  case br x => exact (congrArg tariff (BrM.call_frame h) :)
  case bal d v l =>
    cases hb : w.bal.transfer c.ed a d v l with
    | error e => simp [hb, Except.map] at h
    | ok b => simp [hb, Except.map] at h; subst h; rfl
  all_goals simp at h

theorem rootCall_tariff {x : RootCall} (h : rootCall c w x = .ok w') :
    (rootEmit x).foldl Tariff.see (tariff w) = tariff w' := by
  cases x <;> simp only [rootCall] at h
  case tee r => exact (congrArg tariff (TeeM.root_frame h) :).symm
  all_goals simp only [Except.ok.injEq] at h; subst h
  case trFee k x => cases k <;> rfl
  all_goals rfl

theorem dispatch_tariff (x : Call) : ∀ (o : Origin) (w w' : World), (∀ a, o ≠ .signed a) →
    dispatch c x o w = .ok w' → (callEmit c w x o).foldl Tariff.see (tariff w) = tariff w' := by
  induction x with
  | mandate y ih =>
    have key : ∀ w w', mandateResult w (dispatch c y .root w) = .ok w' →
        (match dispatch c y .root w with | .ok _ => callEmit c w y .root | .error _ => []).foldl Tariff.see (tariff w) =
          tariff w' := by
      intro w w' h
      rcases mandateResult_ok h with ⟨w1, hy, rfl⟩ | ⟨e, hy, rfl⟩
      · rw [hy]; exact ih .root w w1 (by simp) hy
      · rw [hy]; rfl
    intro o w w' ho h
    cases o with
    | signed a => exact absurd rfl (ho a)
    | root => exact key w w' h
    | ext => exact key w w' h
  | root y =>
    intro o w w' ho h
    cases o with
    | signed a => exact absurd rfl (ho a)
    | root => exact rootCall_tariff h
    | ext => simp [dispatch] at h
  | ext y =>
    intro o w w' ho h
    cases o with
    | signed a => exact absurd rfl (ho a)
    | root => exact (congrArg tariff (BrM.ext_frame h) :).symm
    | ext => exact (congrArg tariff (BrM.ext_frame h) :).symm
  | _ =>
    intro o w w' ho h
    cases o with
    | signed a => exact absurd rfl (ho a)
    | root => simp [dispatch] at h
    | ext => simp [dispatch] at h

/-- One operation, its events and the tariff. -/
theorem step_tariff (w : World) (o : Op) : (emit c w o).foldl Tariff.see (tariff w) = tariff (step c w o) := by
  cases o <;> simp only [step, emit]
  case call o x =>
    cases h : dispatch c x o w with
    | error e => rfl
    | ok w' =>
      show _ = tariff w'
      simp only
      cases o with
      | signed a =>
        have h1 : signedCall c w a x = .ok w' := by cases x <;> exact h
        have h2 : callEmit c w x (.signed a) = signedEmit c w a x := by cases x <;> rfl
        rw [h2, signedEmit_same, signedCall_tariff h1]
      | root => exact dispatch_tariff x _ w w' (by simp) h
      | ext => exact dispatch_tariff x _ w w' (by simp) h
  case hookAuc => rw [AucM.hook_tariff]; exact (congrArg tariff (AucM.hook_frame w) :).symm
  case hookRent => rw [RentM.hook_tariff]; exact (congrArg tariff (RentM.hook_frame w) :).symm
  case hookTr => rw [TrM.hook_tariff]; exact (congrArg tariff (TrM.hook_frame w) :).symm
  case hookTee => exact (congrArg tariff (TeeM.hook_frame w) :).symm
  case tick => rfl
  case era e => split <;> rfl
  case txFee p f t au =>
    cases h : RewM.txFee c w p f t au with
    | error e => rfl
    | ok w' => exact (congrArg tariff (RewM.txFee_frame h) :).symm
  case eraPayout => rfl
  case mint a v => rfl
  case lock a v => rfl
