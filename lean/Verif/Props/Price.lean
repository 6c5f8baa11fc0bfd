import Verif.Proofs.Price
import Verif.Props.Undo
/-
C95: a price seen is the price paid.
-/
open Spec

variable {c : Cfg} {w w' : World} {a : AccountId}

/-! ## C95 -/

/-- C95: a call whose arguments or whose governance fee name a price never costs its sender more, whatever anyone else
did before it.  A plain transfer and a bridge deposit may also take dust, if they empty the account.  Missing: listings
and the start of rent contracts, which name no price; see below. -/
theorem C95_partial (hc : c.Ok) (hr : Reach c w) {x : Call} {p : Balance} (ha : ¬ c.pot a)
    (h : dispatch c x (.signed a) w = .ok w') (hx : named (params w) a x = some p) :
    w.bal.freeOf a ≤ w'.bal.freeOf a + p ∨
      mayEmpty x ∧ w'.bal.freeOf a = 0 ∧ w.bal.freeOf a < p + c.ed := by
  cases x <;> simp only [dispatch, signedCall] at h
  case nft x => exact .inl ((NftM.paid h).cost ha (NftM.cost hx))
  case mkt x => exact .inl ((MktM.paid h).cost ha (MktM.cost hx h))
  case auc x => exact .inl ((AucM.paid hc hr h).cost ha (AucM.cost hc hr ha hx h))
  case rent x => exact .inl ((RentM.paid h).cost ha (RentM.cost ha hx))
  case tr x => exact .inl ((TrM.paid h).cost ha (TrM.cost hx))
  case tee x =>
    left
    by_cases hcl : ∃ e, x = .claim e
    · obtain ⟨e, rfl⟩ := hcl
      simp only [TeeM.call, TeeM.claim] at h
      inv_ok at h
      obtain ⟨act, as, d, b, _, _, _, _, _, _, _, hb, rfl⟩ := h
      show _ ≤ b.freeOf a + _
      have hne : c.teePot ≠ a := fun e => ha (e ▸ Cfg.pot_tee)
      rw [Bal.transfer_free hb hne]
      simp
      omega
    · have e := (TeeM.call_free (fun e he => hcl ⟨e, he⟩) h).1
      simp [Bal.freeOf, e]
  case br x =>
    cases x with
    | vote k t =>
      left
      simp only [BrM.call, BrM.voteFor] at h
      inv_ok at h
      obtain ⟨y, _, _, _, rfl⟩ := h
      cases y.2
      · exact Nat.le_add_right _ _
      · exact Nat.le_trans ((Bal.mint_mono (S := fun _ => False) _ _ _).1 a (by simp)) (Nat.le_add_right _ _)
    | deposit v r d =>
      simp only [named, Option.some.injEq] at hx
      subst hx
      simp only [BrM.call, BrM.deposit] at h
      inv_ok at h
      obtain ⟨b1, b2, _, _, h1, h2, rfl⟩ := h
      show _ ≤ b2.freeOf a + _ ∨ _ ∧ b2.freeOf a = 0 ∧ _
      have e1 := Bal.payFee_free h1 a
      have e2 := Bal.withdraw_free h2 a
      have l1 := Bal.payFee_le h1
      have l2 := Bal.withdraw_le h2
      simp only [if_true] at e1 e2
      have : (params w).bridgeFee = w.br.fee := rfl
      rw [this]
      split at e2
      · left; omega
      · split at e2
        · right; exact ⟨trivial, e2, by omega⟩
        · left; omega
  case bal d v l =>
    simp only [named, Option.some.injEq] at hx
    subst hx
    cases hb : w.bal.transfer c.ed a d v l with
    | error e => simp [hb, Except.map] at h
    | ok b =>
      simp [hb, Except.map] at h; subst h
      show _ ≤ b.freeOf a + _ ∨ _ ∧ b.freeOf a = 0 ∧ _
      by_cases hd : a = d
      · subst hd; left; rw [Bal.transfer_self hb]; omega
      · have hle := Bal.transfer_le hb hd
        cases l with
        | keepAlive => left; rw [Bal.transfer_keep hb a hd]; simp [hd]; omega
        | allowDeath =>
          have e := Bal.transfer_free hb hd (x := a)
          simp only [hd, if_false, if_true] at e
          split at e
          · left; omega
          · split at e
            · right; exact ⟨trivial, e, by omega⟩
            · left; omega
  all_goals simp at h

/-- C95: those fees are governance's alone: no one else's call, block hook or other operation changes them. -/
theorem C95_fees (l : List Op) (hl : ∀ o ∈ l, ∀ g x, o = .call g x → ∃ b, g = .signed b) (x : Call) :
    named (params (run c w l)) a x = named (params w) a x := by
  have e : params (run c w l) = params w := by
    induction l generalizing w with
    | nil => rfl
    | cons o t ih =>
      simp only [run]
      rw [ih fun y hy => hl y (by simp [hy])]
      by_contra hne
      obtain ⟨g, x, rfl, hg⟩ := C60_only o hne
      obtain ⟨b, rfl⟩ := hl _ (by simp) g x rfl
      exact hg b rfl
  rw [e]

/-- C95: as long as the marketplace's owner leaves its settings alone, its listing fee and its commission stay. -/
theorem Spec.mkt_settings (hr : Reach c w) {m : MktId} {k : Mkt} (hk : w.mkt.mkts.get m = some k) (l : List Op)
    (hl : ∀ o ∈ l, o.Ok c) (hs : ∀ b f li ac oc cs, .call (.signed b) (.mkt (.setConfig m f li ac oc cs)) ∉ l) :
    ∃ k', (run c w l).mkt.mkts.get m = some k' ∧ k'.listing = k.listing ∧ k'.commission = k.commission := by
  induction l generalizing w k with
  | nil => exact ⟨k, hk, rfl, rfl⟩
  | cons o t ih =>
    have ho := hl o (by simp)
    have hm : m < w.mkt.next := (C17_ids hr m).1 (by simp [hk])
    have hs' : ∀ b f li ac oc cs, .call (.signed b) (.mkt (.setConfig m f li ac oc cs)) ∉ t :=
      fun b f li ac oc cs h => hs b f li ac oc cs (by simp [h])
    obtain ⟨k1, h1, h2⟩ := C17 w o ho hm hk
    obtain ⟨k', h3, h4, h5⟩ := ih (hr.step o ho) h1 (fun y hy => hl y (by simp [hy])) hs'
    have e : k1.listing = k.listing ∧ k1.commission = k.commission := by
      rcases h2 with rfl | ⟨r, _, rfl⟩ | ⟨r, _, rfl⟩ | ⟨f, li, ac, oc, cs, rfl, _⟩
      · exact ⟨rfl, rfl⟩
      · exact ⟨rfl, rfl⟩
      · exact ⟨rfl, rfl⟩
      · exact absurd (by simp) (hs k.owner f li ac oc cs)
    exact ⟨k', h3, h4.trans e.1, h5.trans e.2⟩

/-- C95: a listing costs no more than the listing fee that the marketplace showed, and the sale is made at the commission
that it showed, however long ago, unless the marketplace's owner has changed its settings since. -/
theorem C95_list_partial (hr : Reach c w) (ha : ¬ c.pot a) {m : MktId} {k : Mkt} (hk : w.mkt.mkts.get m = some k)
    (l : List Op) (hl : ∀ o ∈ l, o.Ok c)
    (hs : ∀ b f li ac oc cs, .call (.signed b) (.mkt (.setConfig m f li ac oc cs)) ∉ l) {n : NFTId} {price : Balance}
    (h : dispatch c (.mkt (.list n m price)) (.signed a) (run c w l) = .ok w') :
    (run c w l).bal.freeOf a ≤ w'.bal.freeOf a + listingCost k price ∧
    ∃ s, w'.mkt.sales.get n = some s ∧ s.price = price ∧ s.commission = k.commission := by
  obtain ⟨k', hk', e1, e2⟩ := Spec.mkt_settings hr hk l hl hs
  generalize run c w l = w1 at h hk'
  simp only [dispatch, signedCall] at h
  refine ⟨(MktM.paid h).cost ha ?_, ?_⟩
  · have e3 : (truth w1).mkt m = some k' := hk'
    simp only [MktM.emit, bill, ledger, List.map_cons, List.map_nil, payments, e3, List.append_nil, listingCost, ← e1]
    cases (truth w1).nft n with
    | none => simp [outgo]
    | some d => simp only [outgo_cons, outgo_nil]; split <;> omega
  · simp only [MktM.call, MktM.list] at h; inv_ok at h
    obtain ⟨d, k2, b, hd, rfl, _, _, _, _, _, _, _, hk2, _, _, hb, rfl⟩ := h
    rw [hk'] at hk2; cases hk2
    exact ⟨_, FMap.get_insert_self _ _ _, rfl, e2⟩

/-- C95: the same for the commission of an auction. -/
theorem C95_auction_partial (hr : Reach c w) {m : MktId} {k : Mkt} (hk : w.mkt.mkts.get m = some k)
    (l : List Op) (hl : ∀ o ∈ l, o.Ok c)
    (hs : ∀ b f li ac oc cs, .call (.signed b) (.mkt (.setConfig m f li ac oc cs)) ∉ l) {n : NFTId} {s e : Block}
    {price : Balance} {buy : Option Balance}
    (h : dispatch c (.auc (.create n m s e price buy)) (.signed a) (run c w l) = .ok w') :
    w'.auc.comm.get n = some k.commission ∧ w'.bal = (run c w l).bal := by
  obtain ⟨k', hk', e1, e2⟩ := Spec.mkt_settings hr hk l hl hs
  generalize run c w l = w1 at h hk'
  simp only [dispatch, signedCall] at h
  cases AucM.call_act h with
  | create h1 h2 h3 h4 h5 h6 hd h7 h8 hk2 h9 h10 hq =>
    rw [hk'] at hk2; cases hk2
    exact ⟨by rw [← e2]; exact FMap.get_insert_self _ _ _, rfl⟩

/-- C95: what becomes of a contract's price -/
theorem Spec.contract_terms (hc : c.Ok) (hr : Reach c w) {n : NFTId} {k : Contract}
    (hk : w.rent.contracts.get n = some k) (hn : k.creation < w.now) (hf : firm k) (l : List Op)
    (hl : ∀ o ∈ l, o.Ok c) : ∀ k', (run c w l).rent.contracts.get n = some k' → k'.creation = k.creation →
      k'.rentFee = k.rentFee ∧ k'.renteeFee = k.renteeFee ∧ k'.renter = k.renter ∧ firm k' := by
  refine (run_inv (c := c) (P := fun w => k.creation < w.now ∧ ∀ k', w.rent.contracts.get n = some k' →
    k'.creation = k.creation →
      k'.rentFee = k.rentFee ∧ k'.renteeFee = k.renteeFee ∧ k'.renter = k.renter ∧ firm k')
    ?_ hr ⟨hn, fun k' h _ => ?_⟩ l hl).2
  · intro w o hr ho ⟨hlt, ih⟩
    refine ⟨Nat.lt_of_lt_of_le hlt (step_now_le w o), fun k' hk' hcr => ?_⟩
    cases h0 : w.rent.contracts.get n with
    | some k0 =>
      have ht := step_rent_turn hc hr o ho h0
      generalize step c w o = w' at ht hk'
      cases ht with
      | stay h => rw [hk'] at h; cases h; exact ih k' h0 hcr
      | cancel _ h => rw [hk'] at h; simp at h
      | revoke _ _ h => rw [hk'] at h; simp at h
      | start h1 h2 h3 h4 => rw [hk'] at h4; cases h4; exact ih k0 h0 hcr
      | change h1 h2 h3 =>
        rw [hk'] at h3; cases h3
        obtain ⟨_, _, _, e⟩ := ih k0 h0 hcr
        have := e _ h1
        simp_all
      | @accept r s fee md _ h1 h2 h3 h4 h5 h6 =>
        rw [hk'] at h6; cases h6
        obtain ⟨e1, e2, e3, e4⟩ := ih k0 h0 hcr
        refine ⟨e1, e2, e3, fun s' hs' => ?_⟩
        cases hs'
        exact e4 s h2
      | over _ _ _ h => rw [hk'] at h; simp at h
    | none =>
      rcases step_rent_case hc hr o ho with ⟨b, x, rfl, _, hd⟩ | ⟨rfl, hd⟩ | e
      · generalize step c w _ = w' at hd hk'
        cases hd with
        | create h =>
          obtain ⟨d, b, q, _, hd, _, hv, _, _, _, _, _, _, _, _, _, _, _, _, _, _, rfl⟩ := RentM.create_ok h
          simp only [FMap.get_insert] at hk'
          split at hk'
          · cases hk'; simp only at hcr; omega
          · rw [h0] at hk'; simp at hk'
        | cancel h =>
          simp only [FMap.get_erase] at hk'
          split at hk' <;> simp_all
        | revoke h =>
          obtain ⟨k1, r, d, b0, b1, b2, _, _, _, _, _, _, _, _, _, rfl⟩ := RentM.revoke_ok h
          simp only [FMap.get_erase] at hk'
          split at hk' <;> simp_all
        | start h h1 h2 =>
          obtain ⟨b1, b2, q, _, _, _, _, _, rfl⟩ := h2.out
          simp only [FMap.get_insert] at hk'
          split at hk' <;> simp_all
        | makeOffer h => rw [h0] at hk'; simp at hk'
        | retractOffer h => rw [h0] at hk'; simp at hk'
        | changeTerms h =>
          simp only [FMap.get_insert] at hk'
          split at hk' <;> simp_all
        | acceptTerms h =>
          simp only [FMap.get_insert] at hk'
          split at hk' <;> simp_all
      · rw [hd.none h0] at hk'; simp at hk'
      · rw [e, h0] at hk'; simp at hk'
  · rw [hk] at h; cases h; exact ⟨rfl, rfl, rfl, hf⟩

/-- C95: renting a contract that was seen standing since an earlier block, with terms its owner cannot change, costs no
more than it showed then, whatever happened in between. -/
theorem C95_rent_partial (hc : c.Ok) (hr : Reach c w) (ha : ¬ c.pot a) {n : NFTId} {k : Contract}
    (hk : w.rent.contracts.get n = some k) (hn : k.creation < w.now) (hf : firm k) (l : List Op) (hl : ∀ o ∈ l, o.Ok c)
    (h : dispatch c (.rent (.rent n k.creation)) (.signed a) (run c w l) = .ok w') :
    (run c w l).bal.freeOf a ≤ w'.bal.freeOf a + startCost k := by
  have key := Spec.contract_terms hc hr hk hn hf l hl
  generalize run c w l = w1 at h key
  simp only [dispatch, signedCall] at h
  refine (RentM.paid h).cost ha ?_
  simp only [RentM.call, RentM.rent] at h; inv_ok at h
  obtain ⟨k', hk', _, _, _, _, hcr, h⟩ := h
  obtain ⟨e1, e2, _⟩ := key k' hk' (by simp_all)
  have e : (truth w1).contract n = some k' := hk'
  simp only [RentM.emit, bill, ledger, List.map_cons, List.map_nil, payments, e, Option.elim, List.append_nil, outgo_cons,
    outgo_nil, if_true, startCost, e1, e2]
  omega

/-- a marketplace with a listing fee of 5 and a commission of 10 -/
abbrev stall : List Op := shop ++ [Demo.by_ 3 (.mkt (.setConfig 0 (.set (.flat 10)) (.set (.flat 5)) .noop .noop .noop))]

/-- a contract for 10 tokens and a deposit of 20 -/
abbrev flat : List Op :=
  [Demo.mint1, Demo.by_ 1 (.rent (.create 0 (.fixed 10) (.auto none) true (.tokens 10) .none (.fixed 20)))]

-- a bid of 300 costs account 2, who has already paid 200 for an earlier bid, only 100
example : ¬ Demo.cfg.pot 2 ∧ named (params (Demo.at_ early)) 2 (.auc (.addBid 0 300)) = some 300 ∧
    ∃ w', dispatch Demo.cfg (.auc (.addBid 0 300)) (.signed 2) (Demo.at_ early) = .ok w' ∧
      (Demo.at_ early).bal.freeOf 2 = w'.bal.freeOf 2 + 100 :=
  ⟨by decide, rfl, _, rfl, by decide⟩

-- an account that sends all it has but one token: the one is dust
example : ¬ Demo.cfg.pot 2 ∧ named (params Demo.w0) 2 (.bal 1 9999 .allowDeath) = some 9999 ∧
    ∃ w', dispatch Demo.cfg (.bal 1 9999 .allowDeath) (.signed 2) Demo.w0 = .ok w' ∧ w'.bal.freeOf 2 = 0 ∧
      Demo.w0.bal.freeOf 2 = 10000 :=
  ⟨by decide, rfl, _, rfl, by decide, by decide⟩

-- account 1 lists on the stall ten blocks after they saw its fee
example : ∃ k, Reach Demo.cfg (Demo.at_ stall) ∧ (Demo.at_ stall).mkt.mkts.get 0 = some k ∧ listingCost k 100 = 5 ∧
    (∀ o ∈ Demo.ticks 10, o.Ok Demo.cfg) ∧
    (∀ b f li ac oc cs, .call (.signed b) (.mkt (.setConfig 0 f li ac oc cs)) ∉ Demo.ticks 10) ∧
    ∃ w', dispatch Demo.cfg (.mkt (.list 0 0 100)) (.signed 1) (run Demo.cfg (Demo.at_ stall) (Demo.ticks 10)) = .ok w' ∧
      (run Demo.cfg (Demo.at_ stall) (Demo.ticks 10)).bal.freeOf 1 = w'.bal.freeOf 1 + 5 :=
  ⟨_, Demo.reach _ (by decide), rfl, by decide, by decide, by simp [Demo.ticks], _, rfl, by decide⟩

example : ∃ w', dispatch Demo.cfg (.auc (.create 0 0 11 25 100 none)) (.signed 1)
    (run Demo.cfg (Demo.at_ stall) (Demo.ticks 10)) = .ok w' :=
  ⟨_, rfl⟩

-- account 2 rents for the 30 tokens that were shown
example : ∃ k, Reach Demo.cfg (Demo.at_ (flat ++ Demo.ticks 1)) ∧
    (Demo.at_ (flat ++ Demo.ticks 1)).rent.contracts.get 0 = some k ∧ k.creation < (Demo.at_ (flat ++ Demo.ticks 1)).now ∧
    firm k ∧ startCost k = 30 ∧ (∀ o ∈ Demo.ticks 3, o.Ok Demo.cfg) ∧
    ∃ w', dispatch Demo.cfg (.rent (.rent 0 k.creation)) (.signed 2)
      (run Demo.cfg (Demo.at_ (flat ++ Demo.ticks 1)) (Demo.ticks 3)) = .ok w' ∧
      (run Demo.cfg (Demo.at_ (flat ++ Demo.ticks 1)) (Demo.ticks 3)).bal.freeOf 2 = w'.bal.freeOf 2 + 30 :=
  ⟨_, Demo.reach _ (by decide), rfl, by decide, by simp [firm, RentM.toDuration], by decide, by decide, _, rfl, by decide⟩

/-- C95: a listing names no price.  The marketplace's owner raises the fee from 5 to 4000 and the commission from 10 to
90 right before the listing, and both are taken. -/
theorem C95_list_fails : ∃ w k o w', Reach Demo.cfg w ∧ w.mkt.mkts.get 0 = some k ∧ listingCost k 100 = 5 ∧
    k.commission = some (.flat 10) ∧ o.Ok Demo.cfg ∧
    dispatch Demo.cfg (.mkt (.list 0 0 100)) (.signed 1) (step Demo.cfg w o) = .ok w' ∧
    w.bal.freeOf 1 = (step Demo.cfg w o).bal.freeOf 1 ∧ w.bal.freeOf 1 = w'.bal.freeOf 1 + 4000 ∧
    ∃ s, w'.mkt.sales.get 0 = some s ∧ s.commission = some (.flat 90) :=
  ⟨Demo.at_ stall, _, Demo.by_ 3 (.mkt (.setConfig 0 (.set (.flat 90)) (.set (.flat 4000)) .noop .noop .noop)), _,
    Demo.reach _ (by decide), rfl, by decide, by decide, by decide, rfl, by decide, by decide, _, rfl, by decide⟩

/-- C95: the number that `rent` takes is the block of the contract's creation.  Within that block the renter can replace
the contract by another one for 900 with the same number, with firm terms in both. -/
theorem C95_rent_fails : ∃ w k l w', Reach Demo.cfg w ∧ w.rent.contracts.get 0 = some k ∧ firm k ∧ startCost k = 30 ∧
    (∀ o ∈ l, o.Ok Demo.cfg) ∧ dispatch Demo.cfg (.rent (.rent 0 k.creation)) (.signed 2) (run Demo.cfg w l) = .ok w' ∧
    (run Demo.cfg w l).bal.freeOf 2 = w'.bal.freeOf 2 + 900 :=
  ⟨Demo.at_ flat, _, [Demo.by_ 1 (.rent (.cancel 0)),
      Demo.by_ 1 (.rent (.create 0 (.fixed 10) (.auto none) true (.tokens 900) .none .none))], _,
    Demo.reach _ (by decide), rfl, by simp [firm, RentM.toDuration], by decide, by decide, rfl, by decide⟩
