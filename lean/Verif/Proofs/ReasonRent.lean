import Verif.Proofs.ReasonBase
import Verif.Proofs.AcceptRent
/-
Lemmas for C117: errors of the rent pallet.
-/
variable {c : Cfg} {w w' : World} {a : AccountId} {s : String}
set_option maxRecDepth 10000
open Spec Spec.Why Spec.Accept

namespace RentM

theorem not_pledge {d : NFTData} (h : valid d.st = false) : ¬ Refuse.Pledgeable d := fun g => by
  rw [valid_of g] at h; cases h

theorem holds_mono {x y : Balance} (h : ¬ Holds w a x) (hy : x ≤ y) : ¬ Holds w a y := by
  unfold Holds at *; omega

theorem pay_err {s d v l e} (h : w.bal.transfer c.ed s d v l = .error e) : payAct c s d v l w = (w, .error e) := by
  unfold payAct; rw [h]

theorem return_err {f : CancelFee} {x : AccountId} {e : Err}
    (hn : ∀ i, feeNft f = some i → ∃ d, w.nfts.get i = some d) (h : (returnFee c f x).ext w = .error e) :
    w.bal.transfer c.ed c.rentPot x (feeTokens f) .allowDeath = .error e := by
  cases ht : w.bal.transfer c.ed c.rentPot x (feeTokens f) .allowDeath with
  | ok b => rw [return_run ht hn] at h; cases h
  | error e' =>
    simp only [Act.ext, returnFee, Act.seq, pay_err ht] at h
    cases h; rfl

theorem penalty_err {k : Contract} {f : CancelFee} {x : AccountId} {st : Block} {now : Block} {e : Err}
    (hs : k.start = some st) (hn : st ≤ now) (hf : full k.duration ≠ 0)
    (hi : ∀ i, feeNft f = some i → ∃ d, w.nfts.get i = some d) (h : penalty c k now f a x w = .error e) :
    w.bal.transfer c.ed c.rentPot a (keptPart k now f) .allowDeath = .error e ∨
    ∃ b1, w.bal.transfer c.ed c.rentPot a (keptPart k now f) .allowDeath = .ok b1 ∧
      b1.transfer c.ed c.rentPot x (feeTokens f - keptPart k now f) .allowDeath = .error e := by
  cases h1 : w.bal.transfer c.ed c.rentPot a (keptPart k now f) .allowDeath with
  | error e1 =>
    left
    unfold penalty at h
    cases hx : flexible f with
    | none => simp [keptPart, hx, Bal.transfer] at h1
    | some v =>
      cases f <;> simp [flexible] at hx
      subst hx
      simp only [keptPart, flexible, hs, Option.getD_some] at h1
      have hc : completion k now = .ok (Permill.fromPercent (min ((now - st) * 100) U32MAX / full k.duration)) := by
        simp [completion, expectSome, hs, hn, hf, bind, Except.bind, pure, Except.pure]
      simp only [hc, bind, Except.bind, Act.ext, returnFlexible, Act.seq, pay_err h1, flexible] at h
      cases h; rfl
  | ok b1 =>
    right
    refine ⟨b1, rfl, ?_⟩
    cases h2 : b1.transfer c.ed c.rentPot x (feeTokens f - keptPart k now f) .allowDeath with
    | ok b2 => rw [penalty_run h1 h2 hs hn hf hi] at h; cases h
    | error e2 =>
      unfold penalty at h
      cases hx : flexible f with
      | none =>
        simp only [keptPart, hx, Nat.sub_zero] at h1 h2
        obtain rfl : w.bal = b1 := by simpa [Bal.transfer] using h1
        simp only [hx] at h
        rw [← h2]; exact return_err hi h
      | some v =>
        cases f <;> simp [flexible] at hx
        subst hx
        simp only [keptPart, flexible, feeTokens, hs, Option.getD_some] at h1 h2
        have hc : completion k now = .ok (Permill.fromPercent (min ((now - st) * 100) U32MAX / full k.duration)) := by
          simp [completion, expectSome, hs, hn, hf, bind, Except.bind, pure, Except.pure]
        have e2 := pay_err (w := w.putBal b1) (c := c) h2
        simp only [hc, bind, Except.bind, Act.ext, returnFlexible, Act.seq, pay_run h1, e2, flexible] at h
        cases h; rfl

theorem check_err {r : AccountId} {o : Option NFTId} {t : String} (h : checkNft w r o = .error (.e t)) :
    ∃ i, o = some i ∧ ((w.nfts.get i = none ∧ t = "NotFound") ∨ (Is w i (·.owner ≠ r) ∧ t = "NotOwned") ∨
      (Is w i (¬ Refuse.Pledgeable ·) ∧ t = "NotInValidState")) := by
  cases o with
  | none => cases h
  | some i =>
    simp only [checkNft] at h; inv_err at h
    rcases h with ⟨h, rfl⟩ | ⟨d, hd, ⟨h, rfl⟩ | ⟨_, h, rfl⟩⟩
    · exact ⟨i, rfl, .inl ⟨h, rfl⟩⟩
    · exact ⟨i, rfl, .inr (.inl ⟨⟨d, hd, h⟩, rfl⟩)⟩
    · exact ⟨i, rfl, .inr (.inr ⟨⟨d, hd, not_pledge h⟩, rfl⟩)⟩

theorem rent_is {f : RentFee} {i : NFTId} (h : rentNft f = some i) : f = .nft i := by
  cases f <;> simp_all [rentNft]

theorem fee_is {f : CancelFee} {i : NFTId} (h : feeNft f = some i) : f = .nft i := by
  cases f <;> simp_all [feeNft]

/-- an NFT the rentee has to give -/
theorem give_err {r : AccountId} {k : Contract} {x y : String}
    (h : (∃ t, checkNft w r (rentNft k.rentFee) = .error (.e t) ∧ s = nftErrs "RentNFTNotFound" x "RentNFTNotInValidState" t) ∨
      ∃ t, checkNft w r (feeNft k.renteeFee) = .error (.e t) ∧
        s = nftErrs "CancellationNFTNotFound" y "CancellationNFTNotInValidState" t) : Give w r k x y s := by
  rcases h with ⟨t, h, rfl⟩ | ⟨t, h, rfl⟩ <;> obtain ⟨i, hi, ⟨g, rfl⟩ | ⟨g, rfl⟩ | ⟨g, rfl⟩⟩ := check_err h
  · exact .noRent (rent_is hi) g
  · exact .rentOwner (rent_is hi) g
  · exact .rentState (rent_is hi) g
  · exact .noDeposit (fee_is hi) g
  · exact .depositOwner (fee_is hi) g
  · exact .depositState (fee_is hi) g

theorem start_err {n : NFTId} {k : Contract} {r : AccountId} (h : startContract c w n k r = .error (.e s)) : Start c w r k s := by
  unfold startContract at h
  inv_err at h
  rcases h with h | ⟨w1, h1, h2, rfl⟩
  · unfold takeFees at h
    inv_err at h
    rcases h with ⟨e, h, rfl⟩ | ⟨b1, h1, ⟨e, h, rfl⟩ | ⟨b2, h2, h | ⟨h3, h | ⟨h4, h | ⟨w1, h5, h⟩⟩⟩⟩⟩
    · refine .rent ?_
      rw [pays_eq, rentInTokens_eq]; exact transfer_cannot h
    · refine .deposit ?_
      rw [pays_eq, pays_eq, rentInTokens_eq, inTokens_eq, ← transfer_after h1]; exact transfer_cannot h
    · exact .give (give_err (.inl h))
    · exact .give (give_err (.inr h))
    · have : ∀ i, rentNft k.rentFee = some i → ∃ d, (w.putBal b2).nfts.get i = some d :=
        fun i hi => let ⟨d, hd, _⟩ := checkNft_fit h3 i hi; ⟨d, hd⟩
      simp only [Act.ext, chown_run this] at h
      cases h
    · have x1 : ∀ i, rentNft k.rentFee = some i → ∃ d, (w.putBal b2).nfts.get i = some d :=
        fun i hi => let ⟨d, hd, _⟩ := checkNft_fit h3 i hi; ⟨d, hd⟩
      have x2 : ∀ i, feeNft k.renteeFee = some i → ∃ d, (cho w.nfts (rentNft k.rentFee) k.renter).get i = some d :=
        fun i hi => cho_some _ _ _ (let ⟨d, hd, _⟩ := checkNft_fit h4 i hi; ⟨d, hd⟩)
      simp only [Act.ext, chown_run x1] at h5
      cases h5
      have := chown_run (w := { w.putBal b2 with nfts := (cho w.nfts (rentNft k.rentFee) k.renter) }) (x := c.rentPot) x2
      simp only [Act.ext, World.putBal] at h this
      rw [this] at h
      cases h
  · refine .room fun hm => ?_
    obtain ⟨b1, b2, t1, t2, e1⟩ := takeFees_ok h1
    obtain ⟨q, hq⟩ := (insert_iff (c := c) (w := w) (d := k.duration) (n := n) (b := w1.now + period k.duration)
      (q := { w1.rent with availQ := w1.rent.availQ.remove n }) (by simp_all) (by simp_all)).2 hm
    rw [hq] at h2; cases h2

theorem outside {k : Acceptance} (h : ¬ admitted k a) : ∃ l, (k = .auto (some l) ∨ k = .manual (some l)) ∧ a ∉ l := by
  rcases k with (_ | l) | (_ | l) <;> simp_all [admitted, allowList]

theorem reason {x : Call} (hc : c.Ok) (hr : Reach c w) (h : call c w a x = .error (.e s)) : Reason c w a (.rent x) s := by
  have hi := (hr.inv hc).rent
  cases x <;> simp only [call] at h
  case create n du acc rv f x y =>
    have g1 : full (toDuration c.rentMaxDur du) = (Refuse.periodOf c.rentMaxDur du).2 := by cases du <;> rfl
    have g2 : period (toDuration c.rentMaxDur du) = (Refuse.periodOf c.rentMaxDur du).1 := by cases du <;> rfl
    have k1 : ∀ z, allowsCancel (toDuration c.rentMaxDur du) z = false → ∃ p m ch v, du = .sub p m ch ∧ z = .flexible v := by
      intro z hz
      cases du <;> cases z <;> simp_all [allowsCancel, toDuration]
    simp only [create] at h; inv_err at h
    rcases h with ⟨h, rfl⟩ | ⟨h1, ⟨h, rfl⟩ | ⟨d, hd, ⟨h, rfl⟩ | ⟨rfl, ⟨h, rfl⟩ | ⟨_, ⟨h, rfl⟩ | ⟨_, ⟨h, rfl⟩ | ⟨_, ⟨h, rfl⟩ |
      ⟨_, ⟨h, rfl⟩ | ⟨_, ⟨h, rfl⟩ | ⟨_, ⟨h, rfl⟩ | ⟨_, ⟨h, rfl⟩ | ⟨_, ⟨h, rfl⟩ | ⟨_, ⟨h, rfl⟩ | ⟨_, ⟨h, rfl⟩ | ⟨_, ⟨h, rfl⟩ | ⟨_,
      ⟨e, h, rfl⟩ | ⟨b, _, h | ⟨w1, hw1, h, rfl⟩⟩⟩⟩⟩⟩⟩⟩⟩⟩⟩⟩⟩⟩⟩⟩⟩
    · exact .rent (.full (by omega))
    · exact .noNft rfl h
    · exact .owner (n := n) rfl ⟨d, hd, h⟩
    · exact .rent (.state ⟨d, hd, not_pledge h⟩)
    · exact .rent (.long (.inr (by omega)))
    · exact .rent (.zero (.inr (by omega)))
    · exact .rent (.long (.inl (by omega)))
    · exact .rent (.zero (.inl (by omega)))
    · cases du <;> cases f <;> simp [allowsRent, toDuration] at h
      exact .rent .rentKind
    · obtain ⟨p, m, ch, v, rfl, rfl⟩ := k1 _ h
      exact .rent (.feeKind (.inl rfl))
    · obtain ⟨p, m, ch, v, rfl, rfl⟩ := k1 _ h
      exact .rent (.feeKind (.inr rfl))
    · cases f <;> simp [rentNft] at h
      exact .rent (.noRent h)
    · cases y <;> simp [feeNft] at h
      exact .rent (.noDeposit (.inr rfl) h)
    · exact .rent (.low (z := x) (.inl rfl) (by rw [depositPrice_eq]; omega) (by rw [depositPrice_eq]; omega))
    · exact .rent (.low (z := y) (.inr rfl) (by rw [depositPrice_eq]; omega) (by rw [depositPrice_eq]; omega))
    · refine .rent (.funds ?_)
      rw [pays_eq, inTokens_eq]; exact transfer_cannot h
    · cases e : feeNft x with
      | none => rw [e] at h; cases h
      | some i =>
        obtain rfl := fee_is e
        simp only [feeNft, depositRenterNft] at h; inv_err at h
        rcases h with ⟨h, rfl⟩ | ⟨z, hz, ⟨h, rfl⟩ | ⟨_, h, rfl⟩⟩
        · exact .rent (.noDeposit (.inl rfl) h)
        · exact .rent (.notOwned ⟨z, hz, h⟩)
        · exact .rent (.notPledgeable ⟨z, hz, not_pledge h⟩)
    · exfalso
      have e1 : w1.rent = w.rent := by
        cases e : feeNft x with
        | none => rw [e] at hw1; cases hw1; rfl
        | some i =>
          rw [e] at hw1
          simp only [depositRenterNft] at hw1; inv_ok at hw1
          obtain ⟨_, _, _, _, rfl⟩ := hw1; rfl
      rw [e1] at h
      unfold Queue.insert at h
      rw [if_pos (by omega)] at h; cases h
  case cancel n =>
    have h0 := h
    simp only [cancel] at h; inv_err at h
    rcases h with ⟨h, rfl⟩ | ⟨k, hk, ⟨h, rfl⟩ | ⟨rfl, ⟨h, rfl⟩ | ⟨h1, _⟩⟩⟩
    · exact .rent (.none rfl h)
    · exact .rent (.owner rfl ⟨k, hk, h⟩)
    · exact .rent (.running1 ⟨k, hk, h⟩)
    · obtain ⟨w', hw⟩ := accept_bwd (x := .cancel n) hc hr ⟨k, hk, rfl⟩ ⟨k, hk, h1⟩ trivial trivial
      simp only [call] at hw
      rw [hw] at h0; cases h0
  case revoke n =>
    simp only [revoke] at h; inv_err at h
    rcases h with ⟨h, rfl⟩ | ⟨k, hk, ⟨h, rfl⟩ | ⟨r, hk2, ⟨h, rfl⟩ | ⟨hp, ⟨h, rfl⟩ | ⟨_, h⟩⟩⟩⟩
    · exact .rent (.none rfl h)
    · exact .rent (.idle ⟨k, hk, h⟩)
    · exact .rent (.stranger ⟨k, hk, fun e => h (.inl e), fun e => h (.inr (Option.some.inj (hk2.symm.trans e)))⟩)
    · exact .rent (.bound ⟨k, hk, by simpa using h⟩)
    · have kw := hi.q.con n k hk
      obtain ⟨d, hd⟩ := hi.dep.nft n k hk
      have e2 : renteeNft k = feeNft k.renteeFee := by simp [renteeNft, hk2]
      have hn1 : ∀ m, feeNft k.renterFee = some m → ∃ d, w.nfts.get m = some d := by
        intro m hm
        by_cases e : m = n
        · subst e; exact ⟨d, hd⟩
        · obtain ⟨d', h1, _⟩ := (hi.dep.ok n k hk).held m (Or.inl ⟨hm, e⟩); exact ⟨d', h1⟩
      have hn2 : ∀ m, feeNft k.renteeFee = some m → ∃ d, w.nfts.get m = some d := by
        intro m hm
        obtain ⟨d', h1, _⟩ := (hi.dep.ok n k hk).held m (Or.inr (e2 ▸ hm)); exact ⟨d', h1⟩
      have hn3 : ∀ i, feeNft (if k.renter = a then k.renteeFee else k.renterFee) = some i → ∃ d, w.nfts.get i = some d := by
        split <;> assumption
      have hn4 : ∀ i, feeNft (if k.renter = a then k.renterFee else k.renteeFee) = some i → ∃ d, w.nfts.get i = some d := by
        split <;> assumption
      obtain ⟨st, hs⟩ : ∃ s, k.start = some s := by
        cases hst : k.start with
        | none => rw [kw.start.1 hst] at hk2; simp at hk2
        | some s => exact ⟨s, rfl⟩
      refine .pay ?_
      simp only [dues, hk, hk2, Option.elim, Option.getD_some, inTokens_eq, earned_eq]
      rcases h with h | ⟨w1, hw1, h⟩
      · exact paysAll_err (return_err hn3 h)
      · cases h0 : w.bal.transfer c.ed c.rentPot (if k.renter = a then r else k.renter)
          (feeTokens (if k.renter = a then k.renteeFee else k.renterFee)) .allowDeath with
        | error e =>
          exfalso
          simp only [Act.ext, returnFee, Act.seq, pay_err h0] at hw1
          cases hw1
        | ok b0 =>
          refine paysAll_next h0 ?_
          rw [return_run h0 hn3] at hw1
          cases hw1
          have hn5 := fun i hi => cho_some w.nfts (feeNft (if k.renter = a then k.renteeFee else k.renterFee))
            (if k.renter = a then r else k.renter) (hn4 i hi)
          rcases h with h | ⟨w2, hw2, h, _⟩
          · rcases penalty_err hs (kw.started st hs).2 (by have := kw.full; omega) hn5 h with h | ⟨b1, h1, h⟩
            · exact paysAll_err h
            · exact paysAll_next h1 (paysAll_err h)
          · exfalso
            obtain ⟨_, _, _, _, _, rfl⟩ := penalty_ok hw2
            obtain ⟨d2, hd2⟩ := cho_some (cho w.nfts (feeNft (if k.renter = a then k.renteeFee else k.renterFee))
              (if k.renter = a then r else k.renter)) (feeNft (if k.renter = a then k.renterFee else k.renteeFee))
              (if k.renter = a then r else k.renter) (cho_some _ _ _ ⟨d, hd⟩)
            simp only [hd2] at h
            cases h
  case rent n b =>
    simp only [rent] at h; inv_err at h
    rcases h with ⟨h, rfl⟩ | ⟨k, hk, ⟨h, rfl⟩ | ⟨_, ⟨h, rfl⟩ | ⟨_, ⟨h, rfl⟩ | ⟨_, ⟨h, rfl⟩ | ⟨_, ⟨h, rfl⟩ | ⟨_, h⟩⟩⟩⟩⟩⟩
    · exact .rent (.none rfl h)
    · exact .rent (.other (.inl rfl) ⟨k, hk, h⟩)
    · exact .rent (.running2 ⟨k, hk, h⟩)
    · exact .rent (.own (.inl rfl) ⟨k, hk, h⟩)
    · exact .rent (.manual ⟨k, hk, by cases e : k.acceptance <;> simp_all [isManual]⟩)
    · exact .rent (.list (.inl rfl) ⟨k, hk, outside h⟩)
    · exact .rent (.start ⟨k, hk, start_err h⟩)
  case makeOffer n b =>
    simp only [makeOffer] at h; inv_err at h
    rcases h with ⟨h, rfl⟩ | ⟨_, ⟨h, rfl⟩ | ⟨k, hk, ⟨h, rfl⟩ | ⟨_, ⟨h, rfl⟩ | ⟨_, ⟨h, rfl⟩ | ⟨_, ⟨h, rfl⟩ | ⟨_, ⟨h, rfl⟩ | ⟨_,
      ⟨h, rfl⟩ | ⟨_, ⟨h, rfl⟩ | ⟨_, ⟨h, rfl⟩ | ⟨_, h | ⟨_, h | ⟨_, h, rfl⟩⟩⟩⟩⟩⟩⟩⟩⟩⟩⟩⟩
    · refine .rent (.offered ?_)
      cases e : w.rent.offers.get n with
      | none => simp [e] at h
      | some l => exact ⟨l, rfl, by simpa [e] using h⟩
    · exact .rent (.none rfl h)
    · exact .rent (.other (.inr rfl) ⟨k, hk, h⟩)
    · exact .rent (.running3 ⟨k, hk, fun e => h ((hi.q.con n k hk).start.2 e)⟩)
    · exact .rent (.own (.inr rfl) ⟨k, hk, h⟩)
    · exact .rent (.auto ⟨k, hk, by cases e : k.acceptance <;> simp_all [isManual]⟩)
    · exact .rent (.list (.inr rfl) ⟨k, hk, outside h⟩)
    · exact .rent (.rentFunds ⟨k, hk, by beta_reduce; rw [rentInTokens_eq, ← check_iff]; exact h⟩)
    · exact .rent (.depositFunds ⟨k, hk, by beta_reduce; rw [inTokens_eq, ← check_iff]; exact h⟩)
    · refine .rent (.bothFunds ⟨k, hk, ?_⟩)
      rw [check_iff] at h
      beta_reduce
      rw [rentInTokens_eq, inTokens_eq]
      exact h
    · exact .rent (.give ⟨k, hk, give_err (.inl h)⟩)
    · exact .rent (.give ⟨k, hk, give_err (.inr h)⟩)
    · exact .rent (.offers ⟨_, rfl, by omega⟩)
  case acceptOffer n r =>
    simp only [acceptOffer] at h; inv_err at h
    rcases h with ⟨h, rfl⟩ | ⟨k, hk, ⟨h, rfl⟩ | ⟨l, hl, ⟨h, rfl⟩ | ⟨_, ⟨h, rfl⟩ | ⟨_, h⟩⟩⟩⟩
    · exact .rent (.none rfl h)
    · exact .rent (.noOffers (.inr ⟨r, rfl⟩) h)
    · exact .rent (.owner rfl ⟨k, hk, h⟩)
    · exact .rent (.noOffer1 ⟨l, hl, h⟩)
    · exact .rent (.accept ⟨k, hk, start_err h⟩)
  case retractOffer n =>
    simp only [retractOffer] at h; inv_err at h
    rcases h with ⟨h, rfl⟩ | ⟨l, hl, h, rfl⟩
    · exact .rent (.noOffers (.inl rfl) h)
    · exact .rent (.noOffer2 ⟨l, hl, h⟩)
  case changeTerms n f p m ch =>
    simp only [changeTerms] at h; inv_err at h
    rcases h with ⟨h, rfl⟩ | ⟨k, hk, ⟨h, rfl⟩ | ⟨_, ⟨h, rfl⟩ | ⟨_, ⟨h, rfl⟩ | ⟨_, ⟨h, rfl⟩ | ⟨_, ⟨h, rfl⟩ | ⟨_, h, rfl⟩⟩⟩⟩⟩⟩
    · exact .rent (.none rfl h)
    · exact .rent (.owner rfl ⟨k, hk, fun e => h e.symm⟩)
    · exact .rent (.fixed1 ⟨k, hk, fun s e => by rw [e] at h; exact h⟩)
    · refine .rent (.long2 (.inr ?_))
      cases m with
      | none => exact absurd (Nat.le_refl _) h
      | some x => exact ⟨x, rfl, by simpa using h⟩
    · exact .rent (.long2 (.inl (by omega)))
    · refine .rent (.zero2 (.inr ?_))
      cases m with
      | none => exact .inr (by simpa using h)
      | some x => exact .inl (by simpa using h)
    · exact .rent (.zero2 (.inl (by omega)))
  case acceptTerms n f p m ch =>
    simp only [acceptTerms] at h; inv_err at h
    rcases h with ⟨h, rfl⟩ | ⟨k, hk, ⟨h, rfl⟩ | ⟨x, hx, ⟨h, rfl⟩ | ⟨_, ⟨h, rfl⟩ | ⟨_, h, rfl⟩⟩⟩⟩
    · exact .rent (.none rfl h)
    · refine .rent (.fixed2 ⟨k, hk, ?_⟩)
      cases e : k.duration with
      | fixed d => exact ⟨d, e⟩
      | sub s => rw [e] at h; cases h
    · exact .rent (.rentee ⟨k, hk, fun e => h e.symm⟩)
    · refine .rent (.accepted ⟨k, hk, x, ?_, h⟩)
      cases e : k.duration with
      | fixed d => rw [e] at hx; cases hx
      | sub s => rw [e] at hx; cases hx; rfl
    · refine .rent (.terms ⟨k, hk, x, ?_, ?_⟩)
      · cases e : k.duration with
        | fixed d => rw [e] at hx; cases hx
        | sub s => rw [e] at hx; cases hx; rfl
      · by_contra g
        push Not at g
        obtain ⟨g1, g2, g3, g4⟩ := g
        refine h ⟨g1, g2, ?_, g4⟩
        cases m with
        | none => exact .inl rfl
        | some y => exact .inr (by rw [g3 y rfl])

end RentM
