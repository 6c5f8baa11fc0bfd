import Verif.Proofs.AcceptBase
import Verif.Proofs.Payout
/-
Lemmas for C115: calls of the rent pallet.
-/
variable {c : Cfg} {w w' : World} {a : AccountId}
set_option maxRecDepth 10000
open Spec Spec.Accept

namespace RentM

theorem valid_of {d : NFTData} (h : Refuse.Pledgeable d) : valid d.st = true := by
  obtain ⟨⟨h1, h2, h3, h4⟩, ⟨h5, h6⟩, h7⟩ := h
  simp [valid, h1, h2, h3, h4, h5, h6, h7]

theorem check_iff (w : World) (a : AccountId) (v : Balance) : w.bal.balanceCheck a v ↔ Holds w a v := by
  unfold Bal.balanceCheck Holds Bal.ensureCanWithdraw
  rw [Spec.locked_eq]
  omega

theorem chown_run {m : Option NFTId} {x : AccountId} (h : ∀ i, m = some i → ∃ d, w.nfts.get i = some d) :
    chownOpt m x w = ({ w with nfts := cho w.nfts m x }, .ok ()) := by
  cases m with
  | none => rfl
  | some m =>
    obtain ⟨d, hd⟩ := h m rfl
    simp [chownOpt, chownAct, hd, cho, World.putNft]

theorem pay_run {s d v l b} (h : w.bal.transfer c.ed s d v l = .ok b) : payAct c s d v l w = (w.putBal b, .ok ()) := by
  unfold payAct; rw [h]

theorem cho_some (f : FMap NFTId NFTData) (m : Option NFTId) (x : AccountId) {i : NFTId} (h : ∃ d, f.get i = some d) :
    ∃ d, (cho f m x).get i = some d := by
  obtain ⟨d, hd⟩ := h
  rw [get_cho]
  split
  · exact ⟨_, by rw [hd]; rfl⟩
  · exact ⟨d, hd⟩

theorem return_run {f : CancelFee} {x : AccountId} {b : Bal} (h : w.bal.transfer c.ed c.rentPot x (feeTokens f) .allowDeath = .ok b)
    (hn : ∀ i, feeNft f = some i → ∃ d, w.nfts.get i = some d) :
    (returnFee c f x).ext w = .ok { w with bal := b, nfts := cho w.nfts (feeNft f) x } := by
  have e := chown_run (w := w.putBal b) (x := x) hn
  simp only [Act.ext, returnFee, Act.seq, pay_run h, e]
  rfl

theorem penalty_run {k : Contract} {f : CancelFee} {x : AccountId} {b1 b2 : Bal} {s : Block} {now : Block}
    (h1 : w.bal.transfer c.ed c.rentPot a (keptPart k now f) .allowDeath = .ok b1)
    (h2 : b1.transfer c.ed c.rentPot x (feeTokens f - keptPart k now f) .allowDeath = .ok b2)
    (hs : k.start = some s) (hn : s ≤ now) (hf : full k.duration ≠ 0)
    (hi : ∀ i, feeNft f = some i → ∃ d, w.nfts.get i = some d) :
    penalty c k now f a x w = .ok { w with bal := b2, nfts := cho w.nfts (feeNft f) x } := by
  unfold penalty
  cases hx : flexible f with
  | none =>
    simp only [keptPart, hx, Nat.sub_zero] at h1 h2
    obtain rfl : w.bal = b1 := by simpa [Bal.transfer] using h1
    exact return_run h2 hi
  | some v =>
    cases f <;> simp [flexible] at hx
    subst hx
    simp only [keptPart, flexible, feeTokens, hs, Option.getD_some] at h1 h2
    have hc : completion k now = .ok (Permill.fromPercent (min ((now - s) * 100) U32MAX / full k.duration)) := by
      simp [completion, expectSome, hs, hn, hf, bind, Except.bind, pure, Except.pure]
    have e2 := pay_run (w := w.putBal b1) (c := c) h2
    simp only [hc, bind, Except.bind, Act.ext, returnFlexible, Act.seq, pay_run h1, e2]
    simp [cho, feeNft, World.putBal]

theorem give_run {o : Option NFTId} (h : ∀ n, o = some n → Refuse.Nft w n fun d => d.owner = a ∧ Refuse.Pledgeable d) :
    checkNft w a o = .ok () := by
  cases o with
  | none => rfl
  | some n =>
    obtain ⟨d, hd, h1, h2⟩ := h n rfl
    simp only [checkNft, Exec.bind_ok, Exec.require_ok, Exec.exists_unit, Exec.getOr_ok]
    exact ⟨d, hd, h1, valid_of h2⟩

theorem give_iff {r : AccountId} {k : Contract} :
    Refuse.CanGive w r k ↔ checkNft w r (rentNft k.rentFee) = .ok () ∧ checkNft w r (feeNft k.renteeFee) = .ok () := by
  unfold Refuse.CanGive
  simp only [rentIn_eq, depositIn_eq]
  exact ⟨fun h => ⟨give_run h.1, give_run h.2⟩, fun h => ⟨checkNft_fit h.1, checkNft_fit h.2⟩⟩

theorem insert_iff {q : RentSt} {d : Duration} {n : NFTId} {b : Block} (hf : q.fixedQ = w.rent.fixedQ)
    (hs : q.subQ = w.rent.subQ) : (∃ q', insertKind c q d n b = some q') ↔ RentRoom c w d := by
  cases d with
  | fixed x =>
    simp only [insertKind, Queue.insert, RentRoom, hf]
    by_cases h : w.rent.fixedQ.length < c.rentLimit <;> simp [h]
  | sub x =>
    simp only [insertKind, Queue.insert, RentRoom, hs]
    by_cases h : w.rent.subQ.length < c.rentLimit <;> simp [h]

theorem start_iff {n : NFTId} {k : Contract} {r : AccountId} (hk : w.rent.contracts.get n = some k) :
    (∃ w', startContract c w n k r = .ok w') ↔ (Refuse.CanGive w r k ∧ RentRoom c w k.duration) ∧
      CanPayAll c.ed (purse w.bal) (rentDues c w n r) := by
  simp only [rentDues, hk, Option.elim, pays_cons, rentInTokens_eq, inTokens_eq]
  constructor
  · rintro ⟨w', h⟩
    obtain ⟨w1, q, h1, h2, _⟩ := startContract_ok h
    obtain ⟨b1, b2, t1, t2, _⟩ := takeFees_ok h1
    refine ⟨⟨?_, (insert_iff (q := { w.rent with availQ := w.rent.availQ.remove n }) rfl rfl).1 ⟨q, h2⟩⟩, b1, t1, b2, t2, trivial⟩
    unfold takeFees at h1
    inv_ok at h1
    obtain ⟨_, _, _, _, _, h3, h4, _⟩ := h1
    have e := (give_iff (w := w) (r := r) (k := k)).2
    refine e ⟨h3, h4⟩
  · rintro ⟨⟨h1, h2⟩, b1, t1, b2, t2, _⟩
    obtain ⟨g1, g2⟩ := h1
    simp only [rentIn_eq, depositIn_eq] at g1 g2
    have x1 : ∀ i, rentNft k.rentFee = some i → ∃ d, (w.putBal b2).nfts.get i = some d :=
      fun i hi => let ⟨d, hd, _⟩ := g1 i hi; ⟨d, hd⟩
    have x2 : ∀ i, feeNft k.renteeFee = some i → ∃ d, (cho w.nfts (rentNft k.rentFee) k.renter).get i = some d :=
      fun i hi => cho_some _ _ _ (let ⟨d, hd, _⟩ := g2 i hi; ⟨d, hd⟩)
    have y1 : checkNft (w.putBal b2) r (rentNft k.rentFee) = .ok () := give_run g1
    have y2 : checkNft (w.putBal b2) r (feeNft k.renteeFee) = .ok () := give_run g2
    have z1 : (chownOpt (rentNft k.rentFee) k.renter).ext (w.putBal b2) =
        .ok { w.putBal b2 with nfts := (cho w.nfts (rentNft k.rentFee) k.renter) } := by
      simp only [Act.ext, chown_run x1]; rfl
    obtain ⟨w2, z2⟩ : ∃ w2, (chownOpt (feeNft k.renteeFee) c.rentPot).ext
        { w.putBal b2 with nfts := (cho w.nfts (rentNft k.rentFee) k.renter) } = .ok w2 ∧ w2.rent = w.rent := by
      have := chown_run (w := { w.putBal b2 with nfts := (cho w.nfts (rentNft k.rentFee) k.renter) }) (x := c.rentPot) x2
      simp only [Act.ext, this]; exact ⟨_, rfl, rfl⟩
    obtain ⟨q, hq⟩ := (insert_iff (c := c) (w := w) (d := k.duration) (n := n) (b := w2.now + period k.duration)
      (q := { w2.rent with availQ := w2.rent.availQ.remove n }) (by rw [z2.2]) (by rw [z2.2])).2 h2
    simp only [startContract, takeFees, Exec.bind_ok, Exec.mapErr_ok, Exec.exists_unit, Exec.getOr_ok, Exec.pure_ok]
    exact ⟨_, _, ⟨b1, t1, b2, t2, y1, y2, _, z1, z2.1⟩, q, hq, rfl⟩

theorem accept_fwd {x : Call} (h : call c w a x = .ok w') :
    Room c w a (.rent x) ∧ CanPayAll c.ed (purse w.bal) (dues c w a (.rent x)) := by
  cases x <;> simp only [call] at h <;> simp only [Room, dues]
  case create n du acc rv f x y =>
    simp only [create] at h; inv_ok at h
    refine ⟨trivial, ?_⟩
    rw [pays_cons, inTokens_eq]
    repeat' (first | obtain ⟨_, h⟩ := h)
    all_goals exact ⟨_, by assumption, trivial⟩
  case revoke n =>
    obtain ⟨k, r, d, b0, b1, b2, hk, hr, hp, hcr, hd, h0, h1, h2, _, rfl⟩ := revoke_ok h
    refine ⟨trivial, ?_⟩
    simp only [hk, hr, Option.elim, Option.getD_some, paysAll_cons, inTokens_eq, earned_eq]
    exact ⟨b0, h0, b1, h1, b2, h2, trivial⟩
  case rent n b =>
    simp only [rent] at h; inv_ok at h
    obtain ⟨k, hk, _, _, _, _, _, h⟩ := h
    obtain ⟨h1, h2⟩ := (start_iff hk).1 ⟨w', h⟩
    exact ⟨⟨k, hk, h1⟩, h2⟩
  case acceptOffer n r =>
    simp only [acceptOffer] at h; inv_ok at h
    obtain ⟨k, l, hk, _, _, _, h⟩ := h
    obtain ⟨h1, h2⟩ := (start_iff hk).1 ⟨w', h⟩
    exact ⟨⟨k, hk, h1⟩, h2⟩
  case makeOffer n b =>
    simp only [makeOffer] at h; inv_ok at h
    obtain ⟨k, _, hk, _, _, _, _, _, h1, h2, h3, _⟩ := h
    simp only [check_iff] at h1 h2 h3
    refine ⟨⟨k, hk, ?_⟩, trivial⟩
    simp only [rentInTokens_eq, inTokens_eq]
    exact ⟨h1, h2, h3⟩
  all_goals exact ⟨trivial, trivial⟩

theorem lets_in {k : Acceptance} (h : LetsIn a k) : admitted k a := by
  cases k <;> simp_all [admitted, allowList, LetsIn]

theorem accept_bwd (hc : c.Ok) (hr : Reach c w) {x : Call} (he : Entitled w a (.rent x)) (hf : Refuse.Fit c w a (.rent x))
    (hm : Room c w a (.rent x)) (hp : CanPayAll c.ed (purse w.bal) (dues c w a (.rent x))) :
    ∃ w', call c w a x = .ok w' := by
  have hi := (hr.inv hc).rent
  have hb := hr.micro.balInv
  have some_inj : ∀ {α : Type} {o : Option α} {x y : α}, o = some x → o = some y → x = y := by
    intro α o x y h1 h2; rw [h1] at h2; exact Option.some.inj h2
  cases x <;> simp only [call] <;> simp only [Entitled, Refuse.Fit, Room, dues] at he hf hm hp
  case create n du acc rv f x y =>
    obtain ⟨⟨d, hd, rfl⟩, hx⟩ := he
    obtain ⟨⟨d', hd', h1⟩, h2, ⟨h3, h4, h5, h6⟩, h7, h8, h9, h10, h11, h12⟩ := hf
    obtain rfl := some_inj hd hd'
    rw [pays_cons] at hp
    obtain ⟨b, hb, _⟩ := hp
    rw [inTokens_eq] at hb
    simp only [rentIn_eq, depositIn_eq, depositPrice_eq] at h8 h9 h10 h11 h12
    obtain ⟨w1, hw1, e1⟩ : ∃ w1, depositRenterNft c (w.putBal b) d.owner (feeNft x) = .ok w1 ∧ w1.rent = w.rent := by
      cases e : feeNft x with
      | none => exact ⟨_, rfl, rfl⟩
      | some i =>
        obtain ⟨z, hz, hz1, hz2⟩ := h10 i e
        simp only [depositRenterNft, Exec.bind_ok, Exec.require_ok, Exec.exists_unit, Exec.getOr_ok, Exec.pure_ok]
        exact ⟨_, ⟨z, hz, hz1, valid_of hz2, rfl⟩, rfl⟩
    have hq : ∃ q, Queue.insert c.rentLimit w1.rent.availQ n (w1.now + c.rentAvail) = some q := by
      rw [e1]; simp only [Queue.insert]; rw [if_pos (by omega)]; exact ⟨_, rfl⟩
    obtain ⟨q, hq⟩ := hq
    have g1 : full (toDuration c.rentMaxDur du) = (Refuse.periodOf c.rentMaxDur du).2 := by cases du <;> rfl
    have g2 : period (toDuration c.rentMaxDur du) = (Refuse.periodOf c.rentMaxDur du).1 := by cases du <;> rfl
    have a1 : allowsRent (toDuration c.rentMaxDur du) f = true := by
      cases du with
      | fixed => rfl
      | sub p m ch =>
        have := (h7 p m ch rfl).1
        cases f with
        | nft z => exact absurd rfl (this z)
        | tokens => rfl
    have a2 : ∀ z : CancelFee, (∀ p m ch, du = .sub p m ch → ∀ v, z ≠ .flexible v) →
        allowsCancel (toDuration c.rentMaxDur du) z = true := by
      intro z hz
      cases du with
      | fixed => rfl
      | sub p m ch =>
        have := hz p m ch rfl
        cases z with
        | flexible v => exact absurd rfl (this v)
        | _ => rfl
    simp only [create, Exec.bind_ok, Exec.require_ok, Exec.exists_unit, Exec.getOr_ok, Exec.pure_ok, Exec.mapErr_ok, g1, g2]
    refine ⟨_, by omega, d, hd, rfl, valid_of h1, h6, h5, h4, h3, a1, a2 x fun p m ch e => (h7 p m ch e).2.1,
      a2 y fun p m ch e => (h7 p m ch e).2.2, ?_, ?_, h11, h12, b, hb, w1, hw1, q, hq, rfl⟩
    · intro i hi; obtain ⟨z, hz, _⟩ := h8 i hi; rw [hz]; rfl
    · intro i hi; obtain ⟨z, hz, _⟩ := h9 i hi; rw [hz]; rfl
  case cancel n =>
    obtain ⟨k, hk, rfl⟩ := he
    obtain ⟨k', hk', hn⟩ := hf
    obtain rfl := some_inj hk hk'
    obtain ⟨w1, h1⟩ := hi.finish_succeeds hb hk
    obtain ⟨k', d, b1, b2, hk', hd, t1, t2, _⟩ := finished_ok h1
    obtain rfl := some_inj hk hk'
    have hn1 : ∀ m, feeNft k.renterFee = some m → ∃ d, w.nfts.get m = some d := by
      intro m hm
      by_cases e : m = n
      · subst e; exact ⟨d, hd⟩
      · obtain ⟨d', h1, _⟩ := (hi.dep.ok n k hk).held m (Or.inl ⟨hm, e⟩); exact ⟨d', h1⟩
    simp only [cancel, Exec.bind_ok, Exec.require_ok, Exec.exists_unit, Exec.getOr_ok]
    suffices ∀ v : World, v.rent.contracts = w.rent.contracts → v.nfts = w.nfts → v.bal = w.bal →
        ∃ w', (handleFinished c n).ext v = .ok w' by
      obtain ⟨w', hw'⟩ := this { w with rent := { w.rent with
        availQ := w.rent.availQ.remove n, offers := w.rent.offers.erase n } } rfl rfl rfl
      exact ⟨w', k, hk, rfl, hn, hw'⟩
    intro v e1 e2 e3
    have p1 := pay_run (w := v) (c := c) (by rw [e3]; exact t1)
    have p2 := chown_run (w := v.putBal b1) (x := k.renter) (m := feeNft k.renterFee) (by
      show ∀ i, _ → ∃ d, v.nfts.get i = some d
      rw [e2]; exact hn1)
    unfold Act.ext handleFinished
    simp only [e1, hk, e2, hd, Act.seq, p1, hn, Act.skip, p2]
    exact ⟨_, rfl⟩
  case revoke n =>
    obtain ⟨k, r, hk, hk2, hpart⟩ := he
    have kw := hi.q.con n k hk
    obtain ⟨d, hd⟩ := hi.dep.nft n k hk
    simp only [hk, hk2, Option.elim, Option.getD_some, paysAll_cons, inTokens_eq, earned_eq] at hp
    obtain ⟨b0, t0, b1, t1, b2, t2, _⟩ := hp
    have e2 : renteeNft k = feeNft k.renteeFee := by simp [renteeNft, hk2]
    have hn1 : ∀ m, feeNft k.renterFee = some m → ∃ d, w.nfts.get m = some d := by
      intro m hm
      by_cases e : m = n
      · subst e; exact ⟨d, hd⟩
      · obtain ⟨d', h1, _⟩ := (hi.dep.ok n k hk).held m (Or.inl ⟨hm, e⟩); exact ⟨d', h1⟩
    have hn2 : ∀ m, feeNft k.renteeFee = some m → ∃ d, w.nfts.get m = some d := by
      intro m hm
      obtain ⟨d', h1, _⟩ := (hi.dep.ok n k hk).held m (Or.inr (e2 ▸ hm)); exact ⟨d', h1⟩
    obtain ⟨s, hs⟩ : ∃ s, k.start = some s := by
      cases hst : k.start with
      | none => rw [kw.start.1 hst] at hk2; simp at hk2
      | some s => exact ⟨s, rfl⟩
    have r1 := return_run (c := c) (w := w) t0 (by split <;> assumption)
    have r2 := penalty_run (c := c) (a := a) (k := k) (now := w.now)
      (w := { w with bal := b0, nfts := (cho w.nfts (feeNft (if k.renter = a then k.renteeFee else k.renterFee))
          (if k.renter = a then r else k.renter)) }) t1 t2 hs (kw.started s hs).2 (by have := kw.full; omega)
      (fun i hi => cho_some _ _ _ (by revert hi; split <;> intro hi <;> [exact hn1 i hi; exact hn2 i hi]))
    obtain ⟨d2, hd2⟩ := cho_some (cho w.nfts (feeNft (if k.renter = a then k.renteeFee else k.renterFee))
        (if k.renter = a then r else k.renter)) (feeNft (if k.renter = a then k.renterFee else k.renteeFee))
        (if k.renter = a then r else k.renter) (cho_some _ _ _ ⟨d, hd⟩)
    simp only [revoke, Exec.bind_ok, Exec.require_ok, Exec.exists_unit, Exec.getOr_ok, Exec.pure_ok]
    refine ⟨_, k, hk, r, hk2, ?_, ?_, _, r1, _, r2, d2, hd2, rfl⟩
    · rcases hpart with h | h
      · exact .inl h.1
      · exact .inr h.2
    · intro e
      rcases hpart with h | h
      · exact h.2
      · exact absurd e h.1
  case rent n b =>
    obtain ⟨k, hk, hb, hne, ⟨l, hl⟩, hin⟩ := he
    obtain ⟨k1, hk1, hn⟩ := hf
    obtain ⟨k2, hk2, hg⟩ := hm
    obtain rfl := some_inj hk hk1
    obtain rfl := some_inj hk hk2
    obtain ⟨w', hw⟩ := (start_iff hk).2 ⟨hg, hp⟩
    simp only [rent, Exec.bind_ok, Exec.require_ok, Exec.exists_unit, Exec.getOr_ok]
    exact ⟨w', k, hk, hb, hn, hne, by rw [hl]; rfl, lets_in hin, hw⟩
  case makeOffer n b =>
    obtain ⟨k, hk, hb, hne, ⟨l, hl⟩, hin⟩ := he
    obtain ⟨g1, g2, k1, hk1, hn, hg, _⟩ := hf
    obtain ⟨k2, hk2, v1, v2, v3⟩ := hm
    obtain rfl := some_inj hk hk1
    obtain rfl := some_inj hk hk2
    obtain ⟨y1, y2⟩ := give_iff.1 hg
    simp only [rentInTokens_eq, inTokens_eq] at v1 v2 v3
    simp only [makeOffer, Exec.bind_ok, Exec.require_ok, Exec.exists_unit, Exec.getOr_ok, Exec.pure_ok, Exec.mapErr_ok,
      check_iff]
    exact ⟨_, g1, k, hk, hb, hn, hne, by rw [hl]; rfl, lets_in hin, v1, v2, v3, y1, y2, g2, rfl⟩
  case acceptOffer n r =>
    obtain ⟨k, hk, rfl, l, hl, hin⟩ := he
    obtain ⟨k2, hk2, hg⟩ := hm
    obtain rfl := some_inj hk hk2
    obtain ⟨w', hw⟩ := (start_iff hk).2 ⟨hg, hp⟩
    simp only [acceptOffer, Exec.bind_ok, Exec.require_ok, Exec.exists_unit, Exec.getOr_ok]
    exact ⟨w', k, hk, l, hl, rfl, hin, hw⟩
  case retractOffer n =>
    obtain ⟨l, hl, hin⟩ := he
    simp only [retractOffer, Exec.bind_ok, Exec.require_ok, Exec.exists_unit, Exec.getOr_ok, Exec.pure_ok]
    exact ⟨_, l, hl, hin, rfl⟩
  case changeTerms n f p m ch =>
    obtain ⟨k, hk, rfl⟩ := he
    obtain ⟨⟨k', s, hk', hs, hch⟩, h1, h2, h3⟩ := hf
    obtain rfl := some_inj hk hk'
    have hm2 : m.getD c.rentMaxDur ≤ c.rentMaxDur ∧ 0 < m.getD c.rentMaxDur := by
      cases m with
      | none => exact ⟨Nat.le_refl _, by simp only [Option.getD_none]; omega⟩
      | some x => have := h3 x rfl; exact ⟨this.2, this.1⟩
    simp only [changeTerms, Exec.bind_ok, Exec.require_ok, Exec.exists_unit, Exec.getOr_ok, Exec.pure_ok]
    exact ⟨_, k, hk, rfl, by rw [hs]; exact hch, hm2.1, h2, hm2.2, h1, rfl⟩
  case acceptTerms n f p m ch =>
    obtain ⟨k, hk, hr⟩ := he
    obtain ⟨k', s, hk', hs, h1, h2, h3, h4, h5⟩ := hf
    obtain rfl := some_inj hk hk'
    simp only [acceptTerms, Exec.bind_ok, Exec.require_ok, Exec.exists_unit, Exec.getOr_ok, Exec.pure_ok]
    refine ⟨_, k, hk, s, by rw [hs], hr.symm, h1, ⟨h2, h3, ?_, h4⟩, rfl⟩
    cases m with
    | none => exact .inl rfl
    | some x => exact .inr (by rw [h5 x rfl])

end RentM
