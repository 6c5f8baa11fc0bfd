import Verif.Proofs.AucPay
import Verif.Proofs.RentLive
/-
Payments out of one account, and what ends of contracts pay.
-/
variable {c : Cfg} {w w' : World} {a : AccountId}

/-- From `b` to `b'` account `s` paid `v` in total, of which `x` got `g x`; below the existential
deposit, `s` loses the rest. -/
def Bal.Out (ed : Balance) (s : AccountId) (v : Balance) (g : AccountId → Balance) (b b' : Bal) : Prop :=
  ∃ δ, (∀ x, x ≠ s → b'.freeOf x = b.freeOf x + g x) ∧ b'.freeOf s + v + δ = b.freeOf s ∧
    (δ = 0 ∨ b'.freeOf s = 0 ∧ δ < ed) ∧ (b.freeOf s = 0 → δ = 0)

theorem Bal.transfer_out {ed : Balance} {b b' : Bal} {s d : AccountId} {v : Balance} {l : Live}
    (h : b.transfer ed s d v l = .ok b') (hsd : s ≠ d) :
    Bal.Out ed s v (fun x => gets x d v) b b' := by
  obtain ⟨δ, h1, h2, h3, h4⟩ := Bal.transfer_moves h
  refine ⟨δ, h1, ?_, ?_, fun h => (h4 h).1⟩
  · have : gets s d v = 0 := by simp [gets, hsd]
    rw [this] at h2; exact h2
  · rcases h3 with h3 | ⟨h3, h5, _⟩
    · exact Or.inl h3
    · exact Or.inr ⟨h3, h5⟩

theorem Bal.Out.trans {ed s v g v' g'} {b b1 b2 : Bal} (h : Bal.Out ed s v g b b1)
    (h' : Bal.Out ed s v' g' b1 b2) : Bal.Out ed s (v + v') (fun x => g x + g' x) b b2 := by
  obtain ⟨δ, h1, h2, h3, h4⟩ := h
  obtain ⟨δ', k1, k2, k3, k4⟩ := h'
  refine ⟨δ + δ', fun x hx => ?_, by omega, ?_, by omega⟩
  · rw [k1 x hx, h1 x hx]; simp only; omega
  · rcases h3 with h3 | ⟨h3, h5⟩
    · rcases k3 with k3 | ⟨k3, k5⟩
      · left; omega
      · right; omega
    · have := k4 h3
      right; omega

namespace RentM

/-- the deposits paid back at the end of contract `k` -/
theorem Refund.out {n k b f} (h : Refund c w n k b f) (hi : RInv c w)
    (hk : w.rent.contracts.get n = some k) :
    Bal.Out c.ed c.rentPot (feeTokens k.renterFee + renteeTokens k)
      (fun x => gets x k.renter (feeTokens k.renterFee) + gets x (k.rentee.getD 0) (renteeTokens k))
      w.bal b := by
  obtain ⟨d, b1, _, h1, h2, _⟩ := h
  obtain ⟨p1, p2⟩ := hi.parties hk
  refine (Bal.transfer_out h1 p1).trans ?_
  cases hr : k.rentee with
  | none =>
    have e : renteeTokens k = 0 := by simp [renteeTokens, hr]
    rw [e, hr] at h2
    have : b = b1 := by simpa [Bal.transfer] using h2.symm
    subst this
    exact ⟨0, fun x _ => by simp [gets, e], by omega, Or.inl rfl, fun _ => rfl⟩
  | some r =>
    rw [hr] at h2
    exact Bal.transfer_out h2 (p2 r hr)

/-- the NFTs at the end of contract `k` -/
theorem Refund.nfts {n k b f} (h : Refund c w n k b f) (hi : RInv c w)
    (hk : w.rent.contracts.get n = some k) :
    (∀ d, w.nfts.get n = some d → f.get n = some { d with st := { d.st with rented := false } }) ∧
    (∀ m, m ≠ n → feeNft k.renterFee = some m →
      f.get m = (w.nfts.get m).map fun d => { d with owner := k.renter }) ∧
    (∀ m r, k.rentee = some r → feeNft k.renteeFee = some m →
      f.get m = (w.nfts.get m).map fun d => { d with owner := r }) ∧
    (∀ m, m ≠ n → ¬ deposits n k m → f.get m = w.nfts.get m) := by
  obtain ⟨d, b1, hd, _, _, rfl⟩ := h
  have ho := hi.dep.ok n k hk
  refine ⟨?_, ?_, ?_, ?_⟩
  · intro d' hd'; rw [hd] at hd'; simp at hd'; subst hd'; simp
  · intro m hm hf
    have hne : renteeNft k ≠ some m := fun e => ho.diff m e hf
    simp only [FMap.get_insert, hm, if_false, get_cho, hne, hf, if_true]
  · intro m r hr hf
    have e : renteeNft k = some m := by simp [renteeNft, hr, hf]
    have hm : m ≠ n := by rintro rfl; exact ho.self e
    have hne := ho.diff m e
    simp only [FMap.get_insert, hm, if_false, get_cho, hne, e, if_true, hr, Option.getD_some]
  · intro m hm hn
    have h1 : renteeNft k ≠ some m := fun e => hn (Or.inr e)
    have h2 : feeNft k.renterFee ≠ some m := fun e => hn (Or.inl ⟨e, hm⟩)
    simp only [FMap.get_insert, hm, if_false, get_cho, h1, h2]

/-- the invariants hold after the hook's actions -/
theorem Tick.inv (h : Tick c w w') (hi : RInv c w) (hb : BalInv c w.bal) :
    ∀ n k, w.rent.contracts.get n = some k → w'.rent.contracts.get n = Option.none →
      ∃ d, w'.nfts.get n = some d ∧ d.owner = k.renter ∧ d.st.rented = false := by
  intro n k hk hn
  cases h with
  | @finish m k' b f hk' ho hf =>
    have : n = m := by
      by_contra e
      simp only [FMap.get_erase, e, if_false] at hn
      rw [hk] at hn; simp at hn
    subst this
    rw [hk] at hk'; simp at hk'; subst hk'
    obtain ⟨d, hd⟩ := hi.dep.nft n k hk
    exact ⟨_, (hf.nfts hi hk).1 d hd, ((hi.dep.ok n k hk).owner d hd).1, rfl⟩
  | renew => rw [hk] at hn; simp at hn

/-- an NFT outside all contracts and deposits is not touched by the hook's actions -/
theorem Tick.nft {n d} (h : Tick c w w') (hi : RInv c w) (hn : w.rent.contracts.get n = Option.none)
    (hd : w.nfts.get n = some d) (ho : d.owner ≠ c.rentPot) : w'.nfts.get n = some d := by
  cases h with
  | @finish m k b f hk _ hf =>
    have hm : n ≠ m := by rintro rfl; rw [hn] at hk; simp at hk
    show f.get n = _
    rw [(hf.nfts hi hk).2.2.2 n hm, hd]
    intro hdep
    obtain ⟨d', h1, h2, _⟩ := (hi.dep.ok m k hk).held n hdep
    rw [hd] at h1; simp at h1; subst h1; exact ho h2
  | renew => exact hd

/-- contracts ended by the hook leave their NFT with the renter, released -/
theorem Ticks.released (h : Ticks c w w') {n k} (hk : w.rent.contracts.get n = some k)
    (hn : w'.rent.contracts.get n = Option.none) (hp : ¬ c.pot k.renter) :
    ∃ d, w'.nfts.get n = some d ∧ d.owner = k.renter ∧ d.st.rented = false := by
  induction h with
  | refl => rw [hk] at hn; simp at hn
  | @tail w1 w2 h1 h2 ih =>
    obtain ⟨hi, hb, ht⟩ := h2
    cases hk1 : w1.rent.contracts.get n with
    | none =>
      obtain ⟨d, e1, e2, e3⟩ := ih hk1
      exact ⟨d, ht.nft hi hk1 e1 (fun e => hp (e2 ▸ e ▸ Cfg.pot_rent)), e2, e3⟩
    | some k1 =>
      have : k1 = k := by
        rcases Ticks.at h1 hk with e | ⟨_, _, _, _, e⟩
        · rw [hk1] at e; simpa using e
        · rw [hk1] at e; simp at e
      subst this
      exact ht.inv hi hb n k1 hk1 hn

/-- Revocation succeeds unless the revoker's deposit is flexible. -/
theorem RInv.revoke_succeeds (h : RInv c w) (hb : BalInv c w.bal) {n k r}
    (hk : w.rent.contracts.get n = some k) (hr : k.rentee = some r)
    (hpart : k.renter = a ∨ r = a) (hcan : k.renter = a → k.renterCanRevoke = true)
    (hfl : flexible (if k.renter = a then k.renterFee else k.renteeFee) = none) :
    ∃ w', revoke c w a n = .ok w' := by
  obtain ⟨d, hd⟩ := h.dep.nft n k hk
  have kw := h.q.con n k hk
  obtain ⟨o1, o2⟩ := owed_ok kw
  have hs := h.solv
  rw [owed_split hk] at hs
  have hrest := owedRest_ok h.q n
  obtain ⟨pr, pe⟩ := h.parties hk
  have pe := pe r hr
  have hf : w.bal.frozen c.rentPot = 0 := hb.pots _ (Or.inr (Or.inl rfl))
  have e1 : renteeTokens k = feeTokens k.renteeFee := by simp [renteeTokens, hr]
  have e2 : renteeNft k = feeNft k.renteeFee := by simp [renteeNft, hr]
  rw [e1] at o2
  unfold owed at hs
  rw [e1] at hs
  have hn1 : ∀ m, feeNft k.renterFee = some m → ∃ d, w.nfts.get m = some d := by
    intro m hm
    by_cases e : m = n
    · subst e; exact ⟨d, hd⟩
    · obtain ⟨d', h1, _⟩ := (h.dep.ok n k hk).held m (Or.inl ⟨hm, e⟩); exact ⟨d', h1⟩
  have hn2 : ∀ m, feeNft k.renteeFee = some m → ∃ d, w.nfts.get m = some d := by
    intro m hm
    obtain ⟨d', h1, _⟩ := (h.dep.ok n k hk).held m (Or.inr (e2 ▸ hm)); exact ⟨d', h1⟩
  have ret : ∀ (w : World) (f : CancelFee) (dst : AccountId) (o : Balance), w.bal.frozen c.rentPot = 0 →
      feeTokens f + o ≤ w.bal.freeOf c.rentPot → (o = 0 ∨ c.ed ≤ o) →
      (feeTokens f = 0 ∨ c.ed < feeTokens f) → c.rentPot ≠ dst →
      (∀ m, feeNft f = some m → ∃ d, w.nfts.get m = some d) →
      ∃ w', (returnFee c f dst).ext w = .ok w' ∧ w'.bal.frozen c.rentPot = 0 ∧
        o ≤ w'.bal.freeOf c.rentPot ∧ w'.now = w.now ∧
        ∀ i, (∃ d, w.nfts.get i = some d) → ∃ d, w'.nfts.get i = some d := by
    intro w f dst o hf hle ho hz hp hm
    obtain ⟨b1, hb1, hl1⟩ := Bal.transfer_solvent (ed := c.ed) (d := dst) (v := feeTokens f) (o := o)
      hf hle ho (by omega) hp
    have hf1 : b1.frozen c.rentPot = 0 := by rw [Bal.frozen_mono (Bal.transfer_mono hb1), hf]
    cases hx : feeNft f with
    | none =>
      refine ⟨w.putBal b1, ?_, hf1, hl1, rfl, fun i h => h⟩
      simp [returnFee, Act.ext, Act.seq, payAct, hb1, hx, chownOpt, Act.skip]
    | some m =>
      obtain ⟨d, hd⟩ := hm m hx
      refine ⟨(w.putBal b1).putNft m { d with owner := dst }, ?_, hf1, hl1, rfl, ?_⟩
      · have : (w.putBal b1).nfts.get m = some d := hd
        simp [returnFee, Act.ext, Act.seq, payAct, hb1, hx, chownOpt, chownAct, this]
      · rintro i ⟨d', hd'⟩
        simp only [World.putNft, FMap.get_insert]
        split
        · exact ⟨_, rfl⟩
        · exact ⟨d', hd'⟩
  have hdam : c.rentPot ≠ (if k.renter = a then r else k.renter) := by split <;> assumption
  obtain ⟨w1, r1, f1, l1, t1, x1⟩ := ret w (if k.renter = a then k.renteeFee else k.renterFee)
    (if k.renter = a then r else k.renter)
    (feeTokens (if k.renter = a then k.renterFee else k.renteeFee) + owedRest w n) hf
    (by split <;> omega) (by split <;> omega) (by split <;> omega) hdam
    (by split <;> assumption)
  obtain ⟨w2, r2, f2, l2, t2, x2⟩ := ret w1 (if k.renter = a then k.renterFee else k.renteeFee)
    (if k.renter = a then r else k.renter) (owedRest w n) f1 l1 hrest
    (by split <;> omega) hdam
    (by intro m hm; apply x1; revert hm; split <;> intro hm <;> [exact hn1 m hm; exact hn2 m hm])
  obtain ⟨d2, hd2⟩ := x2 n (x1 n ⟨d, hd⟩)
  unfold revoke penalty
  simp only [hk, hr, getOr, require, hpart, r1, r2, hfl, hd2, bind, Except.bind, pure,
    Except.pure, if_true, if_pos hcan]
  exact ⟨_, rfl⟩

/-- Revocation with a flexible deposit succeeds if the parties' accounts are alive and the pot holds
an existential deposit on top of what it owes. -/
theorem RInv.revoke_flexible (h : RInv c w) (hb : BalInv c w.bal) {n k r x}
    (hk : w.rent.contracts.get n = some k) (hr : k.rentee = some r)
    (hpart : k.renter = a ∨ r = a) (hcan : k.renter = a → k.renterCanRevoke = true)
    (hfl : flexible (if k.renter = a then k.renterFee else k.renteeFee) = some x)
    (h1 : c.ed ≤ w.bal.freeOf k.renter) (h2 : c.ed ≤ w.bal.freeOf r)
    (hx : owedAll w + c.ed ≤ w.bal.freeOf c.rentPot) :
    ∃ w', revoke c w a n = .ok w' := by
  obtain ⟨d, hd⟩ := h.dep.nft n k hk
  have kw := h.q.con n k hk
  rw [owed_split hk] at hx
  obtain ⟨pr, pe⟩ := h.parties hk
  have pe := pe r hr
  have hf : w.bal.frozen c.rentPot = 0 := hb.pots _ (Or.inr (Or.inl rfl))
  have e1 : renteeTokens k = feeTokens k.renteeFee := by simp [renteeTokens, hr]
  have e2 : renteeNft k = feeNft k.renteeFee := by simp [renteeNft, hr]
  unfold owed at hx
  rw [e1] at hx
  have hn1 : ∀ m, feeNft k.renterFee = some m → ∃ d, w.nfts.get m = some d := by
    intro m hm
    by_cases e : m = n
    · subst e; exact ⟨d, hd⟩
    · obtain ⟨d', h1, _⟩ := (h.dep.ok n k hk).held m (Or.inl ⟨hm, e⟩); exact ⟨d', h1⟩
  have hn2 : ∀ m, feeNft k.renteeFee = some m → ∃ d, w.nfts.get m = some d := by
    intro m hm
    obtain ⟨d', h1, _⟩ := (h.dep.ok n k hk).held m (Or.inr (e2 ▸ hm)); exact ⟨d', h1⟩
  have hfx : feeTokens (if k.renter = a then k.renterFee else k.renteeFee) = x := by
    revert hfl
    generalize (if k.renter = a then k.renterFee else k.renteeFee) = f
    cases f <;> simp [flexible, feeTokens]
  have hnum : feeTokens (if k.renter = a then k.renteeFee else k.renterFee) + x + owedRest w n + c.ed ≤
      w.bal.freeOf c.rentPot := by
    rw [← hfx]
    split <;> omega
  have hdam : c.rentPot ≠ (if k.renter = a then r else k.renter) := by split <;> assumption
  have hda : c.ed ≤ w.bal.freeOf (if k.renter = a then r else k.renter) := by split <;> assumption
  have hpa : c.rentPot ≠ a := by rcases hpart with rfl | rfl <;> assumption
  have haa : c.ed ≤ w.bal.freeOf a := by rcases hpart with rfl | rfl <;> assumption
  have hown : ∀ m, feeNft (if k.renter = a then k.renteeFee else k.renterFee) = some m →
      ∃ d, w.nfts.get m = some d := by split <;> assumption
  obtain ⟨s, hs⟩ : ∃ s, k.start = some s := by
    cases hst : k.start with
    | none => rw [kw.start.1 hst] at hr; simp at hr
    | some s => exact ⟨s, rfl⟩
  have hsn := (kw.started s hs).2
  have hfull := kw.full
  generalize hdg : (if k.renter = a then r else k.renter) = dam at *
  generalize hog : (if k.renter = a then k.renteeFee else k.renterFee) = own at *
  generalize hpg : (if k.renter = a then k.renterFee else k.renteeFee) = price at *
  have hm := Permill.mul_le (Permill.fromPercent (min ((w.now - s) * 100) U32MAX / full k.duration)) x
  generalize hmg : (Permill.fromPercent (min ((w.now - s) * 100) U32MAX / full k.duration)).mul x = y at *
  have step : ∀ (b : Bal) (dst : AccountId) (v o : Balance), b.frozen c.rentPot = 0 →
      v + o + c.ed ≤ b.freeOf c.rentPot → c.rentPot ≠ dst → c.ed ≤ b.freeOf dst →
      (∀ x, c.ed ≤ b.freeOf x ∨ x = c.rentPot → True) →
      ∃ b', b.transfer c.ed c.rentPot dst v .allowDeath = .ok b' ∧ b'.frozen c.rentPot = 0 ∧
        o + c.ed ≤ b'.freeOf c.rentPot ∧
        ∀ z, z ≠ c.rentPot → b.freeOf z ≤ b'.freeOf z := by
    intro b dst v o hf hv hp hd _
    obtain ⟨b', hb', hl⟩ := Bal.transfer_solvent (ed := c.ed) (d := dst) (v := v) (o := o + c.ed)
      hf (by omega) (by omega) (by omega) hp
    refine ⟨b', hb', by rw [Bal.frozen_mono (Bal.transfer_mono hb'), hf], hl, ?_⟩
    intro z hz
    obtain ⟨δ, g, _⟩ := Bal.transfer_out hb' hp
    rw [g z hz]; omega
  obtain ⟨b1, t1, f1, l1, g1⟩ := step w.bal dam (feeTokens own) (x + owedRest w n) hf
    (by omega) hdam hda (fun _ _ => trivial)
  obtain ⟨b2, t2, f2, l2, g2⟩ := step b1 a y (x - y + owedRest w n) f1 (by omega) hpa
    (Nat.le_trans haa (g1 a hpa.symm)) (fun _ _ => trivial)
  obtain ⟨b3, t3, f3, l3, g3⟩ := step b2 dam (x - y) (owedRest w n) f2 (by omega) hdam
    (Nat.le_trans hda (Nat.le_trans (g1 _ hdam.symm) (g2 _ hdam.symm))) (fun _ _ => trivial)
  have r1 : ∃ w1, (returnFee c own dam).ext w = .ok w1 ∧ w1.bal = b1 ∧ w1.now = w.now ∧
      ∃ d, w1.nfts.get n = some d := by
    cases hx : feeNft own with
    | none =>
      refine ⟨w.putBal b1, ?_, rfl, rfl, d, hd⟩
      simp [returnFee, Act.ext, Act.seq, payAct, t1, hx, chownOpt, Act.skip]
    | some m =>
      obtain ⟨d', hd'⟩ := hown m hx
      refine ⟨(w.putBal b1).putNft m { d' with owner := dam }, ?_, rfl, rfl, ?_⟩
      · have : (w.putBal b1).nfts.get m = some d' := hd'
        simp [returnFee, Act.ext, Act.seq, payAct, t1, hx, chownOpt, chownAct, this]
      · simp only [World.putNft, FMap.get_insert]
        split
        · exact ⟨_, rfl⟩
        · exact ⟨d, hd⟩
  obtain ⟨w1, r1, rfl, n1, d1, hd1⟩ := r1
  have r2 : penalty c k w1.now price a dam w1 = .ok ((w1.putBal b2).putBal b3) := by
    have hnow : s ≤ w1.now := by omega
    have t3' : (w1.putBal b2).bal.transfer c.ed c.rentPot dam (x - y) .allowDeath = .ok b3 := t3
    simp only [penalty, hfl, completion, expectSome, hs, n1, if_pos hsn,
      if_pos (show full k.duration ≠ 0 by omega), bind, Except.bind, pure, Except.pure,
      returnFlexible, hmg, Act.ext, Act.seq, payAct, t2, t3']
  have hd1' : ((w1.putBal b2).putBal b3).nfts.get n = some d1 := hd1
  unfold revoke
  simp only [hk, hr, getOr, require, hpart, bind, Except.bind, pure,
    Except.pure, if_true, if_pos hcan, hog, hdg, hpg, r1, r2, hd1']
  exact ⟨_, rfl⟩

/-- the payments of a revocation -/
theorem revoke_out {n} (h : revoke c w a n = .ok w') (hi : RInv c w) :
    ∃ k r, w.rent.contracts.get n = some k ∧ k.rentee = some r ∧
      (k.renter = a ∨ r = a) ∧ (k.renter = a → k.renterCanRevoke = true) ∧
      ∃ dam own price, dam = (if k.renter = a then r else k.renter) ∧
        own = (if k.renter = a then k.renteeFee else k.renterFee) ∧
        price = (if k.renter = a then k.renterFee else k.renteeFee) ∧
      Bal.Out c.ed c.rentPot (feeTokens own + feeTokens price)
        (fun x => gets x dam (feeTokens own) + gets x a (keptPart k w.now price) +
          gets x dam (feeTokens price - keptPart k w.now price)) w.bal w'.bal ∧
      w'.rent.contracts = w.rent.contracts.erase n ∧
      (∀ d, w.nfts.get n = some d → ∃ d', w'.nfts.get n = some d' ∧ d'.st.rented = false ∧
        d'.owner = if feeNft own = some n ∨ feeNft price = some n then dam else d.owner) ∧
      (∀ m, m ≠ n → w'.nfts.get m = if feeNft own = some m ∨ feeNft price = some m then
        (w.nfts.get m).map fun d => { d with owner := dam } else w.nfts.get m) := by
  obtain ⟨k, r, d, b0, b1, b2, hk, hr, hp, hcan, hd, t1, t2, t3, _, rfl⟩ := revoke_ok h
  obtain ⟨pr, pe⟩ := hi.parties hk
  have pe := pe r hr
  have hdam : c.rentPot ≠ (if k.renter = a then r else k.renter) := by split <;> assumption
  have hpa : c.rentPot ≠ a := by rcases hp with rfl | rfl <;> assumption
  refine ⟨k, r, hk, hr, hp, hcan, _, _, _, rfl, rfl, rfl, ?_, rfl, ?_, ?_⟩
  · have := ((Bal.transfer_out t1 hdam).trans (Bal.transfer_out t2 hpa)).trans
      (Bal.transfer_out t3 hdam)
    have hle := keptPart_le k w.now (if k.renter = a then k.renterFee else k.renteeFee)
    rwa [show ∀ p q s : Nat, q ≤ s → p + q + (s - q) = p + s by omega] at this
    exact hle
  · intro d0 hd0
    refine ⟨_, FMap.get_insert_self _ _ _, rfl, ?_⟩
    rw [get_cho, get_cho, hd0] at hd
    clear h t1 t2 t3
    revert hd
    generalize (if k.renter = a then r else k.renter) = dam
    generalize feeNft (if k.renter = a then k.renterFee else k.renteeFee) = u
    generalize feeNft (if k.renter = a then k.renteeFee else k.renterFee) = v
    by_cases e1 : u = some n <;> by_cases e2 : v = some n <;> simp only [e1, e2, if_true, if_false,
      Option.map_some, or_true, true_or, or_self, Option.some.injEq] <;> rintro rfl <;> rfl
  · intro m hm
    simp only [FMap.get_insert, hm, if_false, get_cho]
    clear h t1 t2 t3
    generalize (if k.renter = a then r else k.renter) = dam
    generalize feeNft (if k.renter = a then k.renterFee else k.renteeFee) = u
    generalize feeNft (if k.renter = a then k.renteeFee else k.renterFee) = v
    by_cases e1 : u = some m <;> by_cases e2 : v = some m <;> simp only [e1, e2, if_true, if_false,
      or_true, true_or, or_self]
    cases w.nfts.get m <;> rfl

end RentM
