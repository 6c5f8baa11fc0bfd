import Verif.Props.RoundSpec
import Verif.Props.Auction
import Verif.Props.Rent
import Mathlib.Tactic.Ring
import Mathlib.Tactic.Linarith
/-
C142: percentages are exact to half a unit, and a higher price never gives anybody less.
-/
open Spec

variable {c : Cfg} {w w' : World} {a : AccountId} {n : NFTId}

namespace Round

theorem frac (m p x : Nat) (hm : 0 < m) :
    2 * (fracMul m p x * m) ≤ 2 * (p * x) + m ∧ 2 * (p * x) ≤ 2 * (fracMul m p x * m) + m := by
  unfold fracMul
  have e : p * x = x / m * p * m + x % m * p := by
    conv_lhs => rw [← Nat.div_add_mod x m]
    ring
  have e2 := Nat.div_add_mod (x % m * p) m
  have hlt := Nat.mod_lt (x % m * p) hm
  rw [e]
  generalize x % m * p = y at *
  generalize hq : x / m * p = q at *
  generalize y / m = d at *
  generalize y % m = r at *
  have : (q + d + (if r > m / 2 then 1 else 0)) * m = q * m + m * d + (if r > m / 2 then m else 0) := by
    split <;> ring
  rw [this]
  split <;> omega

theorem part (p : Permill) (x : Nat) : PartOf (p.mul x) p.parts x := frac 1000000 p.parts x (by omega)

/-- the nearest integer to `N / m` -/
def rnd (m N : Nat) : Nat := N / m + if N % m > m / 2 then 1 else 0

theorem frac_eq (m p x : Nat) (hm : 0 < m) : fracMul m p x = rnd m (p * x) := by
  unfold fracMul rnd
  have e : p * x = x % m * p + m * (x / m * p) := by
    conv_lhs => rw [← Nat.div_add_mod x m]
    ring
  rw [e, Nat.add_mul_div_left _ _ hm, Nat.add_mul_mod_self_left]
  omega

theorem rnd_mono {m N M : Nat} (hm : 0 < m) (h : N ≤ M) : rnd m N ≤ rnd m M := by
  unfold rnd
  have h1 : N / m ≤ M / m := Nat.div_le_div_right h
  rcases Nat.eq_or_lt_of_le h1 with e | l
  · have a1 := Nat.div_add_mod N m
    have a2 := Nat.div_add_mod M m
    rw [e] at a1 ⊢
    generalize m * (M / m) = z at *
    have : N % m ≤ M % m := by omega
    split <;> split <;> omega
  · split <;> split <;> omega

theorem rnd_add {m : Nat} (hm : 0 < m) (N k : Nat) : rnd m (N + m * k) = rnd m N + k := by
  unfold rnd
  rw [Nat.add_mul_div_left _ _ hm, Nat.add_mul_mod_self_left]
  omega

/-- a part of more is at least as much, and grows by at most as much -/
theorem mono (p : Permill) {x y : Nat} (h : x ≤ y) : p.mul x ≤ p.mul y ∧ x - p.mul x ≤ y - p.mul y := by
  have hx := p.mul_le x
  have hy := p.mul_le y
  unfold Permill.mul at *
  rw [frac_eq _ _ _ (by omega), frac_eq _ _ _ (by omega)] at *
  refine ⟨rnd_mono (by omega) (Nat.mul_le_mul_left _ h), ?_⟩
  obtain ⟨k, rfl⟩ := Nat.exists_eq_add_of_le h
  have : rnd 1000000 (p.parts * (x + k)) ≤ rnd 1000000 (p.parts * x + 1000000 * k) :=
    rnd_mono (by omega) (by rw [Nat.mul_add]; have := Nat.mul_le_mul_right k p.le; omega)
  rw [rnd_add (by omega)] at this
  omega

theorem left {v m r rest : Nat} {p q : Permill} (h1 : PartOf m p.parts v) (h2 : PartOf r q.parts (v - m))
    (h : m + r + rest = v) : LeftOf rest v p.parts q.parts := by
  obtain ⟨P, hP⟩ := p
  obtain ⟨Q, hQ⟩ := q
  simp only [PartOf, LeftOf] at *
  have hv : v = m + (r + rest) := by omega
  have hy : v - m = r + rest := by omega
  rw [hy] at h2
  obtain ⟨P', hP'⟩ : ∃ P', P + P' = 1000000 := ⟨1000000 - P, by omega⟩
  obtain ⟨Q', hQ'⟩ : ∃ Q', Q + Q' = 1000000 := ⟨1000000 - Q, by omega⟩
  rw [show 1000000 - P = P' by omega, show 1000000 - Q = Q' by omega]
  have eP : P * v + P' * v = 1000000 * v := by rw [← Nat.add_mul, hP']
  have eQ : Q * (r + rest) + Q' * (r + rest) = 1000000 * (r + rest) := by rw [← Nat.add_mul, hQ']
  have a1 : 2 * (1000000 * (r + rest)) ≤ 2 * (P' * v) + 1000000 := by omega
  have a2 : 2 * (P' * v) ≤ 2 * (1000000 * (r + rest)) + 1000000 := by omega
  have b1 : 2 * (1000000 * rest) ≤ 2 * (Q' * (r + rest)) + 1000000 := by omega
  have b2 : 2 * (Q' * (r + rest)) ≤ 2 * (1000000 * rest) + 1000000 := by omega
  have c1 := Nat.mul_le_mul_left Q' a1
  have c2 := Nat.mul_le_mul_left Q' a2
  have hQ1 : Q' ≤ 1000000 := by omega
  constructor
  · have : v * P' * Q' = Q' * (P' * v) := by ring
    rw [this]
    have e1 : Q' * (2 * (1000000 * (r + rest))) = 2000000 * (Q' * (r + rest)) := by ring
    have e2 : Q' * (2 * (P' * v) + 1000000) = 2 * (Q' * (P' * v)) + 1000000 * Q' := by ring
    rw [e1, e2] at c1
    omega
  · have : v * P' * Q' = Q' * (P' * v) := by ring
    rw [this]
    have e1 : Q' * (2 * (1000000 * (r + rest)) + 1000000) = 2000000 * (Q' * (r + rest)) + 1000000 * Q' := by ring
    have e2 : Q' * (2 * (P' * v)) = 2 * (Q' * (P' * v)) := by ring
    rw [e1, e2] at c2
    omega

theorem commission {v : Balance} {f : Option CompoundFee} : CommissionOn v (Spec.commission v f) f := by
  rcases f with _ | (x | p)
  · rfl
  · rfl
  · exact part p v

theorem more {v v' : Balance} {f : Option CompoundFee} {d d' : NFTData} {m r rest m' r' rest' : Balance}
    (h : Shares v f d m r rest) (h' : Shares v' f d' m' r' rest') (hd : d.royalty = d'.royalty) (hv : v ≤ v') :
    m ≤ m' ∧ r ≤ r' ∧ rest ≤ rest' := by
  obtain ⟨h1, h2, h3⟩ := h
  obtain ⟨h1', h2', h3'⟩ := h'
  have hm : m ≤ m' ∧ v - m ≤ v' - m' := by
    rcases f with _ | (x | p)
    · simp only [Spec.commission] at h1 h1'; omega
    · simp only [Spec.commission] at h1 h1'; omega
    · simp only [Spec.commission] at h1 h1'
      subst h1 h1'
      exact mono p hv
  have hr := mono d.royalty hm.2
  rw [← hd] at h2'
  subst h2 h2'
  omega

end Round

/-- **C142, purchases**: when buyer, seller, creator of the NFT and owner of the marketplace are four accounts, the buyer
pays the price, the owner of the marketplace gains the commission (a percentage is exact to half a unit), the creator
gains the royalty on the rest (exact to half a unit), the seller gains what is left; with a percentage as commission this
is exact to one unit. -/
theorem C142_buy {p : Balance} {d : NFTData} {s : Sale} {k : Mkt}
    (h : dispatch c (.mkt (.buy n p)) (.signed a) w = .ok w') (hd : w.nfts.get n = some d)
    (hs : w.mkt.sales.get n = some s) (hk : w.mkt.mkts.get s.mkt = some k)
    (hn : [a, s.seller, d.creator, k.owner].Nodup) :
    ∃ m r rest, w'.bal.freeOf a + p = w.bal.freeOf a ∧ Gains w w' k.owner m ∧ Gains w w' d.creator r ∧
      Gains w w' s.seller rest ∧ m + r + rest = p ∧ CommissionOn p m s.commission ∧
      PartOf r d.royalty.parts (p - m) ∧
      ∀ q, s.commission = some (.percentage q) → LeftOf rest p q.parts d.royalty.parts := by
  obtain ⟨d', s', k', m, r, rest, hd', hs', hk', _, _, rfl, rfl, ht, hg, _⟩ := C15 h
  rw [hd] at hd'; rw [hs] at hs'
  simp only [Option.some.injEq] at hd' hs'
  subst hd' hs'
  rw [hk] at hk'
  simp only [Option.some.injEq] at hk'
  subst hk'
  simp only [List.nodup_cons, List.mem_cons, List.not_mem_nil, or_false, not_or, List.nodup_nil, and_true, not_false_eq_true] at hn
  obtain ⟨⟨n1, n2, n3⟩, ⟨n4, n5⟩, n6⟩ := hn
  have ga := hg a
  have gk := hg k.owner
  have gc := hg d.creator
  have gs := hg s.seller
  simp only [Spec.gets, n1, n2, n3, n4, n5, n6, Ne.symm n1, Ne.symm n2, Ne.symm n3, Ne.symm n4, Ne.symm n5, Ne.symm n6, if_true,
    if_false, Nat.add_zero, Nat.zero_add] at ga gk gc gs
  refine ⟨_, _, rest, ga, gk, gc, gs, ht, Round.commission, Round.part .., ?_⟩
  intro q hq
  refine Round.left ?_ (Round.part ..) ht
  rw [hq]
  exact Round.part q p

/-- The gains of a purchase are determined by the price, the commission and the royalty, and none of them is less at a
higher price: two purchases, at whatever time and in whatever state, with the same commission and the same royalty. -/
theorem C142_buy_more {w₁ w₁' w₂ w₂' : World} {a₁ a₂ : AccountId} {n₁ n₂ : NFTId} {p₁ p₂ : Balance} {d₁ d₂ : NFTData}
    {s₁ s₂ : Sale} {k₁ k₂ : Mkt}
    (h₁ : dispatch c (.mkt (.buy n₁ p₁)) (.signed a₁) w₁ = .ok w₁') (hd₁ : w₁.nfts.get n₁ = some d₁)
    (hs₁ : w₁.mkt.sales.get n₁ = some s₁) (hk₁ : w₁.mkt.mkts.get s₁.mkt = some k₁)
    (hn₁ : [a₁, s₁.seller, d₁.creator, k₁.owner].Nodup)
    (h₂ : dispatch c (.mkt (.buy n₂ p₂)) (.signed a₂) w₂ = .ok w₂') (hd₂ : w₂.nfts.get n₂ = some d₂)
    (hs₂ : w₂.mkt.sales.get n₂ = some s₂) (hk₂ : w₂.mkt.mkts.get s₂.mkt = some k₂)
    (hn₂ : [a₂, s₂.seller, d₂.creator, k₂.owner].Nodup)
    (hr : d₁.royalty = d₂.royalty) (hf : s₁.commission = s₂.commission) (hp : p₁ ≤ p₂)
    {m₁ r₁ t₁ m₂ r₂ t₂ : Balance}
    (gm₁ : Gains w₁ w₁' k₁.owner m₁) (gr₁ : Gains w₁ w₁' d₁.creator r₁) (gt₁ : Gains w₁ w₁' s₁.seller t₁)
    (gm₂ : Gains w₂ w₂' k₂.owner m₂) (gr₂ : Gains w₂ w₂' d₂.creator r₂) (gt₂ : Gains w₂ w₂' s₂.seller t₂) :
    m₁ ≤ m₂ ∧ r₁ ≤ r₂ ∧ t₁ ≤ t₂ := by
  have one : ∀ {w w' : World} {a : AccountId} {n : NFTId} {p : Balance} {d : NFTData} {s : Sale} {k : Mkt},
      dispatch c (.mkt (.buy n p)) (.signed a) w = .ok w' → w.nfts.get n = some d → w.mkt.sales.get n = some s →
      w.mkt.mkts.get s.mkt = some k → [a, s.seller, d.creator, k.owner].Nodup →
      ∀ {m r t}, Gains w w' k.owner m → Gains w w' d.creator r → Gains w w' s.seller t →
      Shares p s.commission d m r t := by
    intro w w' a n p d s k h hd hs hk hn m r t gm gr gt
    obtain ⟨d', s', k', m', r', rest, hd', hs', hk', _, _, rfl, rfl, ht, hg, _⟩ := C15 h
    rw [hd] at hd'; rw [hs] at hs'
    simp only [Option.some.injEq] at hd' hs'
    subst hd' hs'
    rw [hk] at hk'
    simp only [Option.some.injEq] at hk'
    subst hk'
    simp only [List.nodup_cons, List.mem_cons, List.not_mem_nil, or_false, not_or, List.nodup_nil, and_true,
      not_false_eq_true] at hn
    obtain ⟨⟨n1, n2, n3⟩, ⟨n4, n5⟩, n6⟩ := hn
    have gk := hg k.owner
    have gc := hg d.creator
    have gs := hg s.seller
    simp only [Spec.gets, n1, n2, n3, n4, n5, n6, Ne.symm n1, Ne.symm n2, Ne.symm n3, Ne.symm n4, Ne.symm n5, Ne.symm n6,
      if_true, if_false, Nat.add_zero, Nat.zero_add] at gk gc gs
    simp only [Gains] at gm gr gt
    obtain rfl : m = Spec.commission p s.commission := by omega
    obtain rfl : r = d.royalty.mul (p - Spec.commission p s.commission) := by omega
    obtain rfl : t = rest := by omega
    exact ⟨rfl, rfl, ht⟩
  have e₁ := one h₁ hd₁ hs₁ hk₁ hn₁ gm₁ gr₁ gt₁
  have e₂ := one h₂ hd₂ hs₂ hk₂ hn₂ gm₂ gr₂ gt₂
  rw [← hf] at e₂
  exact Round.more e₁ e₂ hr hp

/-- **C142, auctions**: the same for an auction that is ended by its creator and for one bought at once: the price is the
highest bid or the price named. -/
theorem C142_auction (hc : c.Ok) (hr : Reach c w) {x : Auction} {d : NFTData} {k : Mkt} {call : AucM.Call} {v : Balance}
    (h : dispatch c (.auc call) (.signed a) w = .ok w') (hd : w.nfts.get n = some d)
    (hx : w.auc.auctions.get n = some x) (hk : w.mkt.mkts.get x.mkt = some k)
    (hcall : call = .buyItNow n v ∨ call = .end_ n ∧ x.bids.getLast?.map (·.2) = some v)
    (hn : [a, c.aucPot, x.creator, d.creator, k.owner].Nodup ∨
      call = .end_ n ∧ [c.aucPot, x.creator, d.creator, k.owner].Nodup) :
    ∃ f m r rest, w.auc.comm.get n = some f ∧ Gains w w' k.owner m ∧ Gains w w' d.creator r ∧ Gains w w' x.creator rest ∧
      m + r + rest = v ∧ CommissionOn v m f ∧ PartOf r d.royalty.parts (v - m) ∧
      ∀ q, f = some (.percentage q) → LeftOf rest v q.parts d.royalty.parts := by
  have key : ∀ src, [src, x.creator, d.creator, k.owner].Nodup → Spec.Sold c w w' n x d src v →
      ∃ f m r rest, w.auc.comm.get n = some f ∧ Gains w w' k.owner m ∧ Gains w w' d.creator r ∧ Gains w w' x.creator rest ∧
      m + r + rest = v ∧ CommissionOn v m f ∧ PartOf r d.royalty.parts (v - m) ∧
      ∀ q, f = some (.percentage q) → LeftOf rest v q.parts d.royalty.parts := by
    intro src hn ⟨k', f, m, r, rest, _, hk', hf, ⟨hm, hrr, ht⟩, hg, _⟩
    rw [hk] at hk'
    simp only [Option.some.injEq] at hk'
    subst hk'
    simp only [List.nodup_cons, List.mem_cons, List.not_mem_nil, or_false, not_or, List.nodup_nil, and_true,
      not_false_eq_true] at hn
    obtain ⟨⟨n1, n2, n3⟩, ⟨n4, n5⟩, n6⟩ := hn
    have gk := hg k.owner (Ne.symm n3)
    have gc := hg d.creator (Ne.symm n2)
    have gs := hg x.creator (Ne.symm n1)
    simp only [Spec.gets, n4, n5, n6, Ne.symm n4, Ne.symm n5, Ne.symm n6,
      if_true, if_false, Nat.add_zero, Nat.zero_add] at gk gc gs
    subst hm hrr
    refine ⟨f, _, _, rest, hf, gk, gc, gs, ht, Round.commission, Round.part .., ?_⟩
    intro q hq
    refine Round.left ?_ (Round.part ..) ht
    rw [hq]
    exact Round.part q v
  rcases hcall with rfl | ⟨rfl, hv⟩
  · obtain ⟨d', x', hd', hx', _, hsold, _⟩ := C21_buy hc hr h
    rw [hd] at hd'; rw [hx] at hx'
    simp only [Option.some.injEq] at hd' hx'
    subst hd' hx'
    rcases hn with hn | ⟨hn, _⟩
    · exact key a (hn.sublist (by simp)) hsold
    · simp at hn
  · obtain ⟨d', x', top, hd', hx', htop, hsold, _⟩ := C21_end hc hr h
    rw [hd] at hd'; rw [hx] at hx'
    simp only [Option.some.injEq] at hd' hx'
    subst hd' hx'
    rw [htop] at hv
    simp only [Option.map_some, Option.some.injEq] at hv
    subst hv
    refine key c.aucPot ?_ hsold
    rcases hn with hn | ⟨_, hn⟩
    · exact (List.nodup_cons.1 hn).2
    · exact hn

/-- of a flexible deposit `v` the revoker keeps the part of the duration that is over, rounded down
to whole percents, to half a unit; so never more than half a unit above the exact part, and at most a hundredth of the
deposit and half a unit below. -/
theorem Round.kept {k : Contract} {s total : Block} {v : Balance} (hs : k.start = some s)
    (ht : total = match k.duration with | .fixed d => d | .sub u => u.maxDur) (h0 : 0 < total) (hle : w.now - s ≤ total)
    (hbig : (w.now - s) * 100 < 2 ^ 32) :
    2 * (Spec.kept k w.now (.flexible v) * total) ≤ 2 * (v * (w.now - s)) + total ∧
    200 * (v * (w.now - s)) ≤ 200 * (Spec.kept k w.now (.flexible v) * total) + 2 * (v * total) + 100 * total := by
  have e : Spec.kept k w.now (.flexible v) =
      (Permill.fromPercent (min ((w.now - s) * 100) (2 ^ 32 - 1) / total)).mul v := by
    simp only [Spec.kept, hs, Option.getD_some, ht]
    rfl
  rw [e, Nat.min_eq_left (by omega)]
  have hq := Nat.div_add_mod ((w.now - s) * 100) total
  have hm := Nat.mod_lt ((w.now - s) * 100) h0
  generalize w.now - s = t at *
  generalize t * 100 / total = q at *
  generalize t * 100 % total = z at *
  have hq100 : q ≤ 100 := by
    by_contra hc
    have : total * 101 ≤ total * q := Nat.mul_le_mul_left _ (by omega)
    omega
  have hp := Round.part (Permill.fromPercent q) v
  have hparts : (Permill.fromPercent q).parts = q * 10000 := by simp [Permill.fromPercent, Nat.min_eq_left hq100]
  simp only [PartOf, hparts] at hp
  generalize (Permill.fromPercent q).mul v = y at *
  obtain ⟨p1, p2⟩ := hp
  -- `200 y` is `2 q v`, to 100
  have r1 : 200 * y ≤ 2 * (q * v) + 100 := by
    have : q * 10000 * v = 10000 * (q * v) := by ring
    rw [this] at p1; omega
  have r2 : 2 * (q * v) ≤ 200 * y + 100 := by
    have : q * 10000 * v = 10000 * (q * v) := by ring
    rw [this] at p2; omega
  have m1 := Nat.mul_le_mul_right total r1
  have m2 := Nat.mul_le_mul_right total r2
  have e1 : v * (t * 100) = v * (total * q) + v * z := by rw [← Nat.mul_add, hq]
  have e2 : (2 * (q * v) + 100) * total = 2 * (v * (total * q)) + 100 * total := by ring
  have e3 : 2 * (q * v) * total = 2 * (v * (total * q)) := by ring
  have e4 : (200 * y + 100) * total = 200 * (y * total) + 100 * total := by ring
  have e5 : 200 * y * total = 200 * (y * total) := by ring
  have e6 : v * (t * 100) = 100 * (v * t) := by ring
  have e7 : v * z ≤ v * total := Nat.mul_le_mul_left _ (by omega)
  rw [e5, e2] at m1
  rw [e3, e4] at m2
  constructor <;> omega

/-- **C142, revoked rentals**: whoever breaks off a rental after a flexible deposit of `v` gains the part of it that
corresponds to the part of the duration that is over, rounded down to whole percents, to half a unit: so never more than
half a unit above the exact part, and at most a hundredth of the deposit and half a unit below. -/
theorem C142_revoke (hc : c.Ok) (hr : Reach c w) {k : Contract} {r : AccountId} {s total : Block} {v : Balance}
    (h : dispatch c (.rent (.revoke n)) (.signed a) w = .ok w') (hk : w.rent.contracts.get n = some k)
    (hrt : k.rentee = some r) (hs : k.start = some s)
    (ht : total = match k.duration with | .fixed d => d | .sub u => u.maxDur) (h0 : 0 < total) (hle : w.now - s ≤ total)
    (hbig : (w.now - s) * 100 < 2 ^ 32) (hne : k.renter ≠ r) (hpot : a ≠ c.rentPot)
    (hv : a = k.renter ∧ k.renterFee = .flexible v ∨ a = r ∧ k.renteeFee = .flexible v) :
    ∃ g, Gains w w' a g ∧ 2 * (g * total) ≤ 2 * (v * (w.now - s)) + total ∧
      200 * (v * (w.now - s)) ≤ 200 * (g * total) + 2 * (v * total) + 100 * total := by
  obtain ⟨k', r', other, mine, theirs, hk', hr', hsd, ⟨_, hg, _⟩, _⟩ := C32 hc hr h
  rw [hk] at hk'
  simp only [Option.some.injEq] at hk'
  subst hk'
  rw [hrt] at hr'
  simp only [Option.some.injEq] at hr'
  subst hr'
  have hb := Round.kept (v := v) hs ht h0 hle hbig
  have hga := hg a hpot
  have : a ≠ other ∧ mine = .flexible v := by
    rcases hsd with ⟨e, _, rfl, rfl, _⟩ | ⟨e, e', rfl, rfl, _⟩
    · rcases hv with ⟨_, hv⟩ | ⟨e2, _⟩
      · exact ⟨e ▸ hne, hv⟩
      · exact absurd (e.symm.trans e2) hne
    · rcases hv with ⟨e2, _⟩ | ⟨_, hv⟩
      · exact absurd e2 e'
      · exact ⟨e', hv⟩
  obtain ⟨ho, rfl⟩ := this
  simp only [Spec.gets, ho, if_true, if_false, Nat.zero_add] at hga
  exact ⟨_, hga, hb⟩

/- concrete cases -/

/-- account 1's NFT with a royalty, sold by account 2 on a marketplace of account 3 that takes 33.3333 % -/
abbrev resale : List Op :=
  [Demo.by_ 1 (.nft (.createNft [1] ⟨123456, by omega⟩ none false)), Demo.by_ 1 (.nft (.transferNft 0 2)),
   Demo.by_ 3 (.mkt (.create .pub)),
   Demo.by_ 3 (.mkt (.setConfig 0 (.set (.percentage ⟨333333, by omega⟩)) .noop .noop .noop .noop))]

-- for 1001: 333.666 become 334, 123456 millionths of 667 are 82.345 and become 82
example : let w := Demo.at_ (resale ++ [Demo.by_ 2 (.mkt (.list 0 0 1001))])
    let w' := step Demo.cfg w (Demo.by_ 4 (.mkt (.buy 0 1001)))
    w'.bal.freeOf 3 = w.bal.freeOf 3 + 334 ∧ w'.bal.freeOf 1 = w.bal.freeOf 1 + 82 ∧
    w'.bal.freeOf 2 = w.bal.freeOf 2 + 585 := by decide +kernel

example := C142_buy (c := Demo.cfg) (w := Demo.at_ (resale ++ [Demo.by_ 2 (.mkt (.list 0 0 1001))])) (a := 4) (n := 0)
  (p := 1001) rfl rfl rfl rfl (by decide +kernel)

example := C142_buy_more (c := Demo.cfg) (w₁ := Demo.at_ (resale ++ [Demo.by_ 2 (.mkt (.list 0 0 1001))]))
  (w₂ := Demo.at_ (resale ++ [Demo.by_ 2 (.mkt (.list 0 0 1002))])) (a₁ := 4) (a₂ := 5) (n₁ := 0) (n₂ := 0)
  (p₁ := 1001) (p₂ := 1002) rfl rfl rfl rfl (by decide +kernel) rfl rfl rfl rfl (by decide +kernel) rfl rfl (by decide)
  (m₁ := 334) (r₁ := 82) (t₁ := 585) (m₂ := 334) (r₂ := 82) (t₂ := 586)
  (by unfold Gains; decide +kernel) (by unfold Gains; decide +kernel) (by unfold Gains; decide +kernel)
  (by unfold Gains; decide +kernel) (by unfold Gains; decide +kernel) (by unfold Gains; decide +kernel)

example := C142_auction Demo.cfg_ok (n := 0) (a := 6) (call := .buyItNow 0 5001) (v := 5001)
  (Demo.reach (resale ++ [Demo.by_ 2 (.auc (.create 0 0 0 10 100 (some 5001)))]) (by decide)) rfl rfl rfl rfl (.inl rfl)
  (.inl (by decide +kernel))

/-- a rental for 10 blocks with flexible deposits of 777; after 3 blocks -/
abbrev third : List Op :=
  [.mint 102 50, Demo.mint1, Demo.by_ 1 (.rent (.create 0 (.fixed 10) (.auto none) true (.tokens 100)
    (.flexible 777) (.flexible 777))), Demo.by_ 2 (.rent (.rent 0 0))] ++ Demo.ticks 3

-- 30 percent of 777 are 233.1
example : (step Demo.cfg (Demo.at_ third) (Demo.by_ 2 (.rent (.revoke 0)))).bal.freeOf 2 =
    (Demo.at_ third).bal.freeOf 2 + 233 := by decide +kernel

set_option maxRecDepth 10000 in
example := C142_revoke Demo.cfg_ok (Demo.reach third (by decide)) (n := 0) (a := 2) (r := 2) (s := 0) (total := 10) (v := 777)
  rfl rfl rfl rfl rfl (by decide) (by decide) (by decide) (by decide) (by decide) (.inr ⟨rfl, rfl⟩)
