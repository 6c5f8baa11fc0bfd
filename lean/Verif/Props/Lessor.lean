import Verif.Props.Cold
/-
Property C164: whoever has an NFT up for rent and goes away keeps it, and gets the rent when somebody takes it.
-/
variable {c : Cfg} {w w' : World} {y : AccountId} {n : NFTId}
set_option maxRecDepth 10000

/- Specification -/
namespace Spec

/-- a duration, whether or not its terms are still to be accepted -/
def length : Duration → Duration
  | .sub s => .sub { s with newTerms := false }
  | d => d

/-- `y` has NFT `n` up for rent or rented out on the terms of `k`, to `r` if to anybody, and is still its owner -/
structure ToLet (w : World) (y : AccountId) (n : NFTId) (k : Contract) (r : Option AccountId) : Prop where
  contract : ∃ k', w.rent.contracts.get n = some k' ∧ k'.renter = y ∧ k'.rentee = r ∧ length k'.duration = length k.duration ∧
    k'.acceptance = k.acceptance ∧ k'.renterCanRevoke = k.renterCanRevoke ∧ k'.rentFee = k.rentFee ∧
    k'.renterFee = k.renterFee ∧ k'.renteeFee = k.renteeFee ∧ k'.creation = k.creation
  nft : ∃ d, w.nfts.get n = some d ∧ d.owner = y

end Spec

namespace Lessor

/-- the NFT stays with its owner -/
theorem owner (hc : c.Ok) (hr : Reach c w) (hp : ¬ c.pot y) (h : Spec.NoTenant w y) (o : Op) (ho : o.Ok c) (ha : Spec.Absent y o)
    {k : Contract} (hk : w.rent.contracts.get n = some k) {d : NFTData} (hd : w.nfts.get n = some d) (hy : d.owner = y) :
    ∃ d', (step c w o).nfts.get n = some d' ∧ d'.owner = y := by
  have g := ((hr.inv hc).good n).nft d hd
  have hren : d.st.rented = true := g.rented.2 (by show w.rent.contracts.get n ≠ none; rw [hk]; simp)
  have hlis : d.st.listed = false := by
    cases e : d.st.listed with
    | false => rfl
    | true => rw [(g.exL e).1] at hren; cases hren
  have k1 := g.listed.not.1 (by simp [hlis])
  have k3 := g.trans.not.1 (by simp [(g.exR hren).1])
  simp only [not_or, not_not] at k1 k3
  obtain ⟨k1, k2⟩ := k1
  change w.mkt.sales.get n = none at k1
  change w.auc.auctions.get n = none at k2
  change w.tr.trans.get n = none at k3
  subst hy
  cases hd' : (step c w o).nfts.get n with
  | none => exact absurd (C04 hc hr o ho hd hd').1 (ha.1 _)
  | some d' =>
    refine ⟨d', rfl, ?_⟩
    by_contra hne
    cases C03 hc hr o ho hd hd' hne with
    | transfer e => exact ha.1 _ e
    | sale e _ _ => rw [k1] at e; cases e
    | auction e _ _ _ => rw [k2] at e; cases e
    | buyItNow e _ _ _ => rw [k2] at e; cases e
    | transmission e _ _ => rw [k3] at e; cases e
    | deposit _ _ e => exact ha.1 _ e
    | rents _ _ e =>
      rcases e with e | ⟨_, e⟩
      · exact ha.1 _ e
      · exact h.offers _ e
    | returned e _ _ _ => exact hp (by rw [e]; simp [Cfg.pot])
    | @revoked m k r h1 h2 h3 h4 _ h6 =>
      by_cases e : m = n
      · rcases h6 with ⟨h6, _⟩ | ⟨_, h6⟩
        · exact ha.1 _ (by rw [h4 e]; exact h6)
        · exact hne (by rw [h6, h4 e])
      · exact hp (by rw [h3 e]; simp [Cfg.pot])

/-- when the contract is over the NFT is in no use -/
theorem back (hc : c.Ok) (hr : Reach c w) (o : Op) (ho : o.Ok c) {d : NFTData} (ha : Spec.Absent d.owner o)
    {k : Contract} (hk : w.rent.contracts.get n = some k) (hd : w.nfts.get n = some d)
    (hd' : ∃ d', (step c w o).nfts.get n = some d' ∧ d'.owner = d.owner) (hn : (step c w o).rent.contracts.get n = none) :
    Spec.Keeps (step c w o) d.owner n := by
  have g := ((hr.inv hc).good n).nft d hd
  have hren : d.st.rented = true := g.rented.2 (by show w.rent.contracts.get n ≠ none; rw [hk]; simp)
  have hlis : d.st.listed = false := by
    cases e : d.st.listed with
    | false => rfl
    | true => rw [(g.exL e).1] at hren; cases hren
  have k1 := g.listed.not.1 (by simp [hlis])
  have k3 := g.trans.not.1 (by simp [(g.exR hren).1])
  have k4 := g.deleg.not.1 (by simp [(g.exR hren).2.1])
  simp only [not_or, not_not] at k1 k3 k4
  obtain ⟨k1, k2⟩ := k1
  change w.mkt.sales.get n = none at k1
  change w.auc.auctions.get n = none at k2
  change w.tr.trans.get n = none at k3
  change w.nft.deleg.get n = none at k4
  refine ⟨hd', ?_, ?_, hn, ?_, ?_⟩
  · have := step_sale w o ho n
    generalize hv : (step c w o).mkt.sales.get n = v at this
    cases this with
    | same => exact k1
    | list hx e =>
      rw [hd] at hx; cases hx
      subst e
      exact absurd rfl (ha.1 _)
    | unlist => rfl
    | buy => rfl
  · by_contra e
    obtain ⟨d', hd', _, _, _, _, _, e, _⟩ := Life.new_auc o ho k2 e
    rw [hd] at hd'; cases hd'
    exact ha.1 _ e
  · by_contra e
    obtain ⟨d', hd', _, _, _, e, _⟩ := Life.new_tr hc hr o ho k3 e
    rw [hd] at hd'; cases hd'
    exact ha.1 _ e
  · rcases Life.step_deleg (n := n) hc hr o ho with e | ⟨_, d', e, hd', _⟩
    · rw [e]; exact k4
    · rw [hd] at hd'; cases hd'
      exact absurd e (ha.1 _)

/-- one step: the contract stays with whom it is, is taken and paid for, or ends -/
theorem step_let (hc : c.Ok) (hr : Reach c w) (hp : ¬ c.pot y) (h : Spec.NoTenant w y) (o : Op) (ho : o.Ok c)
    (ha : Spec.Absent y o) {k : Contract} {r : Option AccountId} (hs : Spec.ToLet w y n k r) :
    Spec.ToLet (step c w o) y n k r ∨ Spec.Keeps (step c w o) y n ∨
    r = none ∧ ∃ a, a ≠ y ∧ Spec.ToLet (step c w o) y n k (some a) ∧
      ∀ v, k.rentFee = .tokens v → w.bal.freeOf y + v ≤ (step c w o).bal.freeOf y := by
  obtain ⟨⟨k0, hk, e1, e2, e3, e4, e5, e6, e7, e8, e9⟩, d, hd, hy⟩ := hs
  have hown := owner hc hr hp h o ho ha hk hd hy
  have hten := Cold.tenant hc hr o ho ha h
  have gone : (step c w o).rent.contracts.get n = none → Spec.Keeps (step c w o) y n := by
    intro hn; subst hy; exact back hc hr o ho ha hk hd hown hn
  have hst := fun {k'} {a} => C33_start (k' := k') (r := a) hc hr o ho hk
  have ht := step_rent_turn hc hr o ho hk
  generalize step c w o = w1 at *
  cases ht with
  | stay h1 => exact Or.inl ⟨⟨k0, h1, e1, e2, e3, e4, e5, e6, e7, e8, e9⟩, hown⟩
  | cancel => exact absurd (by rw [e1]) (ha.1 _)
  | revoke _ _ h1 => exact Or.inr (Or.inl (gone h1))
  | @start a r' x _ h1 h2 h3 h4 =>
    right; right
    have hne : r' ≠ y := fun e => hten.rents n _ h4 (by rw [e])
    refine ⟨by rw [← e2, h1], r', hne, ⟨⟨_, h4, e1, rfl, e3, e4, e5, e6, e7, e8, e9⟩, hown⟩, fun v hv => ?_⟩
    obtain ⟨_, _, hb, _⟩ := hst h1 h4 rfl
    have hb := hb y
    rw [e6, hv] at hb
    simp only [RentM.rentTokens, Spec.gets, if_neg (Ne.symm hne), if_pos e1.symm] at hb
    omega
  | change => exact absurd (by rw [e1]) (ha.1 _)
  | @accept r' s fee md _ h1 h2 h3 h4 h5 h6 =>
    exact Or.inl ⟨⟨_, h6, e1, e2, by rw [← e3, h2]; rfl, e4, e5, e6, e7, e8, e9⟩, hown⟩
  | over _ _ _ h1 => exact Or.inr (Or.inl (gone h1))

/-- a contract that has been taken stays with who took it until it ends -/
theorem taken (hc : c.Ok) (hr : Reach c w) (hp : ¬ c.pot y) (h : Spec.NoTenant w y) (l : List Op) (hl : ∀ o ∈ l, o.Ok c)
    (ha : ∀ o ∈ l, Spec.Absent y o) {k : Contract} {a : AccountId} (hs : Spec.ToLet w y n k (some a)) :
    Spec.ToLet (run c w l) y n k (some a) ∨ Spec.Keeps (run c w l) y n := by
  induction l generalizing w with
  | nil => exact Or.inl hs
  | cons o l ih =>
    have ho := hl o (List.mem_cons_self ..)
    have ho' := ha o (List.mem_cons_self ..)
    have hl' := fun o h => hl o (List.mem_cons_of_mem _ h)
    have ha' := fun o h => ha o (List.mem_cons_of_mem _ h)
    have ht := Cold.tenant hc hr o ho ho' h
    rcases step_let hc hr hp h o ho ho' hs with h1 | h1 | ⟨h1, _⟩
    · exact ih (hr.step o ho) ht hl' ha' h1
    · exact Or.inr ((C160 hc (hr.step o ho) hp ht l hl' ha').2 n h1)
    · cases h1

end Lessor

/- C164 -/

/-- An account that has an NFT up for rent, itself rents nothing, signs nothing and pays no transaction fee: whatever all others
do, the NFT is still to let on the same terms, or its owner has it back and it is in no use, or it is rented out on these terms
to another account and the first rent has come in. The NFT is its own in all three cases. -/
theorem C164 (hc : c.Ok) (hr : Reach c w) (hp : ¬ c.pot y) (h : Spec.NoTenant w y) (l : List Op) (hl : ∀ o ∈ l, o.Ok c)
    (ha : ∀ o ∈ l, Spec.Absent y o) {k : Contract} (hs : Spec.ToLet w y n k none) :
    Spec.ToLet (run c w l) y n k none ∨ Spec.Keeps (run c w l) y n ∨
    ∃ a, a ≠ y ∧ Spec.ToLet (run c w l) y n k (some a) ∧
      ∀ v, k.rentFee = .tokens v → w.bal.freeOf y + v ≤ (run c w l).bal.freeOf y := by
  induction l generalizing w with
  | nil => exact Or.inl hs
  | cons o l ih =>
    have ho := hl o (List.mem_cons_self ..)
    have ho' := ha o (List.mem_cons_self ..)
    have hl' := fun o h => hl o (List.mem_cons_of_mem _ h)
    have ha' := fun o h => ha o (List.mem_cons_of_mem _ h)
    have ht := Cold.tenant hc hr o ho ho' h
    have hm := Cold.tokens hc hr hp o ho' h
    have hcold := C160 hc (hr.step o ho) hp ht l hl' ha'
    rcases Lessor.step_let hc hr hp h o ho ho' hs with h1 | h1 | ⟨_, a, h1, h2, h3⟩
    · rcases ih (hr.step o ho) ht hl' ha' h1 with h2 | h2 | ⟨a, h2, h3, h4⟩
      · exact Or.inl h2
      · exact Or.inr (Or.inl h2)
      · exact Or.inr (Or.inr ⟨a, h2, h3, fun v hv => Nat.le_trans (Nat.add_le_add_right hm v) (h4 v hv)⟩)
    · exact Or.inr (Or.inl (hcold.2 n h1))
    · rcases Lessor.taken hc (hr.step o ho) hp ht l hl' ha' h2 with h4 | h4
      · exact Or.inr (Or.inr ⟨a, h1, h4, fun v hv => Nat.le_trans (h3 v hv) hcold.1⟩)
      · exact Or.inr (Or.inl h4)

/-- A contract that is running when its renter goes away stays with its rentee on its terms until it ends, and then the NFT
is the renter's own again and in no use. -/
theorem C164_rented (hc : c.Ok) (hr : Reach c w) (hp : ¬ c.pot y) (h : Spec.NoTenant w y) (l : List Op) (hl : ∀ o ∈ l, o.Ok c)
    (ha : ∀ o ∈ l, Spec.Absent y o) {k : Contract} {a : AccountId} (hs : Spec.ToLet w y n k (some a)) :
    (Spec.ToLet (run c w l) y n k (some a) ∨ Spec.Keeps (run c w l) y n) ∧
    ∃ d, (run c w l).nfts.get n = some d ∧ d.owner = y := by
  have := Lessor.taken hc hr hp h l hl ha hs
  exact ⟨this, this.elim (·.nft) (·.1)⟩

namespace Demo

/-- account 1 has NFT 0 up for rent at 100 for 10 blocks -/
def letting : List Op :=
  [mint1, by_ 1 (.rent (.create 0 (.fixed 10) (.auto none) true (.tokens 100) .none .none))]

/-- account 2 rents it; account 3 tries to take it -/
def rents : List Op := [by_ 2 (.rent (.rent 0 0)), by_ 3 (.nft (.transferNft 0 3)), by_ 3 (.rent (.revoke 0))]

/-- the contract of account 1 -/
def lease : Contract := ⟨none, 1, none, .fixed 10, .auto none, true, .tokens 100, .none, .none, 0⟩

/-- eleven blocks -/
def elevenBlocks : List Op := (List.replicate 11 [Op.tick, .hookRent]).flatten

theorem letting_cold : Spec.NoTenant (at_ letting) 1 where
  offers n := fun ⟨l, h, _⟩ => by rw [show (at_ letting).rent.offers = .empty from rfl] at h; simp at h
  rents n k h := by
    rw [show (at_ letting).rent.contracts = FMap.empty.set 0 (some lease) from rfl, FMap.get_set] at h
    split at h
    · cases h; decide
    · simp at h

theorem letting_to : Spec.ToLet (at_ letting) 1 0 lease none :=
  ⟨⟨_, rfl, rfl, rfl, rfl, rfl, rfl, rfl, rfl, rfl, rfl⟩, _, rfl, rfl⟩

end Demo

-- the NFT is taken and the rent has come in
example : Spec.ToLet (run Demo.cfg (Demo.at_ Demo.letting) Demo.rents) 1 0 Demo.lease (some 2) ∧
    (Demo.at_ Demo.letting).bal.freeOf 1 + 100 ≤ (run Demo.cfg (Demo.at_ Demo.letting) Demo.rents).bal.freeOf 1 := by
  rcases C164 (y := 1) Demo.cfg_ok (Demo.reach Demo.letting (by decide)) (by decide) Demo.letting_cold Demo.rents (by decide)
    (by simp [Demo.rents, Demo.by_, Spec.Absent]) Demo.letting_to with ⟨⟨k, h, _, h2, _⟩, _⟩ | ⟨_, _, _, h, _⟩ | ⟨a, _, h, h1⟩
  · have : (run Demo.cfg (Demo.at_ Demo.letting) Demo.rents).rent.contracts.get 0 =
      some { Demo.lease with start := some 0, rentee := some 2 } := rfl
    rw [this] at h; cases h; cases h2
  · cases h
  · have : (run Demo.cfg (Demo.at_ Demo.letting) Demo.rents).rent.contracts.get 0 =
      some { Demo.lease with start := some 0, rentee := some 2 } := rfl
    obtain ⟨k, hk, _, h2, _⟩ := h.contract
    rw [this] at hk; cases hk; cases h2
    exact ⟨h, h1 100 rfl⟩

-- after ten blocks the contract is over and the NFT is back
example : Spec.Keeps (run Demo.cfg (Demo.at_ Demo.letting) (Demo.rents ++ Demo.elevenBlocks)) 1 0 :=
  ⟨⟨_, rfl, rfl⟩, rfl, rfl, rfl, rfl, rfl⟩

-- a contract that runs when account 1 goes away
example : ∃ d, (run Demo.cfg (Demo.at_ (Demo.letting ++ Demo.rents)) Demo.elevenBlocks).nfts.get 0 = some d ∧ d.owner = 1 :=
  (C164_rented (y := 1) (n := 0) (k := Demo.lease) (a := 2) Demo.cfg_ok (Demo.reach (Demo.letting ++ Demo.rents) (by decide)) (by decide)
    ⟨fun n ⟨l, h, _⟩ => by
        rw [show (Demo.at_ (Demo.letting ++ Demo.rents)).rent.offers = .empty from rfl] at h; simp at h,
     fun n k h => by
        rw [show (Demo.at_ (Demo.letting ++ Demo.rents)).rent.contracts = FMap.empty.set 0
          (some { Demo.lease with start := some 0, rentee := some 2 }) from rfl, FMap.get_set] at h
        split at h
        · cases h; decide
        · simp at h⟩
    Demo.elevenBlocks (by decide) (by simp [Demo.elevenBlocks, Spec.Absent, List.replicate])
    ⟨⟨_, rfl, rfl, rfl, rfl, rfl, rfl, rfl, rfl, rfl, rfl⟩, _, rfl, rfl⟩).2
