import Verif.Props.Consign
/-
Property C166: whoever rents an NFT for a fixed time and goes away keeps the rental or has the deposit back.
-/
variable {c : Cfg} {w w' : World} {y : AccountId} {n : NFTId}
set_option maxRecDepth 10000

/- Specification -/
namespace Spec

/-- `y` has no standing rental offer, and rents for fixed times only -/
structure FixedTenant (w : World) (y : AccountId) : Prop where
  offers : ∀ n, ¬ Offers w n y
  rents : ∀ n k, w.rent.contracts.get n = some k → k.rentee = some y → ∃ d, k.duration = .fixed d

end Spec

namespace Lodger

theorem tenant (hc : c.Ok) (hr : Reach c w) (o : Op) (ho : o.Ok c) (ha : Spec.Absent y o) (h : Spec.FixedTenant w y) :
    Spec.FixedTenant (step c w o) y where
  offers n hn := by
    rcases step_offer hc hr o ho hn with ⟨h1, _⟩ | ⟨_, _, _, _, _, _, _, e⟩
    · exact h.offers n h1
    · exact ha.1 _ e
  rents n k hk e := by
    cases hk0 : w.rent.contracts.get n with
    | none =>
      have := (Life.new_rent hc hr o ho hk0 hk).1
      rw [e] at this; cases this
    | some k0 =>
      have hst := C33_start (k' := k) (r := y) hc hr o ho hk0
      have ht := step_rent_turn hc hr o ho hk0
      generalize step c w o = w1 at *
      cases ht with
      | stay h1 => rw [hk] at h1; cases h1; exact h.rents n _ hk0 e
      | cancel _ h1 => rw [hk] at h1; cases h1
      | revoke _ _ h1 => rw [hk] at h1; cases h1
      | start h1 _ _ h4 =>
        obtain ⟨h5 | ⟨_, h5⟩, _⟩ := hst h1 hk e
        · exact absurd h5 (ha.1 _)
        · exact absurd h5 (h.offers n)
      | change h1 _ h3 =>
        rw [hk] at h3; cases h3
        obtain ⟨d, hd⟩ := h.rents n _ hk0 e
        rw [h1] at hd; cases hd
      | accept h1 _ _ _ _ h6 =>
        rw [hk] at h6; cases h6
        rw [h1] at e; cases e
        exact absurd rfl (ha.1 _)
      | over _ _ _ h1 => rw [hk] at h1; cases h1

theorem tokens (hc : c.Ok) (hr : Reach c w) (hp : ¬ c.pot y) (o : Op) (ha : Spec.Absent y o) (h : Spec.FixedTenant w y) :
    w.bal.freeOf y ≤ (step c w o).bal.freeOf y := by
  by_contra hn
  have := C62_who hc hr o (y := y) (by omega)
  unfold Spec.MayPay at this
  simp only [Cfg.pot, not_or] at hp
  split at this
  · rename_i a x
    rcases this with ⟨rfl, _⟩ | ⟨e, _⟩ | ⟨e, _⟩ | ⟨e, _⟩ | ⟨n, l, _, h1, h2⟩
    · exact ha.1 _ rfl
    · simp_all
    · simp_all
    · simp_all
    · exact h.offers n ⟨l, h1, h2⟩
  · simp_all
  · rcases this with e | ⟨n, k, _, _, _, _, h1, h2, h3, _⟩
    · simp_all
    · obtain ⟨d, hd⟩ := h.rents n k h1 h2
      rw [h3] at hd; cases hd
  · subst this; exact ha.2 _ _ _ rfl
  · simp_all
  · exact this

/-- through the work at the start of a block -/
theorem hook (hp : y ≠ c.rentPot) {k : Contract} (hy : k.rentee = some y) {w1 : World}
    (hc : Relation.ReflTransGen (fun w w' => (∃ n k, Spec.Ended c n k w w') ∨ ∃ n k, Spec.Renewed c n k w w') w w1)
    (hk : w.rent.contracts.get n = some k)
    (h : ∀ n k, w.rent.contracts.get n = some k → k.rentee = some y → ∃ d, k.duration = .fixed d) :
    (w1.rent.contracts.get n = some k ∧ w.bal.freeOf y ≤ w1.bal.freeOf y ∨
      w.bal.freeOf y + Spec.tokensOf k.renteeFee ≤ w1.bal.freeOf y) ∧
    ∀ n k, w1.rent.contracts.get n = some k → k.rentee = some y → ∃ d, k.duration = .fixed d := by
  induction hc with
  | refl => exact ⟨Or.inl ⟨hk, Nat.le_refl _⟩, h⟩
  | @tail v v' _ hs ih =>
    obtain ⟨ih, hf⟩ := ih
    rcases hs with ⟨m, k', hs⟩ | ⟨m, k', hs⟩
    · obtain ⟨δ, hb, _⟩ := hs.tokens
      have hb := hb y hp
      refine ⟨?_, fun n k hk => ?_⟩
      · rcases ih with ⟨h1, h2⟩ | h2
        · by_cases e : n = m
          · subst e
            have := hs.present
            rw [h1] at this; cases this
            right
            have hg : Spec.tokensOf k.renteeFee ≤ Spec.refund k y := by
              unfold Spec.refund; rw [hy]; simp [Spec.gets]
            omega
          · left
            rw [hs.gone, if_neg e]
            exact ⟨h1, by omega⟩
        · right; omega
      · rw [hs.gone] at hk
        split at hk
        · cases hk
        · exact hf n k hk
    · obtain ⟨r, s, u, fee, t1, t2, t3, t4, _, _, hb⟩ := hs.terms
      have hb := hb y
      have hry : y ≠ r := by
        rintro rfl
        obtain ⟨d, hd⟩ := hf m k' hs.present t1
        rw [t3] at hd; cases hd
      rw [Spec.gets, if_neg hry] at hb
      refine ⟨?_, fun n k hk => hf n k (by rw [← hs.contracts]; exact hk)⟩
      rw [hs.contracts]
      rcases ih with ⟨h1, h2⟩ | h2
      · exact Or.inl ⟨h1, by omega⟩
      · right; omega

/-- one step -/
theorem one (hc : c.Ok) (hr : Reach c w) (hp : ¬ c.pot y) (h : Spec.FixedTenant w y) (o : Op) (ho : o.Ok c) (ha : Spec.Absent y o)
    {k : Contract} (hk : w.rent.contracts.get n = some k) (hy : k.rentee = some y) :
    (step c w o).rent.contracts.get n = some k ∨
    w.bal.freeOf y + Spec.tokensOf k.renteeFee ≤ (step c w o).bal.freeOf y := by
  have hpy : y ≠ c.rentPot := fun e => hp (by rw [e]; simp [Cfg.pot])
  have ht := step_rent_turn hc hr o ho hk
  cases ht with
  | stay h1 => exact Or.inl h1
  | cancel h1 => rw [hy] at h1; cases h1
  | @revoke a r _ h1 h2 h3 =>
    rw [hy] at h1; cases h1
    right
    have hne : a ≠ y := fun e => ha.1 _ (by rw [e])
    cases hd : dispatch c (.rent (.revoke n)) (.signed a) w with
    | error e =>
      have : step c w (.call (.signed a) (.rent (.revoke n))) = w := by simp only [step, hd]; rfl
      rw [this, hk] at h3; cases h3
    | ok w1 =>
      have : step c w (.call (.signed a) (.rent (.revoke n))) = w1 := by simp only [step, hd]; rfl
      rw [this]
      obtain ⟨k', r, other, mine, theirs, g1, g2, g3, ⟨δ, hb, _⟩, _⟩ := C32 hc hr hd
      rw [hk] at g1; cases g1
      rw [hy] at g2; cases g2
      rcases g3 with ⟨_, _, rfl, _, rfl⟩ | ⟨e, _⟩
      · have := hb _ hpy
        simp only [Spec.gets, if_true] at this
        omega
      · exact absurd e hne
  | start h1 => rw [hy] at h1; cases h1
  | change h1 =>
    obtain ⟨d, hd⟩ := h.rents n k hk hy
    rw [h1] at hd; cases hd
  | accept h1 => rw [hy] at h1; cases h1; exact absurd rfl (ha.1 _)
  | over =>
    rcases (hook hpy hy (C31 hc hr) hk h.rents).1 with ⟨h1, _⟩ | h1
    · exact Or.inl h1
    · exact Or.inr h1

theorem all (hc : c.Ok) (hr : Reach c w) (hp : ¬ c.pot y) (h : Spec.FixedTenant w y) (l : List Op) (hl : ∀ o ∈ l, o.Ok c)
    (ha : ∀ o ∈ l, Spec.Absent y o) : w.bal.freeOf y ≤ (run c w l).bal.freeOf y := by
  induction l generalizing w with
  | nil => exact Nat.le_refl _
  | cons o l ih =>
    have ho := hl o (List.mem_cons_self ..)
    have ho' := ha o (List.mem_cons_self ..)
    exact Nat.le_trans (tokens hc hr hp o ho' h) (ih (hr.step o ho) (tenant hc hr o ho ho' h)
      (fun o h => hl o (List.mem_cons_of_mem _ h)) (fun o h => ha o (List.mem_cons_of_mem _ h)))

/-- NFT `m` is `y`'s and no pallet has a claim on it -/
def Has (w : World) (y : AccountId) (m : NFTId) : Prop := ∃ d, w.nfts.get m = some d ∧ d.owner = y ∧ Spec.Unencumbered d.st

/-- an NFT deposited, through the work at the start of a block -/
theorem hookNft (hp : y ≠ c.rentPot) {k : Contract} (hy : k.rentee = some y) {m : NFTId} (hm : k.renteeFee = .nft m) {w1 : World}
    (hc : RentM.Ticks c w w1) (hk : w.rent.contracts.get n = some k) :
    w1.rent.contracts.get n = some k ∨ Has w1 y m := by
  have hdep : Spec.nftOf k.renteeFee = some m := by rw [hm]; rfl
  induction hc with
  | refl => exact Or.inl hk
  | @tail v v' _ hs ih =>
    obtain ⟨hi, hb, hs⟩ := hs
    have hheld : ∀ n' k', v.rent.contracts.get n' = some k' → ∀ m, Spec.Deposit k' m → m ≠ n' →
        ∃ d, v.nfts.get m = some d ∧ d.owner = c.rentPot ∧ Spec.Unencumbered d.st := by
      intro n' k' hk' m hm hne
      obtain ⟨d, h1, h2, h3⟩ := (hi.dep.ok n' k' hk').held m ((Spec.deposit_iff hne).1 hm)
      exact ⟨d, h1, h2, (Spec.unencumbered_iff _).2 h3⟩
    rcases Spec.tick ⟨hi, hb, hs⟩ with ⟨n', k', hs⟩ | ⟨n', k', hs⟩
    · rcases ih with h1 | ⟨d, h1, h2, h3⟩
      · by_cases e : n = n'
        · subst e
          have := hs.present
          rw [h1] at this; cases this
          right
          have hne : m ≠ n := by
            rintro rfl
            have := (hi.dep.ok m k h1).self
            unfold RentM.renteeNft at this
            rw [hy] at this
            rw [Spec.nftOf_eq] at hdep
            simp [hdep] at this
          obtain ⟨d, g1, g2, g3⟩ := hheld n k h1 m (Or.inr ⟨by rw [hy]; simp, hdep⟩) hne
          obtain ⟨d', g4, g5⟩ := hs.renteeNft m y hy hdep
          rw [g1] at g4; cases g4
          exact ⟨_, g5, rfl, g3⟩
        · left; rw [hs.gone, if_neg e]; exact h1
      · right
        have hne : m ≠ n' := by
          rintro rfl
          have := ((hi.dep.ok m k' hs.present).owner d h1).2
          rw [h3.2.2.2.2.1] at this; cases this
        refine ⟨d, ?_, h2, h3⟩
        rw [hs.others m hne ?_]; exact h1
        intro hd
        obtain ⟨d', g1, g2, _⟩ := hheld n' k' hs.present m hd hne
        rw [h1] at g1; cases g1
        exact hp (h2.symm.trans g2)
    · rcases ih with h1 | h1
      · left; rw [hs.contracts]; exact h1
      · right; unfold Has; rw [hs.nfts]; exact h1

/-- an NFT deposited, in one step -/
theorem oneNft (hc : c.Ok) (hr : Reach c w) (hp : ¬ c.pot y) (h : Spec.FixedTenant w y) (o : Op) (ho : o.Ok c) (ha : Spec.Absent y o)
    {k : Contract} (hk : w.rent.contracts.get n = some k) (hy : k.rentee = some y) {m : NFTId} (hm : k.renteeFee = .nft m) :
    (step c w o).rent.contracts.get n = some k ∨ Spec.Keeps (step c w o) y m := by
  have hpy : y ≠ c.rentPot := fun e => hp (by rw [e]; simp [Cfg.pot])
  have hdep : Spec.nftOf k.renteeFee = some m := by rw [hm]; rfl
  have fin : Has (step c w o) y m → Spec.Keeps (step c w o) y m := by
    rintro ⟨d, h1, rfl, h2, h3, _, _, h4, _, h5⟩
    exact Consign.back hc (hr.step o ho) h1 h2 h4 h5 h3
  have ht := step_rent_turn hc hr o ho hk
  cases ht with
  | stay h1 => exact Or.inl h1
  | cancel h1 => rw [hy] at h1; cases h1
  | @revoke a r _ h1 h2 h3 =>
    rw [hy] at h1; cases h1
    right
    apply fin
    have hne : a ≠ y := fun e => ha.1 _ (by rw [e])
    cases hd : dispatch c (.rent (.revoke n)) (.signed a) w with
    | error e =>
      have : step c w (.call (.signed a) (.rent (.revoke n))) = w := by simp only [step, hd]; rfl
      rw [this, hk] at h3; cases h3
    | ok w1 =>
      have : step c w (.call (.signed a) (.rent (.revoke n))) = w1 := by simp only [step, hd]; rfl
      rw [this]
      obtain ⟨k', r, other, mine, theirs, g1, g2, g3, _, _, _, _, g4⟩ := C32 hc hr hd
      rw [hk] at g1; cases g1
      rw [hy] at g2; cases g2
      rcases g3 with ⟨_, _, rfl, _, rfl⟩ | ⟨e, _⟩
      · have hmn : m ≠ n := fun e => C29_rentee hc hr hk (by rw [hy]; simp) (by rw [hdep, e])
        obtain ⟨⟨d, e1, _, e2⟩, _⟩ := C29_partial hc hr hk (Or.inr ⟨by rw [hy]; simp, hdep⟩) hmn
        have := g4 m hmn
        rw [if_pos (Or.inl hdep), e1] at this
        exact ⟨_, this, rfl, e2⟩
      · exact absurd e hne
  | start h1 => rw [hy] at h1; cases h1
  | change h1 =>
    obtain ⟨d, hd⟩ := h.rents n k hk hy
    rw [h1] at hd; cases hd
  | accept h1 => rw [hy] at h1; cases h1; exact absurd rfl (ha.1 _)
  | over =>
    rcases hookNft hpy hy hm ((hr.inv hc).rent.ticks hr.micro.balInv) hk with h1 | h1
    · exact Or.inl h1
    · exact Or.inr (fin h1)

theorem keepsAll (hc : c.Ok) (hr : Reach c w) (hp : ¬ c.pot y) (h : Spec.FixedTenant w y) (l : List Op) (hl : ∀ o ∈ l, o.Ok c)
    (ha : ∀ o ∈ l, Spec.Absent y o) {m : NFTId} (hk : Spec.Keeps w y m) : Spec.Keeps (run c w l) y m := by
  induction l generalizing w with
  | nil => exact hk
  | cons o l ih =>
    have ho := hl o (List.mem_cons_self ..)
    have ho' := ha o (List.mem_cons_self ..)
    exact ih (hr.step o ho) (tenant hc hr o ho ho' h) (fun o h => hl o (List.mem_cons_of_mem _ h))
      (fun o h => ha o (List.mem_cons_of_mem _ h)) (Cold.keepsOf hc hr hp o ho ho' h.offers hk)

end Lodger

/- C166 -/

/-- An account that rents NFTs for fixed times only, has no standing offer, signs nothing and pays no transaction fee: whatever
all others do, each of its rentals is still there exactly as it was, or its deposit has come back on top of all the account had. -/
theorem C166 (hc : c.Ok) (hr : Reach c w) (hp : ¬ c.pot y) (h : Spec.FixedTenant w y) (l : List Op) (hl : ∀ o ∈ l, o.Ok c)
    (ha : ∀ o ∈ l, Spec.Absent y o) {k : Contract} (hk : w.rent.contracts.get n = some k) (hy : k.rentee = some y) :
    w.bal.freeOf y ≤ (run c w l).bal.freeOf y ∧
    ((run c w l).rent.contracts.get n = some k ∨
      w.bal.freeOf y + Spec.tokensOf k.renteeFee ≤ (run c w l).bal.freeOf y) := by
  refine ⟨Lodger.all hc hr hp h l hl ha, ?_⟩
  induction l generalizing w with
  | nil => exact Or.inl hk
  | cons o l ih =>
    have ho := hl o (List.mem_cons_self ..)
    have ho' := ha o (List.mem_cons_self ..)
    have hl' := fun o h => hl o (List.mem_cons_of_mem _ h)
    have ha' := fun o h => ha o (List.mem_cons_of_mem _ h)
    have ht := Lodger.tenant hc hr o ho ho' h
    have hm := Lodger.tokens hc hr hp o ho' h
    rcases Lodger.one hc hr hp h o ho ho' hk hy with h1 | h1
    · rcases ih (hr.step o ho) ht hl' ha' h1 with h2 | h2
      · exact Or.inl h2
      · exact Or.inr (Nat.le_trans (Nat.add_le_add_right hm _) h2)
    · exact Or.inr (Nat.le_trans h1 (Lodger.all hc (hr.step o ho) hp ht l hl' ha'))

/-- If the renter cannot revoke it, the rental of an absent rentee is there up to its last block. -/
theorem C166_until (hc : c.Ok) (hr : Reach c w) (l : List Op) (hl : ∀ o ∈ l, o.Ok c) (ha : ∀ o ∈ l, Spec.Absent y o)
    {k : Contract} {s d : Block} (hk : w.rent.contracts.get n = some k) (hy : k.rentee = some y) (hs : k.start = some s)
    (hd : k.duration = .fixed d) (hv : k.renterCanRevoke = false) (hb : (run c w l).now < s + d) :
    (run c w l).rent.contracts.get n = some k := by
  induction l generalizing w with
  | nil => exact hk
  | cons o l ih =>
    have ho := hl o (List.mem_cons_self ..)
    have ho' := ha o (List.mem_cons_self ..)
    refine ih (hr.step o ho) (fun o h => hl o (List.mem_cons_of_mem _ h)) (fun o h => ha o (List.mem_cons_of_mem _ h)) ?_ hb
    rcases C36 hc hr hk hy hs hd o ho with h | ⟨_, ⟨_, h⟩ | ⟨a, h, rfl | ⟨_, h1⟩⟩⟩
    · exact h
    · have := run_now_le (c := c) w (o :: l)
      omega
    · exact absurd h (ho'.1 _)
    · rw [hv] at h1; cases h1

/-- The same for an NFT given as the deposit: the rental is there exactly as it was, or the NFT is back and in no use. -/
theorem C166_nft (hc : c.Ok) (hr : Reach c w) (hp : ¬ c.pot y) (h : Spec.FixedTenant w y) (l : List Op) (hl : ∀ o ∈ l, o.Ok c)
    (ha : ∀ o ∈ l, Spec.Absent y o) {k : Contract} (hk : w.rent.contracts.get n = some k) (hy : k.rentee = some y) {m : NFTId}
    (hm : k.renteeFee = .nft m) : (run c w l).rent.contracts.get n = some k ∨ Spec.Keeps (run c w l) y m := by
  induction l generalizing w with
  | nil => exact Or.inl hk
  | cons o l ih =>
    have ho := hl o (List.mem_cons_self ..)
    have ho' := ha o (List.mem_cons_self ..)
    have hl' := fun o h => hl o (List.mem_cons_of_mem _ h)
    have ha' := fun o h => ha o (List.mem_cons_of_mem _ h)
    have ht := Lodger.tenant hc hr o ho ho' h
    rcases Lodger.oneNft hc hr hp h o ho ho' hk hy hm with h1 | h1
    · exact ih (hr.step o ho) ht hl' ha' h1
    · exact Or.inr (Lodger.keepsAll hc (hr.step o ho) hp ht l hl' ha' h1)

example : (Demo.at_ rented).bal.freeOf 2 + 300 ≤ (run Demo.cfg (Demo.at_ rented) (rentBlocks 11)).bal.freeOf 2 := by
  rcases (C166 (y := 2) (n := 0) Demo.cfg_ok (Demo.reach rented (by decide)) (by decide)
    ⟨fun n ⟨l, h, _⟩ => by rw [show (Demo.at_ rented).rent.offers = .empty from rfl] at h; simp at h,
     fun n k h _ => by
      rw [show (Demo.at_ rented).rent.contracts = FMap.empty.set 0
        (some ⟨some 0, 1, some 2, .fixed 10, .auto none, true, .tokens 100, .fixed 200, .flexible 300, 0⟩) from rfl, FMap.get_set] at h
      split at h
      · cases h; exact ⟨_, rfl⟩
      · simp at h⟩
    (rentBlocks 11) (by decide) (by simp [Spec.Absent, List.replicate]) rfl rfl).2 with h | h
  · cases h
  · exact h

namespace Demo

/-- account 2 rents NFT 0 for 10 blocks of account 1, which cannot revoke -/
def firmLet : List Op := [mint1, by_ 1 (.rent (.create 0 (.fixed 10) (.auto none) false (.tokens 100) .none (.fixed 300))),
  by_ 2 (.rent (.rent 0 0))]

end Demo

example : ((run Demo.cfg (Demo.at_ Demo.firmLet) (Demo.by_ 1 (.rent (.revoke 0)) :: rentBlocks 9)).rent.contracts.get 0).isSome := by
  rw [C166_until (y := 2) (n := 0) (s := 0) (d := 10) Demo.cfg_ok (Demo.reach Demo.firmLet (by decide))
    (Demo.by_ 1 (.rent (.revoke 0)) :: rentBlocks 9) (by decide) (by simp [Spec.Absent, List.replicate, Demo.by_])
    rfl rfl rfl rfl rfl (by decide)]
  rfl

-- account 2 has deposited its NFT 2
example : Spec.Keeps (run Demo.cfg (Demo.at_ deposits) (rentBlocks 11)) 2 2 := by
  rcases C166_nft (y := 2) (n := 0) (m := 2) Demo.cfg_ok (Demo.reach deposits (by decide)) (by decide)
    ⟨fun n ⟨l, h, _⟩ => by rw [show (Demo.at_ deposits).rent.offers = .empty from rfl] at h; simp at h,
     fun n k h _ => by
      rw [show (Demo.at_ deposits).rent.contracts = FMap.empty.set 0
        (some ⟨some 0, 1, some 2, .fixed 10, .auto none, true, .tokens 100, .nft 1, .nft 2, 0⟩) from rfl, FMap.get_set] at h
      split at h
      · cases h; exact ⟨_, rfl⟩
      · simp at h⟩
    (rentBlocks 11) (by decide) (by simp [Spec.Absent, List.replicate]) rfl rfl rfl with h | h
  · cases h
  · exact h
