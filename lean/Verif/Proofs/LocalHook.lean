import Verif.Proofs.Local
import Verif.Proofs.Kept
import Verif.Proofs.AucActs
import Verif.Proofs.Payout
/-
The scheduled work changes only what is stored under the NFTs that are due.
-/
variable {c : Cfg} {w w' : World} {m : NFTId}

theorem AucM.Pop.same (h : Pop c w w') (hm : ∀ e, (m, e) ∈ w.auc.deadlines → ¬ e ≤ w.now) :
    Same w w' m ∧ w'.now = w.now ∧ ∀ x ∈ w'.auc.deadlines, x ∈ w.auc.deadlines := by
  cases h with
  | won hq he =>
    rw [hq] at hm
    have : m ≠ _ := fun e => hm _ (e ▸ List.mem_cons_self) he
    exact ⟨by same_auto [this], rfl, fun x hx => hq ▸ List.mem_cons_of_mem _ hx⟩
  | noBid hq he =>
    rw [hq] at hm
    have : m ≠ _ := fun e => hm _ (e ▸ List.mem_cons_self) he
    exact ⟨by same_auto [this], rfl, fun x hx => hq ▸ List.mem_cons_of_mem _ hx⟩
  | missed hq he => exact ⟨⟨rfl, rfl, rfl⟩, rfl, fun x hx => hq ▸ List.mem_cons_of_mem _ hx⟩
  | stray hq he => exact ⟨⟨rfl, rfl, rfl⟩, rfl, fun x hx => hq ▸ List.mem_cons_of_mem _ hx⟩

theorem AucM.hook_same (hm : ∀ e, (m, e) ∈ w.auc.deadlines → ¬ e ≤ w.now) : Same w (hook c w) m := by
  suffices h : ∀ w', Relation.ReflTransGen (Pop c) w w' →
      Same w w' m ∧ w'.now = w.now ∧ ∀ x ∈ w'.auc.deadlines, x ∈ w.auc.deadlines from (h _ (hook_pops w)).1
  intro w' h
  induction h with
  | refl => exact ⟨.refl _ _, rfl, fun _ h => h⟩
  | tail _ h ih =>
    obtain ⟨i1, i2, i3⟩ := ih
    obtain ⟨j1, j2, j3⟩ := h.same fun e he => by rw [i2]; exact hm e (i3 _ he)
    exact ⟨i1.trans j1, j2.trans i2, fun x hx => i3 x (j3 x hx)⟩

namespace RentM

/-- the scheduled work may act on the contract `k` of `n` -/
def Ripe (c : Cfg) (w : World) (n : NFTId) (k : Contract) : Prop :=
  (k.rentee = none ∧ k.creation + c.rentAvail ≤ w.now) ∨
  (∃ r s d, k.rentee = some r ∧ k.start = some s ∧ k.duration = .fixed d ∧ s + d ≤ w.now) ∨
  (∃ r u b, k.rentee = some r ∧ k.duration = .sub u ∧ (n, b) ∈ w.rent.subQ ∧ b ≤ w.now)

theorem Over.ripe {n k} (h : Over c w n k) : Ripe c w n k := by
  cases h with
  | unused h1 h2 => exact Or.inl ⟨h1, h2⟩
  | fixed h1 h2 h3 h4 => exact Or.inr (Or.inl ⟨_, _, _, h1, h2, h3, h4⟩)
  | sub h1 h2 h3 h4 h5 h6 _ => exact Or.inr (Or.inr ⟨_, _, _, h1, h3, h5, h6⟩)

theorem ticks_same (h : Ticks c w w') (hm : ∀ n k, w.rent.contracts.get n = some k → Ripe c w n k →
    m ≠ n ∧ feeNft k.renterFee ≠ some m ∧ feeNft k.renteeFee ≠ some m) : Same w w' m := by
  induction h with
  | refl => exact .refl _ _
  | @tail w1 w2 h0 h ih =>
    have hn : w1.now = w.now := Ticks.now h0
    obtain ⟨s1, s2⟩ := Ticks.subset h0
    have hr : ∀ n k, w1.rent.contracts.get n = some k → Ripe c w1 n k →
        m ≠ n ∧ feeNft k.renterFee ≠ some m ∧ feeNft k.renteeFee ≠ some m := by
      intro n k hk h
      refine hm n k (s1 _ _ hk) ?_
      unfold Ripe at h ⊢
      rw [hn] at h
      rcases h with h | h | ⟨r, u, b, h1, h2, h3, h4⟩
      · exact Or.inl h
      · exact Or.inr (Or.inl h)
      · obtain ⟨b', h5, h6⟩ := s2 _ _ h3 h4
        exact Or.inr (Or.inr ⟨r, u, b', h1, h2, h5, h6⟩)
    refine ih.trans ?_
    obtain ⟨hi, hb, ht⟩ := h
    cases ht with
    | @finish n k b f hk ho hf =>
      obtain ⟨e1, e2, e3⟩ := hr n k hk ho.ripe
      have hf := (hf.nfts hi hk).2.2.2 m e1 (by
        rintro (⟨h, _⟩ | h)
        · exact e2 h
        · unfold renteeNft at h
          cases hx : k.rentee with
          | none => simp [hx] at h
          | some r => simp [hx] at h; exact e3 h)
      same_auto [hf, e1]
    | renew => same_auto []

end RentM

theorem TrM.hook_same (h : TrInv c w.tr) (hg : ∀ n, Good c (slice w n))
    (hm : ∀ b, (m, b) ∈ w.tr.queue → ¬ b ≤ w.now) : Same w (hook c w) m := by
  obtain ⟨e1, e2⟩ := (hook_exact h hg).1.off m (by
    intro hq
    obtain ⟨b, hb⟩ := Queue.mem_ids.1 hq
    have := Queue.mem_due hb
    exact hm b this.1 this.2)
  rw [TrM.hook_frame]
  same_auto [e1, e2]
