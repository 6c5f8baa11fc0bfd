import Verif.Props.Life
import Verif.Props.Use
import Verif.Props.Rent
import Verif.Props.Supply
import Verif.Props.Owner
/-
Property C160: whoever does nothing loses nothing.
-/
variable {c : Cfg} {w w' : World} {y : AccountId}
set_option maxRecDepth 10000

namespace Spec

/-- account `y` neither signs the operation nor pays its transaction fee -/
def Absent (y : AccountId) (o : Op) : Prop := (∀ x, o ≠ .call (.signed y) x) ∧ ∀ f t b, o ≠ .txFee y f t b

/-- account `y` rents nothing and has no standing offer to -/
structure NoTenant (w : World) (y : AccountId) : Prop where
  offers : ∀ n, ¬ Offers w n y
  rents : ∀ n k, w.rent.contracts.get n = some k → k.rentee ≠ some y

/-- `y` owns NFT `n` and has it in no use -/
def Keeps (w : World) (y : AccountId) (n : NFTId) : Prop := (∃ d, w.nfts.get n = some d ∧ d.owner = y) ∧ Free w n

end Spec

namespace Cold

theorem tenant (hc : c.Ok) (hr : Reach c w) (o : Op) (ho : o.Ok c) (ha : Spec.Absent y o) (h : Spec.NoTenant w y) :
    Spec.NoTenant (step c w o) y where
  offers n hn := by
    rcases step_offer hc hr o ho hn with ⟨h1, _⟩ | ⟨_, _, _, _, _, _, _, e⟩
    · exact h.offers n h1
    · exact ha.1 _ e
  rents n k hk e := by
    cases hk0 : w.rent.contracts.get n with
    | none =>
      have := (Life.new_rent hc hr o ho hk0 hk).1
      rw [e] at this; cases this
    | some k0 =>
      by_cases hn : k0.rentee = none
      · obtain ⟨h1 | ⟨_, h1⟩, _⟩ := C33_start hc hr o ho hk0 hn hk e
        · exact ha.1 _ h1
        · exact h.offers n h1
      · obtain ⟨_, h1 | ⟨k', h1, _, h2, _⟩⟩ := C35 hc hr hk0 hn o ho
        · rw [hk] at h1; cases h1
        · rw [hk] at h1; cases h1
          exact h.rents n k0 hk0 (h2 ▸ e)

theorem tokens (hc : c.Ok) (hr : Reach c w) (hp : ¬ c.pot y) (o : Op) (ha : Spec.Absent y o) (h : Spec.NoTenant w y) :
    w.bal.freeOf y ≤ (step c w o).bal.freeOf y := by
  by_contra hn
  have := C62_who hc hr o (y := y) (by omega)
  unfold Spec.MayPay at this
  simp only [Cfg.pot, not_or] at hp
  split at this
  · rename_i a x
    rcases this with ⟨rfl, _⟩ | ⟨e, _⟩ | ⟨e, _⟩ | ⟨e, _⟩ | ⟨n, l, _, h1, h2⟩
    · exact ha.1 _ rfl
    · simp_all
    · simp_all
    · simp_all
    · exact h.offers n ⟨l, h1, h2⟩
  · simp_all
  · rcases this with e | ⟨n, k, _, _, _, _, h1, h2, _⟩
    · simp_all
    · exact h.rents n k h1 h2
  · subst this; exact ha.2 _ _ _ rfl
  · simp_all
  · exact this

theorem keepsOf (hc : c.Ok) (hr : Reach c w) (hp : ¬ c.pot y) (o : Op) (ho : o.Ok c) (ha : Spec.Absent y o)
    (h : ∀ n, ¬ Spec.Offers w n y) {n : NFTId} (hk : Spec.Keeps w y n) : Spec.Keeps (step c w o) y n := by
  obtain ⟨⟨d, hd, rfl⟩, hf⟩ := hk
  refine ⟨?_, ?_, ?_, ?_, ?_, ?_⟩
  · cases hd' : (step c w o).nfts.get n with
    | none => exact absurd (C04 hc hr o ho hd hd').1 (ha.1 _)
    | some d' =>
      refine ⟨d', rfl, ?_⟩
      by_contra hne
      cases C03 hc hr o ho hd hd' hne with
      | transfer e => exact ha.1 _ e
      | sale e _ _ => rw [hf.sale] at e; cases e
      | auction e _ _ _ => rw [hf.auction] at e; cases e
      | buyItNow e _ _ _ => rw [hf.auction] at e; cases e
      | transmission e _ _ => rw [hf.transmission] at e; cases e
      | deposit _ _ e => exact ha.1 _ e
      | rents _ _ e =>
        rcases e with e | ⟨_, e⟩
        · exact ha.1 _ e
        · exact h _ e
      | returned e _ _ _ => exact hp (by rw [e]; simp [Cfg.pot])
      | @revoked m k r h1 h2 h3 h4 _ _ =>
        by_cases e : m = n
        · subst e; rw [hf.contract] at h1; cases h1
        · exact hp (by rw [h3 e]; simp [Cfg.pot])
  · have := step_sale w o ho n
    generalize hv : (step c w o).mkt.sales.get n = v at this
    cases this with
    | same => exact hf.sale
    | list hd' e =>
      rw [hd] at hd'; cases hd'
      subst e
      exact absurd rfl (ha.1 _)
    | unlist => rfl
    | buy => rfl
  · by_contra e
    obtain ⟨d', hd', _, _, _, _, _, e, _⟩ := Life.new_auc o ho hf.auction e
    rw [hd] at hd'; cases hd'
    exact ha.1 _ e
  · cases e : (step c w o).rent.contracts.get n with
    | none => rfl
    | some k =>
      obtain ⟨_, d', hd', _, _, _, _, _, _, e⟩ := Life.new_rent hc hr o ho hf.contract e
      rw [hd] at hd'; cases hd'
      exact absurd e (ha.1 _)
  · by_contra e
    obtain ⟨d', hd', _, _, _, e, _⟩ := Life.new_tr hc hr o ho hf.transmission e
    rw [hd] at hd'; cases hd'
    exact ha.1 _ e
  · rcases Life.step_deleg (n := n) hc hr o ho with e | ⟨_, d', e, hd', _⟩
    · rw [e]; exact hf.delegation
    · rw [hd] at hd'; cases hd'
      exact absurd e (ha.1 _)

theorem keeps (hc : c.Ok) (hr : Reach c w) (hp : ¬ c.pot y) (o : Op) (ho : o.Ok c) (ha : Spec.Absent y o) (h : Spec.NoTenant w y)
    {n : NFTId} (hk : Spec.Keeps w y n) : Spec.Keeps (step c w o) y n := keepsOf hc hr hp o ho ha h.offers hk

end Cold

/- C160 -/

/-- An account that rents nothing, signs nothing and pays no transaction fee keeps all its tokens and every NFT it has in no use,
and the NFTs stay unused, whatever all others do and however long it takes. -/
theorem C160 (hc : c.Ok) (hr : Reach c w) (hp : ¬ c.pot y) (h : Spec.NoTenant w y) (l : List Op) (hl : ∀ o ∈ l, o.Ok c)
    (ha : ∀ o ∈ l, Spec.Absent y o) :
    w.bal.freeOf y ≤ (run c w l).bal.freeOf y ∧ ∀ n, Spec.Keeps w y n → Spec.Keeps (run c w l) y n := by
  induction l generalizing w with
  | nil => exact ⟨Nat.le_refl _, fun _ h => h⟩
  | cons o l ih =>
    have ho := hl o (List.mem_cons_self ..)
    have ho' := ha o (List.mem_cons_self ..)
    obtain ⟨h1, h2⟩ := ih (hr.step o ho) (Cold.tenant hc hr o ho ho' h) (fun o h => hl o (List.mem_cons_of_mem _ h))
      (fun o h => ha o (List.mem_cons_of_mem _ h))
    exact ⟨Nat.le_trans (Cold.tokens hc hr hp o ho' h) h1, fun n hn => h2 n (Cold.keeps hc hr hp o ho ho' h hn)⟩

namespace Demo

/-- account 2 tries to take, sell and burn NFT 0 of account 1 and mints another one, and time goes by -/
def elsewhere : List Op := [by_ 2 (.nft (.transferNft 0 2)), by_ 2 (.mkt (.list 0 0 5)), by_ 2 (.nft (.burnNft 0)),
  by_ 2 (.nft (.createNft [7] .zero none false)), by_ 3 (.br (.deposit 10 [1] 1)), .txFee 2 5 1 (some 3), .tick, .hookAuc, .hookRent, .hookTr, .eraPayout]

end Demo

example : Spec.Keeps (run Demo.cfg (Demo.at_ [Demo.mint1]) Demo.elsewhere) 1 0 ∧
    (Demo.at_ [Demo.mint1]).bal.freeOf 1 ≤ (run Demo.cfg (Demo.at_ [Demo.mint1]) Demo.elsewhere).bal.freeOf 1 := by
  have h := C160 (y := 1) Demo.cfg_ok (Demo.reach [Demo.mint1] (by decide)) (by decide)
    ⟨fun n ⟨l, h, _⟩ => by rw [show (Demo.at_ [Demo.mint1]).rent.offers = .empty from rfl] at h; simp at h,
     fun n k h => by rw [show (Demo.at_ [Demo.mint1]).rent.contracts = .empty from rfl] at h; simp at h⟩
    Demo.elsewhere (by decide) (by simp [Demo.elsewhere, Demo.by_, Spec.Absent])
  exact ⟨h.2 0 ⟨⟨_, rfl, rfl⟩, rfl, rfl, rfl, rfl, rfl⟩, h.1⟩
