import Verif.Props.Cold
import Verif.Props.Transmission
/-
Property C165: an NFT that is lent, or set to be transmitted, stays as its absent owner left it.
-/
variable {c : Cfg} {w w' : World} {y z : AccountId} {n : NFTId}
set_option maxRecDepth 10000

/- Specification -/
namespace Spec

/-- NFT `n` of `y` is lent to `z`, and in no other use -/
structure Lent (w : World) (y z : AccountId) (n : NFTId) : Prop where
  nft : ∃ d, w.nfts.get n = some d ∧ d.owner = y
  lentTo : w.nft.deleg.get n = some z
  sale : w.mkt.sales.get n = none
  auction : w.auc.auctions.get n = none
  rent : w.rent.contracts.get n = none
  transmission : w.tr.trans.get n = none

/-- `y` has left NFT `n` with exactly the transmission `x` -/
def AsLeft (w : World) (y : AccountId) (n : NFTId) (x : Transmission) : Prop :=
  w.tr.trans.get n = some x ∧ ∃ d, w.nfts.get n = some d ∧ d.owner = y

/-- operation `o` at `w` delivers NFT `n` to the recipient named in `x`: by the work at the start of a block or by a consent, not
before the block named if any is, and with the consents wanted if any are, each of another account that was asked -/
structure Delivery (c : Cfg) (w : World) (n : NFTId) (x : Transmission) (o : Op) : Prop where
  by_ : Delivers n o
  due : ∀ b, blockOf x.protocol = some b → b ≤ w.now
  agreed : ∀ q t, consentOf x.protocol = some (q, t) → (consentsSince n (step c w o).evs).Nodup ∧
    (∀ a ∈ consentsSince n (step c w o).evs, a ∈ q) ∧ t ≤ (consentsSince n (step c w o).evs).length
  over : (step c w o).tr.trans.get n = none
  nft : ∃ d, (step c w o).nfts.get n = some d ∧ d.owner = x.recipient

end Spec

namespace Lent

/-- an NFT that is lent is in no other use -/
theorem alone (hc : c.Ok) (hr : Reach c w) {d : NFTData} (hd : w.nfts.get n = some d) (hz : w.nft.deleg.get n = some z) :
    Spec.Lent w d.owner z n := by
  have g := ((hr.inv hc).good n).nft d hd
  have hdel : d.st.delegated = true := g.deleg.2 (by show w.nft.deleg.get n ≠ none; rw [hz]; simp)
  have hlis : d.st.listed = false := by
    cases e : d.st.listed with
    | false => rfl
    | true => rw [(g.exL e).2.2.1] at hdel; cases hdel
  have hren : d.st.rented = false := by
    cases e : d.st.rented with
    | false => rfl
    | true => rw [(g.exR e).2.1] at hdel; cases hdel
  have htr : d.st.transmission = false := by
    cases e : d.st.transmission with
    | false => rfl
    | true => rw [(g.exT e).1] at hdel; cases hdel
  have k1 := g.listed.not.1 (by simp [hlis])
  have k2 := g.rented.not.1 (by simp [hren])
  have k3 := g.trans.not.1 (by simp [htr])
  simp only [not_or, not_not] at k1 k2 k3
  exact ⟨⟨d, hd, rfl⟩, hz, k1.1, k1.2, k2, k3⟩

/-- one step -/
theorem one (hc : c.Ok) (hr : Reach c w) (hp : ¬ c.pot y) (h : Spec.NoTenant w y) (o : Op) (ho : o.Ok c) (ha : Spec.Absent y o)
    (hs : Spec.Lent w y z n) : Spec.Lent (step c w o) y z n := by
  obtain ⟨⟨d, hd, rfl⟩, hz, k1, k2, k3, k4⟩ := hs
  have hz' : (step c w o).nft.deleg.get n = some z := by
    rcases Life.step_deleg (n := n) hc hr o ho with e | ⟨_, d', e, hx, _⟩
    · rw [e]; exact hz
    · rw [hd] at hx; cases hx
      exact absurd e (ha.1 _)
  cases hd' : (step c w o).nfts.get n with
  | none => exact absurd (C04 hc hr o ho hd hd').1 (ha.1 _)
  | some d' =>
    have : d'.owner = d.owner := by
      by_contra hne
      cases C03 hc hr o ho hd hd' hne with
      | transfer e => exact ha.1 _ e
      | sale e _ _ => rw [k1] at e; cases e
      | auction e _ _ _ => rw [k2] at e; cases e
      | buyItNow e _ _ _ => rw [k2] at e; cases e
      | transmission e _ _ => rw [k4] at e; cases e
      | deposit _ _ e => exact ha.1 _ e
      | rents _ _ e =>
        rcases e with e | ⟨_, e⟩
        · exact ha.1 _ e
        · exact h.offers _ e
      | returned e _ _ _ => exact hp (by rw [e]; simp [Cfg.pot])
      | @revoked m k r h1 h2 h3 h4 _ _ =>
        by_cases e : m = n
        · subst e; rw [k3] at h1; cases h1
        · exact hp (by rw [h3 e]; simp [Cfg.pot])
    rw [← this]
    exact alone hc (hr.step o ho) hd' hz'

end Lent

/- C165 -/

/-- An account that rents nothing, signs nothing and pays no transaction fee and has lent an NFT: whatever all others do, the NFT
stays its own and lent to the same account, and comes into no other use. -/
theorem C165_lent (hc : c.Ok) (hr : Reach c w) (hp : ¬ c.pot y) (h : Spec.NoTenant w y) (l : List Op) (hl : ∀ o ∈ l, o.Ok c)
    (ha : ∀ o ∈ l, Spec.Absent y o) (hn : ∃ d, w.nfts.get n = some d ∧ d.owner = y) (hz : w.nft.deleg.get n = some z) :
    Spec.Lent (run c w l) y z n := by
  obtain ⟨d, hd, hy⟩ := hn
  have hs : Spec.Lent w y z n := hy ▸ Lent.alone hc hr hd hz
  clear hd hy hz d
  induction l generalizing w with
  | nil => exact hs
  | cons o l ih =>
    have ho := hl o (List.mem_cons_self ..)
    have ho' := ha o (List.mem_cons_self ..)
    exact ih (hr.step o ho) (Cold.tenant hc hr o ho ho' h) (fun o h => hl o (List.mem_cons_of_mem _ h))
      (fun o h => ha o (List.mem_cons_of_mem _ h)) (Lent.one hc hr hp h o ho ho' hs)

/-- An account that has set an NFT to be transmitted and signs nothing from then on: either the transmission stands exactly as it
was left and the NFT is still its own, or it stood so up to the moment at which the NFT was delivered to the recipient named, not
before the block named and with all consents wanted. -/
theorem C165 (hc : c.Ok) (hr : Reach c w) (l : List Op) (hl : ∀ o ∈ l, o.Ok c) (ha : ∀ o ∈ l, Spec.Absent y o)
    {x : Transmission} (hs : Spec.AsLeft w y n x) :
    Spec.AsLeft (run c w l) y n x ∨
    ∃ l1 o l2, l = l1 ++ o :: l2 ∧ Spec.AsLeft (run c w l1) y n x ∧ Spec.Delivery c (run c w l1) n x o := by
  induction l generalizing w with
  | nil => exact Or.inl hs
  | cons o l ih =>
    have ho := hl o (List.mem_cons_self ..)
    have ho' := ha o (List.mem_cons_self ..)
    have hs0 := hs
    obtain ⟨hx, d, hd, rfl⟩ := hs
    have hno : ¬ Spec.Removes n d.owner o := fun h => ho'.1 _ h
    have h39 := fun {q} {t} => C39 (l := q) (t := t) hc hr o ho hx hd
    have h38 := fun {b} => C38 (b := b) hc hr o ho hx hd
    have hm := step_tr_move hc hr o ho hx hd
    cases hm with
    | stay e1 e2 e3 =>
      rcases ih (hr.step o ho) (fun o h => hl o (List.mem_cons_of_mem _ h)) (fun o h => ha o (List.mem_cons_of_mem _ h))
        ⟨e1, _, e2, e3⟩ with h | ⟨l1, o1, l2, rfl, h1, h2⟩
      · exact Or.inl h
      · exact Or.inr ⟨o :: l1, o1, l2, rfl, h1, h2⟩
    | reset => exact absurd rfl (ho'.1 _)
    | removed => exact absurd rfl (ho'.1 _)
    | hook _ _ _ e1 e2 =>
      exact Or.inr ⟨[], _, l, rfl, hs0, Or.inl rfl, fun b h => h38 h e1 hno, fun q t h => h39 h e1 hno, e1, _, e2, rfl⟩
    | consent _ _ _ _ _ _ _ e1 e2 =>
      exact Or.inr ⟨[], _, l, rfl, hs0, Or.inr ⟨_, rfl⟩, fun b h => h38 h e1 hno, fun q t h => h39 h e1 hno, e1, _, e2, rfl⟩

namespace Demo

/-- account 1 lends NFT 0 to account 2 -/
def lends : List Op := [mint1, by_ 1 (.nft (.delegateNft 0 (some 2)))]

end Demo

example : Spec.Lent (run Demo.cfg (Demo.at_ Demo.lends) Demo.elsewhere) 1 2 0 :=
  C165_lent (y := 1) Demo.cfg_ok (Demo.reach Demo.lends (by decide)) (by decide)
    ⟨fun n ⟨l, h, _⟩ => by rw [show (Demo.at_ Demo.lends).rent.offers = .empty from rfl] at h; simp at h,
     fun n k h => by rw [show (Demo.at_ Demo.lends).rent.contracts = .empty from rfl] at h; simp at h⟩
    Demo.elsewhere (by decide) (by simp [Demo.elsewhere, Demo.by_, Spec.Absent]) ⟨_, rfl, rfl⟩ rfl

/-- two of the accounts asked agree, and the block comes -/
abbrev agreeing : List Op := [Demo.by_ 3 (.tr (.addConsent 0)), Demo.by_ 5 (.tr (.addConsent 0)), .tick, .tick, .hookTr]

-- the NFT is delivered within the history
example : ∃ l1 o l2, agreeing = l1 ++ o :: l2 ∧
    Spec.Delivery Demo.cfg (run Demo.cfg (Demo.at_ agreed) l1) 0 ⟨2, .onConsentAtBlock [3, 4, 5] 2 3, .none⟩ o := by
  rcases C165 (y := 1) (n := 0) Demo.cfg_ok (Demo.reach agreed (by decide)) agreeing (by decide)
    (by simp [Demo.by_, Spec.Absent]) (x := ⟨2, .onConsentAtBlock [3, 4, 5] 2 3, .none⟩) ⟨rfl, _, rfl, rfl⟩ with
    ⟨h, _⟩ | ⟨l1, o, l2, h1, _, h2⟩
  · cases h
  · exact ⟨l1, o, l2, h1, h2⟩
