import Verif.Props.Cold
import Verif.Props.Content
import Verif.Props.Market
/-
Property C162: whoever has listed NFTs for sale and goes away finds the NFTs or the money.
-/
variable {c : Cfg} {w w' : World} {y : AccountId}
set_option maxRecDepth 10000

/- Specification -/
namespace Spec

/-- what the sale of NFT `n` will bring its seller `y`: the price less the commission agreed and the creator's royalty on the
rest; nothing if `y` does not sell it -/
def askedNet (w : World) (y : AccountId) (n : NFTId) : Balance :=
  match w.mkt.sales.get n, w.nfts.get n with
  | some s, some d =>
    if s.seller = y then
      (s.price - commission s.price s.commission) - d.royalty.mul (s.price - commission s.price s.commission)
    else 0
  | _, _ => 0

end Spec

namespace Vendor

theorem owner (hc : c.Ok) (hr : Reach c w) {n : NFTId} {s : Sale} (h : w.mkt.sales.get n = some s) :
    ∃ d, w.nfts.get n = some d ∧ d.owner = s.seller := by
  have g := (hr.inv hc).good n
  obtain ⟨d, hd⟩ := g.some_of (fun e => by
    have := congrArg Slice.sale e; simp [slice, Slice.blank, h] at this)
  exact ⟨d, hd, ((g.nft d hd).seller s h).symm⟩

/-- nothing is due unless `y` has the NFT listed -/
theorem due_zero (hc : c.Ok) (hr : Reach c w) {n : NFTId} {d : NFTData} (hd : w.nfts.get n = some d) (hy : d.owner ≠ y) :
    Spec.askedNet w y n = 0 := by
  unfold Spec.askedNet
  split
  · rename_i s d' hs hd'
    obtain ⟨d1, h1, h2⟩ := owner hc hr hs
    rw [hd] at h1; cases h1
    rw [if_neg (fun e => hy (h2.trans e))]
  · rfl

theorem due_congr (hs : (step c w o).mkt.sales.get n = w.mkt.sales.get n)
    (hr : ((step c w o).nfts.get n).map NFTData.royalty = (w.nfts.get n).map NFTData.royalty) :
    Spec.askedNet (step c w o) y n = Spec.askedNet w y n := by
  unfold Spec.askedNet
  rw [hs]
  cases w.mkt.sales.get n with
  | none => rfl
  | some s =>
    cases h1 : (step c w o).nfts.get n <;> cases h2 : w.nfts.get n <;> rw [h1, h2] at hr <;> simp at hr
    all_goals first | rfl | simp only [hr]

theorem due_step (hc : c.Ok) (hr : Reach c w) (o : Op) (ho : o.Ok c) (ha : Spec.Absent y o) (n : NFTId)
    (hb : ∀ a p, o ≠ .call (.signed a) (.mkt (.buy n p))) : Spec.askedNet w y n ≤ Spec.askedNet (step c w o) y n := by
  have hm := step_sale w o ho n
  generalize hv : (step c w o).mkt.sales.get n = v at hm
  cases hm with
  | same =>
    cases hs : w.mkt.sales.get n with
    | none => unfold Spec.askedNet; rw [hs]; exact Nat.zero_le _
    | some s =>
      obtain ⟨d, hd, hy⟩ := owner hc hr hs
      by_cases e : d.owner = y
      · refine Nat.le_of_eq (due_congr hv ?_).symm
        have key : Spec.content (step c w o) n = Spec.content w n := by
          rcases C78 hc hr ho hd with h | ⟨h, _⟩ | ⟨x, x', _, _, h⟩
          · exact h
          · exact absurd h (e ▸ ha.1 _)
          · cases h <;> exact absurd rfl (e ▸ ha.1 _)
        have := congrArg (Option.map Spec.Content.royalty) key
        simpa only [Spec.content, Option.map_map, Function.comp_def] using this
      · rw [due_zero hc hr hd e]; exact Nat.zero_le _
  | list hd hy =>
    rw [due_zero hc hr hd (fun e => ha.1 _ (by rw [← e, hy]))]; exact Nat.zero_le _
  | unlist hd hy =>
    rw [due_zero hc hr hd (fun e => ha.1 _ (by rw [← e, hy]))]; exact Nat.zero_le _
  | buy => exact absurd rfl (hb _ _)

/-- a purchase brings the seller what is due -/
theorem due_buy (ha : Spec.Absent y (.call (.signed a) (.mkt (.buy n p))))
    (h : dispatch c (.mkt (.buy n p)) (.signed a) w = .ok w') : w.bal.freeOf y + Spec.askedNet w y n ≤ w'.bal.freeOf y := by
  obtain ⟨d, s, k, m, r, rest, hd, hs, hk, rfl, _, rfl, rfl, h1, h2, _⟩ := C15 h
  have hy : y ≠ a := fun e => ha.1 _ (by rw [e])
  have := h2 y
  unfold Spec.askedNet
  rw [hs, hd]
  simp only
  split
  · rename_i e
    simp only [Spec.gets, if_neg hy, if_pos e.symm] at this
    omega
  · simp only [Spec.gets, if_neg hy] at this
    omega

theorem sum_le (L : List NFTId) {f g : NFTId → Nat} (h : ∀ n, f n ≤ g n) : (L.map f).sum ≤ (L.map g).sum := by
  induction L with
  | nil => exact Nat.le_refl _
  | cons x L ih => simp only [List.map_cons, List.sum_cons]; have := h x; omega

theorem sum_one {L : List NFTId} (hn : L.Nodup) {f g : NFTId → Nat} (n : NFTId) (h : ∀ m, m ≠ n → f m ≤ g m) :
    (L.map f).sum ≤ (L.map g).sum + f n := by
  induction L with
  | nil => exact Nat.zero_le _
  | cons x L ih =>
    rw [List.nodup_cons] at hn
    simp only [List.map_cons, List.sum_cons]
    by_cases e : x = n
    · subst e
      have : (L.map f).sum ≤ (L.map g).sum := by
        have hx := hn.1
        clear ih hn
        induction L with
        | nil => exact Nat.le_refl _
        | cons z L ih =>
          simp only [List.mem_cons, not_or] at hx
          simp only [List.map_cons, List.sum_cons]
          have := h z (fun e => hx.1 e.symm)
          have := ih hx.2
          omega
      omega
    · have := h x e
      have := ih hn.2
      omega

theorem step_due (hc : c.Ok) (hr : Reach c w) (hp : ¬ c.pot y) (h : Spec.NoTenant w y) (o : Op) (ho : o.Ok c) (ha : Spec.Absent y o)
    {L : List NFTId} (hn : L.Nodup) :
    w.bal.freeOf y + (L.map (Spec.askedNet w y)).sum ≤ (step c w o).bal.freeOf y + (L.map (Spec.askedNet (step c w o) y)).sum := by
  by_cases hb : ∃ a n p, o = .call (.signed a) (.mkt (.buy n p))
  · obtain ⟨a, n, p, rfl⟩ := hb
    cases h' : dispatch c (.mkt (.buy n p)) (.signed a) w with
    | error e =>
      have : step c w (.call (.signed a) (.mkt (.buy n p))) = w := by simp [step, h', orSame]
      rw [this]
    | ok w' =>
      have e : step c w (.call (.signed a) (.mkt (.buy n p))) = w' := by simp [step, h', orSame]
      have h1 := due_buy ha h'
      have h2 := sum_one hn (f := Spec.askedNet w y) (g := Spec.askedNet w' y) n fun m hm => by
        rw [← e]
        refine due_step hc hr _ ho ha m fun a' p' he => hm ?_
        cases he; rfl
      rw [e]; omega
  · have h1 := Cold.tokens hc hr hp o ha h
    have h2 := sum_le L (f := Spec.askedNet w y) (g := Spec.askedNet (step c w o) y) fun n =>
      due_step hc hr o ho ha n fun a p e => hb ⟨a, n, p, e⟩
    omega

end Vendor

/-- An account that signs nothing, pays no transaction fee and rents nothing: its tokens together with what is due for the NFTs it
has for sale never get less, whatever all others do. So every NFT gone has brought its full price, less commission and royalty. -/
theorem C162 (hc : c.Ok) (hr : Reach c w) (hp : ¬ c.pot y) (h : Spec.NoTenant w y) (l : List Op) (hl : ∀ o ∈ l, o.Ok c)
    (ha : ∀ o ∈ l, Spec.Absent y o) {L : List NFTId} (hn : L.Nodup) :
    w.bal.freeOf y + (L.map (Spec.askedNet w y)).sum ≤ (run c w l).bal.freeOf y + (L.map (Spec.askedNet (run c w l) y)).sum := by
  induction l generalizing w with
  | nil => exact Nat.le_refl _
  | cons o l ih =>
    have ho := hl o (List.mem_cons_self ..)
    have ho' := ha o (List.mem_cons_self ..)
    exact Nat.le_trans (Vendor.step_due hc hr hp h o ho ho' hn) (ih (hr.step o ho) (Cold.tenant hc hr o ho ho' h)
      (fun o h => hl o (List.mem_cons_of_mem _ h)) (fun o h => ha o (List.mem_cons_of_mem _ h)))

/-- In particular for each NFT for sale: it is still there, the seller's own and for sale on the same terms, or the seller has got
what was due. -/
theorem C162_each (hc : c.Ok) (hr : Reach c w) (hp : ¬ c.pot y) (h : Spec.NoTenant w y) (l : List Op) (hl : ∀ o ∈ l, o.Ok c)
    (ha : ∀ o ∈ l, Spec.Absent y o) {n : NFTId} {s : Sale} (hs : w.mkt.sales.get n = some s) (hy : s.seller = y) :
    ((run c w l).mkt.sales.get n = some s ∧ ∃ d, (run c w l).nfts.get n = some d ∧ d.owner = y) ∨
    w.bal.freeOf y + Spec.askedNet w y n ≤ (run c w l).bal.freeOf y := by
  rcases C16 hc hr hs l hl with ⟨h1, d, hd, h2, _⟩ | ⟨l1, o, l2, rfl, h1, h2, h3⟩
  · exact Or.inl ⟨h1, d, hd, h2.trans hy⟩
  · right
    have ha1 : ∀ x ∈ l1 ++ [o], Spec.Absent y x := fun x hx => ha x (by
      rcases List.mem_append.1 hx with hx | hx
      · exact List.mem_append_left _ hx
      · rw [List.mem_singleton] at hx; subst hx; simp)
    have hl1 : ∀ x ∈ l1 ++ [o], x.Ok c := fun x hx => hl x (by
      rcases List.mem_append.1 hx with hx | hx
      · exact List.mem_append_left _ hx
      · rw [List.mem_singleton] at hx; subst hx; simp)
    have k1 := C162 hc hr hp h (l1 ++ [o]) hl1 ha1 (L := [n]) (by simp)
    have hz : Spec.askedNet (run c w (l1 ++ [o])) y n = 0 := by unfold Spec.askedNet; rw [h2]
    simp only [List.map_cons, List.map_nil, List.sum_cons, List.sum_nil, hz] at k1
    -- from there on the tokens do not get less
    have hr1 := hr.run (l1 ++ [o]) hl1
    have ht : ∀ (l : List Op) {w}, Reach c w → Spec.NoTenant w y → (∀ o ∈ l, o.Ok c) → (∀ o ∈ l, Spec.Absent y o) →
        Spec.NoTenant (run c w l) y := by
      intro l
      induction l with
      | nil => intro w _ h _ _; exact h
      | cons o l ih =>
        intro w hr h hl ha
        exact ih (hr.step o (hl o (List.mem_cons_self ..)))
          (Cold.tenant hc hr o (hl o (List.mem_cons_self ..)) (ha o (List.mem_cons_self ..)) h)
          (fun o h => hl o (List.mem_cons_of_mem _ h)) (fun o h => ha o (List.mem_cons_of_mem _ h))
    have k2 := (C160 hc hr1 hp (ht _ hr h hl1 ha1) l2 (fun o h => hl o (by simp [h])) (fun o h => ha o (by simp [h]))).1
    rw [← run_append] at k2
    rw [show l1 ++ o :: l2 = l1 ++ [o] ++ l2 by simp]
    omega

namespace Demo

/-- account 1 has two NFTs for sale in its own marketplace, at 500 and 300 -/
def stall : List Op := [mint1, by_ 1 (.nft (.createNft [7] .zero none false)), by_ 1 (.mkt (.create .pub)),
  by_ 1 (.mkt (.list 0 0 500)), by_ 1 (.mkt (.list 1 0 300))]

end Demo

/-- one NFT is sold, somebody tries to buy the other one too cheaply -/
example : (Demo.at_ Demo.stall).bal.freeOf 1 + 750 ≤
    (run Demo.cfg (Demo.at_ Demo.stall) [Demo.by_ 2 (.mkt (.buy 0 500)), .tick, Demo.by_ 3 (.mkt (.buy 1 200))]).bal.freeOf 1 + 300 :=
  C162 (y := 1) Demo.cfg_ok (Demo.reach Demo.stall (by decide)) (by decide)
    ⟨fun n ⟨l, h, _⟩ => by rw [show (Demo.at_ Demo.stall).rent.offers = .empty from rfl] at h; simp at h,
     fun n k h => by rw [show (Demo.at_ Demo.stall).rent.contracts = .empty from rfl] at h; simp at h⟩
    [Demo.by_ 2 (.mkt (.buy 0 500)), .tick, Demo.by_ 3 (.mkt (.buy 1 200))] (by decide) (by simp [Demo.by_, Spec.Absent])
    (L := [0, 1]) (by decide)

example : (Demo.at_ Demo.stall).mkt.sales.get 0 = some ⟨1, 0, 500, none⟩ ∧ Spec.askedNet (Demo.at_ Demo.stall) 1 0 = 450 ∧
    (run Demo.cfg (Demo.at_ Demo.stall) [Demo.by_ 2 (.mkt (.buy 0 500))]).mkt.sales.get 0 = none ∧
    (run Demo.cfg (Demo.at_ Demo.stall) [Demo.by_ 2 (.mkt (.buy 0 500))]).bal.freeOf 1 = (Demo.at_ Demo.stall).bal.freeOf 1 + 500 := by
  decide
