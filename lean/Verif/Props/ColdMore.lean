import Verif.Props.Cold
import Verif.Props.Content
import Verif.Props.Market
/-
Property C160, continued: what else an account keeps that does nothing.
-/
variable {c : Cfg} {w w' : World} {y : AccountId}
set_option maxRecDepth 10000

/-- The NFTs keep their content: link, royalty, creator, secret and capsule. -/
theorem C160_content (hc : c.Ok) (hr : Reach c w) (hp : ¬ c.pot y) (h : Spec.NoTenant w y) (l : List Op) (hl : ∀ o ∈ l, o.Ok c)
    (ha : ∀ o ∈ l, Spec.Absent y o) {n : NFTId} (hk : Spec.Keeps w y n) : Spec.content (run c w l) n = Spec.content w n := by
  induction l generalizing w with
  | nil => rfl
  | cons o l ih =>
    have ho := hl o (List.mem_cons_self ..)
    have ho' := ha o (List.mem_cons_self ..)
    refine (ih (hr.step o ho) (Cold.tenant hc hr o ho ho' h) (fun o h => hl o (List.mem_cons_of_mem _ h))
      (fun o h => ha o (List.mem_cons_of_mem _ h)) (Cold.keeps hc hr hp o ho ho' h hk)).trans ?_
    obtain ⟨⟨d, hd, rfl⟩, _⟩ := hk
    rcases C78 hc hr ho hd with e | ⟨e, _⟩ | ⟨x, x', _, _, e⟩
    · exact e
    · exact absurd e (ho'.1 _)
    · cases e <;> exact absurd rfl (ho'.1 _)

/-- The marketplaces of the account stay as they are. -/
theorem C160_market (hr : Reach c w) (l : List Op) (hl : ∀ o ∈ l, o.Ok c) (ha : ∀ o ∈ l, Spec.Absent y o) {m : MktId} {k : Mkt}
    (hk : w.mkt.mkts.get m = some k) (hy : k.owner = y) : (run c w l).mkt.mkts.get m = some k := by
  induction l generalizing w with
  | nil => exact hk
  | cons o l ih =>
    have ho := hl o (List.mem_cons_self ..)
    have ho' := ha o (List.mem_cons_self ..)
    refine ih (hr.step o ho) (fun o h => hl o (List.mem_cons_of_mem _ h)) (fun o h => ha o (List.mem_cons_of_mem _ h)) ?_
    subst hy
    obtain ⟨k', h1, h2⟩ := C17 w o ho ((C17_ids hr m).1 (by rw [hk]; simp)) hk
    rcases h2 with rfl | ⟨_, e, _⟩ | ⟨_, e, _⟩ | ⟨_, _, _, _, _, e, _⟩
    · exact h1
    · exact absurd e (ho'.1 _)
    · exact absurd e (ho'.1 _)
    · exact absurd e (ho'.1 _)

/-- The collections of the account stay its own. -/
theorem C160_collection (hc : c.Ok) (hr : Reach c w) (l : List Op) (hl : ∀ o ∈ l, o.Ok c) (ha : ∀ o ∈ l, Spec.Absent y o) {k : CollId}
    (hk : ∃ x, w.nft.colls.get k = some x ∧ x.owner = y) : ∃ x, (run c w l).nft.colls.get k = some x ∧ x.owner = y := by
  induction l generalizing w with
  | nil => exact hk
  | cons o l ih =>
    have ho := hl o (List.mem_cons_self ..)
    have ho' := ha o (List.mem_cons_self ..)
    refine ih (hr.step o ho) (fun o h => hl o (List.mem_cons_of_mem _ h)) (fun o h => ha o (List.mem_cons_of_mem _ h)) ?_
    obtain ⟨x, hx, rfl⟩ := hk
    rcases C09_step hc hr o ho hx with ⟨e, _⟩ | ⟨x', h1, h2, _⟩
    · exact absurd e (ho'.1 _)
    · exact ⟨x', h1, h2⟩

namespace Demo

/-- account 1 has an NFT, a collection and a marketplace -/
def owning : List Op := [mint1, by_ 1 (.nft (.createColl [5] none)), by_ 1 (.mkt (.create .pub))]

theorem owning_out : Spec.NoTenant (at_ owning) 1 :=
  ⟨fun n ⟨l, h, _⟩ => by rw [show (at_ owning).rent.offers = .empty from rfl] at h; simp at h,
   fun n k h => by rw [show (at_ owning).rent.contracts = .empty from rfl] at h; simp at h⟩

end Demo

example := C160_content (y := 1) Demo.cfg_ok (Demo.reach Demo.owning (by decide)) (by decide) Demo.owning_out Demo.elsewhere (by decide)
  (by simp [Demo.elsewhere, Demo.by_, Spec.Absent]) (n := 0) ⟨⟨_, rfl, rfl⟩, rfl, rfl, rfl, rfl, rfl⟩

example := C160_market (y := 1) (Demo.reach Demo.owning (by decide)) Demo.elsewhere (by decide)
  (by simp [Demo.elsewhere, Demo.by_, Spec.Absent]) (m := 0) rfl rfl

example := C160_collection (y := 1) Demo.cfg_ok (Demo.reach Demo.owning (by decide)) Demo.elsewhere (by decide)
  (by simp [Demo.elsewhere, Demo.by_, Spec.Absent]) (k := 0) ⟨_, rfl, rfl⟩
