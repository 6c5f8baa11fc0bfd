import Verif.Props.LifeSpec
import Verif.Props.Nft
import Verif.Proofs.Local
import Verif.Proofs.LocalHook
import Verif.Proofs.MktStep
import Verif.Proofs.AucTurn
import Verif.Props.Demo
/-
C100: the life cycle of an NFT.
-/
variable {c : Cfg} {w w' : World} {n : NFTId}
open Spec

namespace Life

/-- every NFT call that does not make an NFT needs its NFT -/
theorem made {a : AccountId} {x : NftM.Call} (h : NftM.call c w a x = .ok w') (hn : w.nfts.get n = none)
    (hs : w'.nfts.get n ≠ none) : makes x ∧ n = w.nft.nextNft := by
  have ht : some n = NftM.target w x := by
    by_contra hm
    exact hs ((congrArg Slice.nft (NftM.call_same h hm).slice).trans hn)
  have key := NftM.call_nfts h n
  generalize e : w'.nfts.get n = y at key hs
  cases key with
  | same => exact absurd hn hs
  | new d h1 =>
    refine ⟨?_, h1⟩
    cases x <;> simp only [makes, NftM.target, Option.some.injEq, reduceCtorEq] at ht ⊢ <;>
      simp only [NftM.call, NftM.addSecret, NftM.toCapsule, NftM.addSecretHelper, NftM.toCapsuleHelper, NftM.burnNft,
        NftM.transferNft, NftM.delegateNft, NftM.setRoyalty, NftM.addToColl, NftM.addSecretShard, NftM.setCapsuleData,
        NftM.addCapsuleShard, NftM.notifyKey, ← ht] at h <;>
      inv_ok at h <;> simp_all
  | burn d h1 h2 => rw [hn] at h2; simp at h2
  | transfer d _ h1 h2 => rw [hn] at h2; simp at h2
  | secretShard d _ _ h1 h2 => rw [hn] at h2; simp at h2
  | capsuleShard d _ _ h1 h2 => rw [hn] at h2; simp at h2
  | edit d _ h2 => rw [hn] at h2; simp at h2

/-- what an NFT call does to the delegation of `n` -/
theorem deleg {a : AccountId} {x : NftM.Call} (h : NftM.call c w a x = .ok w') :
    w'.nft.deleg.get n = w.nft.deleg.get n ∨
    (∃ r d, x = .delegateNft n r ∧ w.nfts.get n = some d ∧ d.owner = a ∧
      w'.nft.deleg.get n = if r.getD a ≠ a then some (r.getD a) else none) := by
  by_cases hm : some n = NftM.target w x
  · have hc : ∀ {w w' : World} {data roy coll sb}, NftM.createHelper c w a data roy coll sb = .ok w' →
        w'.nft.deleg = w.nft.deleg := by
      intro w w' data roy coll sb h
      obtain ⟨b, w1, _, h2, _, rfl⟩ := NftM.createHelper_ok h
      cases coll with
      | none => simp only [NftM.pushToColl] at h2; frame_auto at h2; rfl
      | some j => simp only [NftM.pushToColl] at h2; frame_auto at h2; rfl
    have hs : ∀ {w w' : World} {n data}, NftM.addSecretHelper c w a n data = .ok w' →
        w'.nft.deleg = w.nft.deleg := by
      intro w w' n data h
      simp only [NftM.addSecretHelper] at h; frame_auto at h; rfl
    have ht : ∀ {w w' : World} {n data}, NftM.toCapsuleHelper c w a n data = .ok w' →
        w'.nft.deleg = w.nft.deleg := by
      intro w w' n data h
      simp only [NftM.toCapsuleHelper] at h; frame_auto at h; rfl
    cases x <;> simp only [NftM.target, Option.some.injEq, reduceCtorEq] at hm <;>
      simp only [NftM.call] at h
    case delegateNft m r =>
      subst hm
      simp only [NftM.delegateNft] at h; inv_ok at h
      obtain ⟨d, hd, h1, _, _, _, _, _, rfl⟩ := h
      exact Or.inr ⟨r, d, rfl, hd, h1, by simp [FMap.get_set, World.putNft]⟩
    all_goals refine Or.inl (congrArg (fun f => FMap.get f n) ?_)
    case createNft => exact hc h
    case burnNft m =>
      simp only [NftM.burnNft] at h; inv_ok at h
      obtain ⟨d, w1, _, _, _, _, _, _, h5, rfl⟩ := h
      cases hcoll : d.coll <;> simp only [hcoll, NftM.dropFromColl] at h5 <;> frame_auto at h5 <;> rfl
    case transferNft => simp only [NftM.transferNft] at h; frame_auto at h; rfl
    case setRoyalty => simp only [NftM.setRoyalty] at h; frame_auto at h; rfl
    case addToColl => simp only [NftM.addToColl] at h; frame_auto at h; rfl
    case addSecret => exact hs h
    case createSecret =>
      simp only [NftM.createSecret] at h; inv_ok at h
      obtain ⟨w1, _, h1, h2⟩ := h
      exact (hs h2).trans (hc h1)
    case addSecretShard => simp only [NftM.addSecretShard] at h; frame_auto at h; rfl
    case toCapsule => exact ht h
    case createCapsule =>
      simp only [NftM.createCapsule] at h; inv_ok at h
      obtain ⟨w1, _, h1, h2⟩ := h
      exact (ht h2).trans (hc h1)
    case setCapsuleData => simp only [NftM.setCapsuleData] at h; frame_auto at h; rfl
    case addCapsuleShard => simp only [NftM.addCapsuleShard] at h; frame_auto at h; rfl
    case notifyKey => simp only [NftM.notifyKey] at h; frame_auto at h; rfl
  · exact Or.inl (congrArg Slice.deleg (NftM.call_same h hm).slice)

/-- the pallet whose records an operation can touch -/
inductive Part where
  | nft | mkt | auc | rent | tr | none
deriving DecidableEq

/-- see `Part` -/
def part : Op → Part
  | .call _ (.nft _) => .nft
  | .call _ (.mkt _) => .mkt
  | .call _ (.auc _) => .auc
  | .call _ (.rent _) => .rent
  | .call _ (.tr _) => .tr
  | .hookAuc => .auc
  | .hookRent => .rent
  | .hookTr => .tr
  | _ => .none

theorem frame_mkt (o : Op) (ho : o.Ok c) (h : part o ≠ .mkt) :
    (step c w o).mkt.sales.get n = w.mkt.sales.get n := by
  rcases step_mkt_case w o ho with ⟨a, x, rfl, _⟩ | e
  · exact absurd rfl h
  · rw [e]

theorem frame_auc (o : Op) (ho : o.Ok c) (h : part o ≠ .auc) :
    (step c w o).auc.auctions.get n = w.auc.auctions.get n := by
  rcases step_auc_case w o ho with ⟨a, x, rfl, _⟩ | ⟨rfl, _⟩ | e
  · exact absurd rfl h
  · exact absurd rfl h
  · rw [e]

theorem frame_rent (hc : c.Ok) (hr : Reach c w) (o : Op) (ho : o.Ok c) (h : part o ≠ .rent) :
    (step c w o).rent.contracts.get n = w.rent.contracts.get n := by
  rcases step_rent_case hc hr o ho with ⟨a, x, rfl, _⟩ | ⟨rfl, _⟩ | e
  · exact absurd rfl h
  · exact absurd rfl h
  · rw [e]

theorem frame_tr (hc : c.Ok) (hr : Reach c w) (o : Op) (ho : o.Ok c) (h : part o ≠ .tr) :
    (step c w o).tr.trans.get n = w.tr.trans.get n := by
  rcases step_tr_case hc hr o ho with ⟨a, x, rfl, _⟩ | rfl | ⟨e, _⟩
  · exact absurd rfl h
  · exact absurd rfl h
  · rw [e]

theorem frame_deleg (hc : c.Ok) (hr : Reach c w) (o : Op) (ho : o.Ok c) (h : part o ≠ .nft) :
    (step c w o).nft.deleg.get n = w.nft.deleg.get n := by
  rcases step_core hc hr o ho with ⟨a, x, rfl, _⟩ | ⟨_, e⟩
  · exact absurd rfl h
  · unfold NftSame at e; rw [e]

/-- the delegation of `n` changes by its owner's `delegateNft` -/
theorem step_deleg (hc : c.Ok) (hr : Reach c w) (o : Op) (ho : o.Ok c) :
    (step c w o).nft.deleg.get n = w.nft.deleg.get n ∨
    (∃ r d, o = .call (.signed d.owner) (.nft (.delegateNft n r)) ∧ w.nfts.get n = some d ∧
      (step c w o).nft.deleg.get n = if r.getD d.owner ≠ d.owner then some (r.getD d.owner) else none) := by
  rcases step_core hc hr o ho with ⟨a, x, rfl, _, hx⟩ | ⟨_, e⟩
  · rcases deleg (n := n) hx with h | ⟨r, d, rfl, hd, rfl, h⟩
    · exact Or.inl h
    · exact Or.inr ⟨r, d, rfl, hd, h⟩
  · left; unfold NftSame at e; rw [e]

/-- an auction appears by its creation -/
theorem new_auc (o : Op) (ho : o.Ok c) (h : w.auc.auctions.get n = none)
    (h' : (step c w o).auc.auctions.get n ≠ none) : ∃ d, w.nfts.get n = some d ∧
      ∃ m s e p bi, o = .call (.signed d.owner) (.auc (.create n m s e p bi)) ∧ w.now ≤ s ∧ s < e := by
  rcases step_auc_case w o ho with ⟨a, x, rfl, _, hx⟩ | ⟨rfl, hx⟩ | e
  · generalize step c w (.call (.signed a) (.auc x)) = w' at hx h'
    cases hx with
    | @create m k s e p bi d _ _ h1 h2 _ _ _ _ hd ha =>
      by_cases hn : n = m
      · subst hn; subst ha
        exact ⟨d, hd, _, _, _, _, _, rfl, h1, h2⟩
      · simp only [FMap.get_insert, if_neg hn] at h'
        exact absurd h h'
    | cancel _ hx => simp only [FMap.get_erase] at h'; split at h' <;> simp_all
    | end_ _ hx => simp only [FMap.get_erase] at h'; split at h' <;> simp_all
    | addBid hx => simp only [FMap.get_insert] at h'; split at h' <;> simp_all
    | removeBid hx => simp only [FMap.get_insert] at h'; split at h' <;> simp_all
    | buyItNow _ hx => simp only [FMap.get_erase] at h'; split at h' <;> simp_all
    | claim => exact absurd h h'
  · exfalso
    refine h' ?_
    clear h'
    generalize step c w .hookAuc = w' at hx
    induction hx with
    | refl => exact h
    | tail _ hp ih => cases hp <;> simp_all [FMap.get_erase, FMap.get_insert]
  · rw [e] at h'; exact absurd h h'

/-- a contract appears by its creation, without a rentee -/
theorem new_rent (hc : c.Ok) (hr : Reach c w) (o : Op) (ho : o.Ok c) (h : w.rent.contracts.get n = none) {k}
    (h' : (step c w o).rent.contracts.get n = some k) : k.rentee = none ∧ ∃ d, w.nfts.get n = some d ∧
      ∃ dur acc rv rf f g, o = .call (.signed d.owner) (.rent (.create n dur acc rv rf f g)) := by
  rcases step_rent_case hc hr o ho with ⟨a, x, rfl, _, hx⟩ | ⟨rfl, hx⟩ | e
  · generalize step c w (.call (.signed a) (.rent x)) = w' at hx h'
    cases hx with
    | @create m dur acc rv rf f1 f2 _ hx =>
      obtain ⟨d, b, q, _, hd, hw, hv, _, _, _, _, _, _, _, _, _, _, _, _, _, _, rfl⟩ := RentM.create_ok hx
      by_cases hn : n = m
      · subst hn
        simp only [FMap.get_insert_self, Option.some.injEq] at h'
        subst h'
        exact ⟨rfl, d, hd, _, _, _, _, _, _, by rw [hw]⟩
      · simp only [FMap.get_insert, if_neg hn] at h'
        rw [h] at h'; simp at h'
    | cancel hx => simp only [FMap.get_erase] at h'; split at h' <;> simp_all
    | revoke hx =>
      obtain ⟨k, r, d, b0, b1, b2, hk, hr, hp, hcr, hd, _, _, _, _, rfl⟩ := RentM.revoke_ok hx
      simp only [FMap.get_erase] at h'; split at h' <;> simp_all
    | start hk _ hs =>
      obtain ⟨F, S, e⟩ := hs.rent
      rw [e] at h'
      simp only [FMap.get_insert] at h'; split at h' <;> simp_all
    | makeOffer => rw [h] at h'; simp at h'
    | retractOffer => rw [h] at h'; simp at h'
    | changeTerms hx => simp only [FMap.get_insert] at h'; split at h' <;> simp_all
    | acceptTerms hx => simp only [FMap.get_insert] at h'; split at h' <;> simp_all
  · have := (RentM.Ticks.subset hx).1 n k h'
    rw [h] at this; simp at this
  · rw [e, h] at h'; simp at h'

/-- a protocol appears by its owner setting it -/
theorem new_tr (hc : c.Ok) (hr : Reach c w) (o : Op) (ho : o.Ok c) (h : w.tr.trans.get n = none)
    (h' : (step c w o).tr.trans.get n ≠ none) : ∃ d, w.nfts.get n = some d ∧
      ∃ r p k, o = .call (.signed d.owner) (.tr (.set n r p k)) ∧ r ≠ d.owner := by
  rcases step_tr_case hc hr o ho with ⟨a, x, rfl, _, hx⟩ | rfl | ⟨e, _⟩
  · generalize step c w (.call (.signed a) (.tr x)) = w' at hx h'
    cases x <;> simp only [TrM.call] at hx
    case set m r p k =>
      simp only [TrM.set] at hx; inv_ok at hx
      obtain ⟨d, q, b, _, hd, rfl, h2, hx⟩ := hx
      repeat' (obtain ⟨_, hx⟩ := hx)
      by_cases hn : n = m
      · subst hn; exact ⟨d, hd, r, p, k, rfl, Ne.symm h2⟩
      · simp only [World.ev, FMap.get_insert, if_neg hn] at h'
        exact absurd h h'
    case remove m =>
      simp only [TrM.remove] at hx; inv_ok at hx
      obtain ⟨d, t, _, _, _, ht, _, rfl⟩ := hx
      refine absurd ?_ h'
      cases t.protocol <;> simp [TrM.cleanup, TrM.kind, FMap.get_erase, h, World.putNft, World.ev]
    case resetTimer m b =>
      simp only [TrM.resetTimer] at hx; inv_ok at hx
      obtain ⟨d, t, q, _, _, _, ht, _, _, _, _, rfl⟩ := hx
      refine absurd ?_ h'
      have : n ≠ m := by rintro rfl; rw [h] at ht; simp at ht
      simp [FMap.get_insert, this, h, World.ev]
    case addConsent m =>
      obtain ⟨d, t, y, _, _, ht, _, _, _, _, _, hx⟩ := TrM.addConsent_ok hx
      refine absurd ?_ h'
      rcases hx with ⟨_, rfl⟩ | ⟨_, _, rfl⟩ | ⟨_, e, q, _, _, _, _, rfl⟩ <;>
        simp [FMap.get_erase, h, World.ev]
  · exfalso
    have hi := hr.inv hc
    obtain ⟨h1, _⟩ := TrM.hook_exact (c := c) hi.tr hi.good
    by_cases hn : n ∈ Queue.ids (TrM.served c w)
    · obtain ⟨t, d', e1, e2, e3, e4⟩ := h1.on n hn
      rw [h] at e1; simp at e1
    · exact h' ((h1.off n hn).1.trans h)
  · rw [e] at h'; exact absurd h h'

end Life

/-- C100: in every reachable world every NFT id has exactly one use. -/
theorem C100_one (hc : c.Ok) (hr : Reach c w) (n : NFTId) : ∃! u, Is w n u := by
  have hg := (hr.inv hc).good n
  have rec' := C07_records hc hr (n := n)
  cases hd : w.nfts.get n with
  | none =>
    refine ⟨.absent, hd, fun u hu => ?_⟩
    simp only [hd, ne_eq, not_true, imp_false, not_or, not_not] at rec'
    obtain ⟨e1, e2, e3, e4, e5⟩ := rec'
    cases u <;> simp_all [Is]
  | some d =>
    obtain ⟨f1, f2, f3, f4, f5, -, -, -⟩ := C07_flags hc hr hd
    have g := hg.nft d hd
    have x1 := g.exL; have x2 := g.exR; have x3 := g.exT; have x4 := g.exD
    cases h1 : w.mkt.sales.get n <;> cases h2 : w.auc.auctions.get n <;> cases h3 : w.rent.contracts.get n <;>
      cases h4 : w.tr.trans.get n <;> cases h5 : w.nft.deleg.get n <;> simp_all
    case none.none.none.none.none =>
      exact ⟨.free, by simp_all [Is], fun u hu => by cases u <;> simp_all [Is]⟩
    case none.none.none.none.some =>
      exact ⟨.lent, by simp_all [Is], fun u hu => by cases u <;> simp_all [Is]⟩
    case none.none.none.some.none =>
      exact ⟨.transmission, by simp_all [Is], fun u hu => by cases u <;> simp_all [Is]⟩
    case none.none.some.none.none k =>
      cases h6 : k.rentee with
      | none => exact ⟨.offered, by simp_all [Is], fun u hu => by cases u <;> simp_all [Is]⟩
      | some r => exact ⟨.rented, by simp_all [Is], fun u hu => by cases u <;> simp_all [Is]⟩
    case none.some.none.none.none =>
      exact ⟨.auction, by simp_all [Is], fun u hu => by cases u <;> simp_all [Is]⟩
    case some.none.none.none.none =>
      exact ⟨.sale, by simp_all [Is], fun u hu => by cases u <;> simp_all [Is]⟩

/-- C100: whatever happens, an NFT keeps its use or takes one of the listed ways. -/
theorem C100 (hc : c.Ok) (hr : Reach c w) (o : Op) (ho : o.Ok c) {u v : Use} (hu : Is w n u)
    (hv : Is (step c w o) n v) : u = v ∨ Edge c w n u v o := by
  have hr' : Reach c (step c w o) := .step o hr ho
  have only : ∀ {t}, Is (step c w o) n t → t = v := fun ht => (C100_one hc hr' n).unique ht hv
  have stay : Is (step c w o) n u → u = v ∨ Edge c w n u v o := fun h => Or.inl (only h)
  have was : ∀ {t}, Is w n t → t = u := fun ht => (C100_one hc hr n).unique ht hu
  have hN : u ≠ .absent → w.nfts.get n ≠ none := fun h e => h (was (t := .absent) e).symm
  have hS : u ≠ .sale → w.mkt.sales.get n = none := fun h => by
    by_contra e; exact h (was (t := .sale) e).symm
  have hA : u ≠ .auction → w.auc.auctions.get n = none := fun h => by
    by_contra e; exact h (was (t := .auction) e).symm
  have hD : u ≠ .lent → w.nft.deleg.get n = none := fun h => by
    by_contra e; exact h (was (t := .lent) e).symm
  have hT : u ≠ .transmission → w.tr.trans.get n = none := fun h => by
    by_contra e; exact h (was (t := .transmission) e).symm
  have hR : u ≠ .offered → u ≠ .rented → w.rent.contracts.get n = none := fun h h' => by
    cases e : w.rent.contracts.get n with
    | none => rfl
    | some k =>
      cases e' : k.rentee with
      | none => exact absurd (was (t := .offered) ⟨k, e, e'⟩).symm h
      | some r => exact absurd (was (t := .rented) ⟨k, r, e, e'⟩).symm h'
  have hN' : u ≠ .absent → u ≠ .free → (step c w o).nfts.get n ≠ none := fun h1 h2 e => by
    obtain ⟨d, hd⟩ := Option.ne_none_iff_exists'.1 (hN h1)
    obtain ⟨-, f1, f2, f3, f4⟩ := C04 hc hr o ho hd e
    obtain ⟨g1, -, g2, g3, g4, -⟩ := C07_flags hc hr hd
    refine h2 (was (t := .free) ⟨hN h1, ?_, ?_, ?_, ?_, ?_⟩).symm <;> simp_all
  have free : (step c w o).nfts.get n ≠ none → (step c w o).mkt.sales.get n = none →
      (step c w o).auc.auctions.get n = none → (step c w o).rent.contracts.get n = none →
      (step c w o).nft.deleg.get n = none → (step c w o).tr.trans.get n = none → v = .free :=
    fun h1 h2 h3 h4 h5 h6 => (only (t := .free) ⟨h1, h2, h3, h4, h5, h6⟩).symm
  have fM := Life.frame_mkt (w := w) (n := n) o ho
  have fA := Life.frame_auc (w := w) (n := n) o ho
  have fR := Life.frame_rent (n := n) hc hr o ho
  have fT := Life.frame_tr (n := n) hc hr o ho
  have fD := Life.frame_deleg (n := n) hc hr o ho
  by_cases h0 : u = .absent ∨ u = .free
  · have hs := hS (by rcases h0 with rfl | rfl <;> simp)
    have ha := hA (by rcases h0 with rfl | rfl <;> simp)
    have hd := hD (by rcases h0 with rfl | rfl <;> simp)
    have ht := hT (by rcases h0 with rfl | rfl <;> simp)
    have hk := hR (by rcases h0 with rfl | rfl <;> simp) (by rcases h0 with rfl | rfl <;> simp)
    have nf : ∀ {d}, w.nfts.get n = some d → u = .free := fun hd => by
      rcases h0 with rfl | rfl
      · have : w.nfts.get n = none := hu
        rw [hd] at this; simp at this
      · rfl
    cases v with
    | absent =>
      rcases h0 with rfl | rfl
      · exact Or.inl rfl
      · obtain ⟨d, hd⟩ := Option.ne_none_iff_exists'.1 hu.1
        obtain ⟨rfl, -⟩ := C04 hc hr o ho hd hv
        exact Or.inr (.burn hd)
    | free =>
      rcases h0 with rfl | rfl
      · have hu : w.nfts.get n = none := hu
        rcases step_core hc hr o ho with ⟨a, x, rfl, _, hx⟩ | ⟨h2, _⟩
        · obtain ⟨h1, h2⟩ := Life.made hx hu hv.1
          exact Or.inr (.mint h1 h2)
        · exact absurd (h2.dom hu) hv.1
      · exact Or.inl rfl
    | sale =>
      have key := step_sale w o ho n
      generalize e : (step c w o).mkt.sales.get n = y at key
      cases key with
      | same => exact absurd (e.trans hs) hv
      | list hd ha =>
        subst ha; rw [nf hd]; exact Or.inr (.list hd)
      | unlist => exact absurd e hv
      | buy => exact absurd e hv
    | auction =>
      obtain ⟨d, hd, m, s, e, p, bi, rfl, h1, h2⟩ := Life.new_auc o ho ha hv
      rw [nf hd]; exact Or.inr (.auction hd h1 h2)
    | offered =>
      obtain ⟨k, hv, _⟩ := hv
      obtain ⟨_, d, hd, _, _, _, _, _, _, rfl⟩ := Life.new_rent hc hr o ho hk hv
      rw [nf hd]; exact Or.inr (.offer hd)
    | rented =>
      obtain ⟨k, r, hv, h1⟩ := hv
      obtain ⟨h2, _⟩ := Life.new_rent hc hr o ho hk hv
      rw [h1] at h2; simp at h2
    | lent =>
      rcases Life.step_deleg (n := n) hc hr o ho with e | ⟨r, d, rfl, h1, h2⟩
      · exact absurd (e.trans hd) hv
      · have h3 : r.getD d.owner ≠ d.owner := by
          intro e; rw [if_neg (by simpa using e)] at h2; exact hv h2
        cases r with
        | none => simp at h3
        | some r => rw [nf h1]; exact Or.inr (.lend h1 h3)
    | transmission =>
      obtain ⟨d, hd, r, p, k, rfl, h1⟩ := Life.new_tr hc hr o ho ht hv
      rw [nf hd]; exact Or.inr (.bequeath hd h1)
  · have h0a : u ≠ .absent := fun e => h0 (Or.inl e)
    have h0f : u ≠ .free := fun e => h0 (Or.inr e)
    have hn' := hN' h0a h0f
    obtain ⟨d, hd⟩ := Option.ne_none_iff_exists'.1 (hN h0a)
    cases u with
    | absent => exact absurd rfl h0a
    | free => exact absurd rfl h0f
    | sale =>
      have ha := hA (by simp); have hd' := hD (by simp); have ht := hT (by simp); have hk := hR (by simp) (by simp)
      have key := step_sale w o ho n
      generalize e : (step c w o).mkt.sales.get n = y at key
      cases key with
      | same => exact stay (by show _ ≠ none; rw [e]; exact hu)
      | list => exact stay (by show _ ≠ none; rw [e]; simp)
      | unlist h1 h2 =>
        rw [free hn' e ((fA (by simp [Life.part])).trans ha) ((fR (by simp [Life.part])).trans hk) ((fD (by simp [Life.part])).trans hd')
          ((fT (by simp [Life.part])).trans ht)]
        subst h2; exact Or.inr (.unlist h1)
      | buy h1 h2 =>
        rw [free hn' e ((fA (by simp [Life.part])).trans ha) ((fR (by simp [Life.part])).trans hk) ((fD (by simp [Life.part])).trans hd')
          ((fT (by simp [Life.part])).trans ht)]
        exact Or.inr (.buy h1 (Ne.symm h2))
    | auction =>
      have hs := hS (by simp); have hd' := hD (by simp); have ht := hT (by simp); have hk := hR (by simp) (by simp)
      obtain ⟨x, hx⟩ := Option.ne_none_iff_exists'.1 hu
      have key := step_auc_turn hc hr o ho hx hd
      have fr : Life.part o = .auc → (step c w o).auc.auctions.get n = none → v = .free := fun h1 h2 =>
        free hn' ((fM (by simp [h1])).trans hs) h2 ((fR (by simp [h1])).trans hk) ((fD (by simp [h1])).trans hd')
          ((fT (by simp [h1])).trans ht)
      generalize hw : step c w o = w' at key
      rw [hw] at fr stay
      cases key with
      | stay h => exact stay (by show _ ≠ none; rw [h]; simp)
      | cancel h1 h2 => rw [fr rfl h2]; exact Or.inr (.cancelAuction hx h1)
      | bid _ _ _ _ h => exact stay (by show _ ≠ none; rw [h]; simp)
      | withdraw _ _ h => exact stay (by show _ ≠ none; rw [h]; simp)
      | end_ h1 h2 h3 =>
        rw [fr rfl h3]; exact Or.inr (.endAuction hx h1 (by rintro e; rw [e] at h2; simp at h2))
      | buy h1 h2 h3 _ h4 => rw [fr rfl h4]; exact Or.inr (.buyNow hx h1 h2 h3)
      | won h1 _ _ h2 => rw [fr rfl h2]; exact Or.inr (.auctionOver hx h1)
      | noBid h1 _ _ h2 => rw [fr rfl h2]; exact Or.inr (.auctionOver hx h1)
    | offered =>
      have hs := hS (by simp); have ha := hA (by simp); have hd' := hD (by simp); have ht := hT (by simp)
      obtain ⟨k, hk, hk'⟩ := hu
      have key := step_rent_turn hc hr o ho hk
      have fr : Life.part o = .rent → (step c w o).rent.contracts.get n = none → v = .free := fun h1 h2 =>
        free hn' ((fM (by simp [h1])).trans hs) ((fA (by simp [h1])).trans ha) h2 ((fD (by simp [h1])).trans hd')
          ((fT (by simp [h1])).trans ht)
      generalize hw : step c w o = w' at key
      rw [hw] at fr stay only
      cases key with
      | stay h => exact stay ⟨k, h, hk'⟩
      | cancel _ h => rw [fr rfl h]; exact Or.inr (.cancelOffer hk)
      | revoke h => rw [hk'] at h; simp at h
      | start _ h1 _ h2 =>
        rw [← only (t := .rented) ⟨_, _, h2, rfl⟩]
        rcases h1 with ⟨rfl, rfl, _, h3, _⟩ | ⟨rfl, rfl, l, h3, h4⟩
        · exact Or.inr (.rent hk (Ne.symm h3))
        · exact Or.inr (.acceptOffer hk h3 h4)
      | change _ _ h => exact stay ⟨_, h, hk'⟩
      | accept h => rw [hk'] at h; simp at h
      | over h1 h2 h3 h4 =>
        rw [fr rfl h4]
        cases h3 with
        | unused _ h => exact Or.inr (.expire hk (by rw [← RentM.Ticks.now h1]; exact h))
        | fixed h => rw [hk'] at h; simp at h
        | sub h => rw [hk'] at h; simp at h
    | rented =>
      have hs := hS (by simp); have ha := hA (by simp); have hd' := hD (by simp); have ht := hT (by simp)
      obtain ⟨k, r, hk, hk'⟩ := hu
      have key := step_rent_turn hc hr o ho hk
      have fr : Life.part o = .rent → (step c w o).rent.contracts.get n = none → v = .free := fun h1 h2 =>
        free hn' ((fM (by simp [h1])).trans hs) ((fA (by simp [h1])).trans ha) h2 ((fD (by simp [h1])).trans hd')
          ((fT (by simp [h1])).trans ht)
      generalize hw : step c w o = w' at key
      rw [hw] at fr stay only
      cases key with
      | stay h => exact stay ⟨k, r, h, hk'⟩
      | cancel h => rw [hk'] at h; simp at h
      | revoke h1 h2 h3 =>
        rw [fr rfl h3]
        rcases h2 with rfl | ⟨rfl, h2⟩
        · exact Or.inr (.giveBack hk h1)
        · exact Or.inr (.takeBack hk h2)
      | start h => rw [hk'] at h; simp at h
      | change _ _ h => exact stay ⟨_, r, h, hk'⟩
      | accept _ _ _ _ _ h => exact stay ⟨_, r, h, hk'⟩
      | over h1 h2 h3 h4 =>
        rw [fr rfl h4]
        have hn := RentM.Ticks.now h1
        cases h3 with
        | unused h => rw [hk'] at h; simp at h
        | fixed _ h5 h6 h7 => exact Or.inr (.fixedOver hk h5 h6 (by rw [← hn]; exact h7))
        | sub _ _ h5 _ h6 h7 =>
          obtain ⟨b, h8, h9⟩ := (RentM.Ticks.subset h1).2 _ _ h6 (by rw [← hn]; exact h7)
          exact Or.inr (.periodOver hk h5 h8 h9)
    | lent =>
      have hs := hS (by simp); have ha := hA (by simp); have ht := hT (by simp); have hk := hR (by simp) (by simp)
      rcases Life.step_deleg (n := n) hc hr o ho with e | ⟨r, d', rfl, h1, h2⟩
      · exact stay (by show _ ≠ none; rw [e]; exact hu)
      · by_cases h3 : r.getD d'.owner = d'.owner
        · rw [if_neg (by simpa using h3)] at h2
          rw [free hn' ((fM (by simp [Life.part])).trans hs) ((fA (by simp [Life.part])).trans ha) ((fR (by simp [Life.part])).trans hk) h2
            ((fT (by simp [Life.part])).trans ht)]
          refine Or.inr (.takeHome h1 ?_)
          cases r <;> simp_all
        · rw [if_pos h3] at h2
          exact stay (by show _ ≠ none; rw [h2]; simp)
    | transmission =>
      have hs := hS (by simp); have ha := hA (by simp); have hd' := hD (by simp); have hk := hR (by simp) (by simp)
      obtain ⟨x, hx⟩ := Option.ne_none_iff_exists'.1 hu
      have key := step_tr_move hc hr o ho hx hd
      have fr : Life.part o = .tr → (step c w o).tr.trans.get n = none → v = .free := fun h1 h2 =>
        free hn' ((fM (by simp [h1])).trans hs) ((fA (by simp [h1])).trans ha) ((fR (by simp [h1])).trans hk)
          ((fD (by simp [h1])).trans hd') h2
      generalize hw : step c w o = w' at key
      rw [hw] at fr stay
      cases key with
      | stay h => exact stay (by show _ ≠ none; rw [h]; simp)
      | reset _ _ h => exact stay (by show _ ≠ none; rw [h]; simp)
      | removed h1 h2 => rw [fr rfl h2]; exact Or.inr (.withdraw hd hx h1)
      | hook _ h1 h2 h3 => rw [fr rfl h3]; exact Or.inr (.due hx h2 h1)
      | consent h1 _ h2 _ h3 _ _ h4 => rw [fr rfl h4]; exact Or.inr (.lastConsent hx h1 h2 h3)

/-- the use of an NFT, computed -/
def Life.use (w : World) (n : NFTId) : Use :=
  if (w.nfts.get n).isNone then .absent
  else if (w.mkt.sales.get n).isSome then .sale
  else if (w.auc.auctions.get n).isSome then .auction
  else match w.rent.contracts.get n with
    | some k => if k.rentee.isNone then .offered else .rented
    | none => if (w.nft.deleg.get n).isSome then .lent
      else if (w.tr.trans.get n).isSome then .transmission else .free

theorem Life.is_use (w : World) (n : NFTId) : Is w n (Life.use w n) := by
  unfold Life.use
  split
  · rename_i h; simpa [Is] using h
  · rename_i h0
    split
    · rename_i h; simpa [Is, ← Option.isSome_iff_ne_none] using h
    · rename_i h1
      split
      · rename_i h; simpa [Is, ← Option.isSome_iff_ne_none] using h
      · rename_i h2
        split
        · rename_i k hk
          split
          · rename_i h; exact ⟨k, hk, by simpa using h⟩
          · rename_i h; obtain ⟨r, hr⟩ := Option.ne_none_iff_exists'.1 (by simpa using h); exact ⟨k, r, hk, hr⟩
        · rename_i hk
          split
          · rename_i h; simpa [Is, ← Option.isSome_iff_ne_none] using h
          · rename_i h3
            split
            · rename_i h; simpa [Is, ← Option.isSome_iff_ne_none] using h
            · rename_i h4
              exact ⟨by simpa using h0, by simpa using h1, by simpa using h2, hk, by simpa using h3, by simpa using h4⟩

/-- C100: through any history, an NFT in use gets to another use only after it has been free again, except that one
offered for rent gets rented. -/
theorem C100_between (hc : c.Ok) (hr : Reach c w) (l : List Op) (hl : ∀ o ∈ l, o.Ok c) {u v : Use} (hu : Is w n u)
    (hv : Is (run c w l) n v) (h1 : u ≠ .absent) (h2 : u ≠ v) (h3 : ¬ (u = .offered ∧ v = .rented)) :
    ∃ l₁ l₂, l = l₁ ++ l₂ ∧ Is (run c w l₁) n .free := by
  induction l generalizing w u with
  | nil => exact absurd ((C100_one hc hr n).unique hu hv) h2
  | cons o t ih =>
    have hr' : Reach c (step c w o) := .step o hr (hl o (by simp))
    obtain ⟨m, hm, -⟩ := C100_one hc hr' n
    by_cases hf : m = .free
    · exact ⟨[o], t, rfl, hf ▸ hm⟩
    · by_cases hu' : u = .free
      · exact ⟨[], o :: t, rfl, hu' ▸ hu⟩
      · have next : m ≠ .absent → m ≠ v → ¬ (m = .offered ∧ v = .rented) →
            ∃ l₁ l₂, o :: t = l₁ ++ l₂ ∧ Is (run c w l₁) n .free := fun g1 g2 g3 => by
          obtain ⟨l₁, l₂, e, h⟩ := ih hr' (fun o ho => hl o (by simp [ho])) hm hv g1 g2 g3
          exact ⟨o :: l₁, l₂, by rw [e]; rfl, h⟩
        rcases C100 hc hr o (hl o (by simp)) hu hm with rfl | he
        · exact next h1 h2 h3
        · have : u = .offered ∧ m = .rented := by cases he <;> simp_all
          obtain ⟨rfl, rfl⟩ := this
          exact next (by simp) (fun e => h3 ⟨rfl, e.symm⟩) (by simp)

/-- NFT 0 through all uses: minted, sold, auctioned without a bid, bought in an auction, offered and withdrawn, rented and
given back, lent, in transmission by consent, and burnt -/
abbrev tour : List Op :=
  [Demo.mint1, Demo.by_ 2 (.mkt (.create .pub)),
   Demo.by_ 1 (.mkt (.list 0 0 100)), Demo.by_ 2 (.mkt (.buy 0 100)),
   Demo.by_ 2 (.auc (.create 0 0 1 10 50 (some 90))), .tick, Demo.by_ 3 (.auc (.buyItNow 0 90)),
   Demo.by_ 3 (.rent (.create 0 (.fixed 5) (.auto none) true (.tokens 20) .none .none)),
   Demo.by_ 3 (.rent (.cancel 0)),
   Demo.by_ 3 (.rent (.create 0 (.fixed 5) (.auto none) true (.tokens 20) .none .none)),
   Demo.by_ 4 (.rent (.rent 0 1)), Demo.by_ 4 (.rent (.revoke 0)),
   Demo.by_ 3 (.nft (.delegateNft 0 (some 5))), Demo.by_ 3 (.nft (.delegateNft 0 none)),
   Demo.by_ 3 (.tr (.set 0 6 (.onConsent [7] 1) .none)), Demo.by_ 7 (.tr (.addConsent 0)),
   Demo.by_ 6 (.nft (.burnNft 0))]

example : (List.range 18).map (fun i => Life.use (Demo.at_ (tour.take i)) 0) =
    [.absent, .free, .free, .sale, .free, .auction, .auction, .free, .offered, .free, .offered, .rented, .free,
     .lent, .free, .transmission, .free, .absent] ∧ (∀ o ∈ tour, o.Ok Demo.cfg) := by
  refine ⟨by decide +kernel, by decide⟩

/-- … and by the scheduled work: an auction and an offer that run out, a rent and a subscription that end, a transmission at a
block -/
abbrev tourHooks : List Op :=
  [Demo.mint1, Demo.by_ 2 (.mkt (.create .pub)), Demo.by_ 1 (.auc (.create 0 0 0 5 50 none))] ++ Demo.ticks 5 ++
  [.hookAuc,
   Demo.by_ 1 (.rent (.create 0 (.fixed 5) (.auto none) true (.tokens 20) .none .none))] ++ Demo.ticks 20 ++ [.hookRent,
   Demo.by_ 1 (.rent (.create 0 (.fixed 5) (.auto none) true (.tokens 20) .none .none)),
   Demo.by_ 4 (.rent (.rent 0 25))] ++ Demo.ticks 5 ++ [.hookRent,
   Demo.by_ 1 (.rent (.create 0 (.sub 5 (some 10) false) (.auto none) true (.tokens 20) .none .none)),
   Demo.by_ 4 (.rent (.rent 0 30))] ++ Demo.ticks 5 ++ [.hookRent] ++ Demo.ticks 5 ++ [.hookRent,
   Demo.by_ 1 (.tr (.set 0 6 (.atBlock 45) .none))] ++ Demo.ticks 5 ++ [.hookTr]

example : ([2, 3, 8, 9, 10, 30, 31, 32, 33, 38, 39, 40, 41, 47, 52, 53, 54, 59, 60].map fun i =>
    Life.use (Demo.at_ (tourHooks.take i)) 0) =
    [.free, .auction, .auction, .free, .offered, .offered, .free, .offered, .rented, .rented, .free, .offered, .rented,
     .rented, .rented, .free, .transmission, .transmission, .free] ∧ (∀ o ∈ tourHooks, o.Ok Demo.cfg) := by
  refine ⟨by decide +kernel, by decide⟩

/-- NFT 0 is in an auction with a bid -/
abbrev bidOn : List Op :=
  [Demo.mint1, Demo.by_ 2 (.mkt (.create .pub)), Demo.by_ 1 (.auc (.create 0 0 0 5 50 none)),
   Demo.by_ 3 (.auc (.addBid 0 60))]

-- NFT 0 is in an auction
example := C100_one Demo.cfg_ok (Demo.reach bidOn (by decide)) 0

-- the auction hook ends it
example := C100 Demo.cfg_ok (Demo.reach (bidOn ++ Demo.ticks 5) (by decide)) .hookAuc (by decide) (n := 0)
  (u := .auction) (v := .free) (by unfold Is; decide) (by unfold Is; decide)

-- between the auction and a delegation it is free
example := C100_between Demo.cfg_ok (Demo.reach bidOn (by decide))
  (Demo.ticks 5 ++ [.hookAuc, Demo.by_ 3 (.nft (.delegateNft 0 (some 5)))]) (by decide) (n := 0)
  (u := .auction) (v := .lent) (by unfold Is; decide) (by unfold Is; decide) (by decide) (by decide) (by decide)
