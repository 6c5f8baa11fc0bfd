import Verif.Proofs.AucActs
/-
Invariant of the auction pallet: bids, schedule, claims.
-/
variable {c : Cfg} {w w' : World} {a : AccountId}

namespace AucM

/-! ## bid lists -/

theorem removeBid_sublist {a} {l : List (AccountId × Balance)} : (removeBid a l).Sublist l := by
  induction l with
  | nil => simp [removeBid]
  | cons y t ih =>
    obtain ⟨m, z⟩ := y
    simp only [removeBid]
    split
    · exact List.sublist_cons_self _ _
    · exact ih.cons_cons _

theorem removeBid_iff {a} {l : List (AccountId × Balance)} (h : (l.map Prod.fst).Nodup) {x} :
    x ∈ removeBid a l ↔ x ∈ l ∧ x.1 ≠ a := by
  induction l with
  | nil => simp [removeBid]
  | cons y t ih =>
    obtain ⟨m, z⟩ := y
    have hnd : m ∉ t.map Prod.fst ∧ (t.map Prod.fst).Nodup := by simpa using h
    have ih := ih hnd.2
    simp only [removeBid]
    split
    · rename_i hm
      subst hm
      constructor
      · intro hx
        refine ⟨List.mem_cons_of_mem _ hx, ?_⟩
        rintro rfl
        exact hnd.1 (List.mem_map_of_mem hx)
      · rintro ⟨h1, h2⟩
        rcases List.mem_cons.1 h1 with rfl | h1
        · exact absurd rfl h2
        · exact h1
    · rename_i hm
      simp only [List.mem_cons, ih]
      grind

theorem findBid_mem {a v} {l : List (AccountId × Balance)} (h : findBid a l = some v) : (a, v) ∈ l := by
  induction l with
  | nil => simp [findBid] at h
  | cons y t ih =>
    obtain ⟨m, z⟩ := y
    simp only [findBid] at h
    split at h
    · simp at h; subst_vars; simp
    · exact List.mem_cons_of_mem _ (ih h)

theorem findBid_none {a} {l : List (AccountId × Balance)} : findBid a l = none ↔ a ∉ l.map Prod.fst := by
  induction l with
  | nil => simp [findBid]
  | cons y t ih =>
    obtain ⟨m, z⟩ := y
    simp only [findBid]
    split
    · simp_all
    · rw [ih]; simp; grind

theorem findBid_iff {a v} {l : List (AccountId × Balance)} (h : (l.map Prod.fst).Nodup) :
    findBid a l = some v ↔ (a, v) ∈ l := by
  refine ⟨findBid_mem, fun hm => ?_⟩
  induction l with
  | nil => simp at hm
  | cons y t ih =>
    obtain ⟨m, z⟩ := y
    have hnd : m ∉ t.map Prod.fst ∧ (t.map Prod.fst).Nodup := by simpa using h
    simp only [findBid]
    rcases List.mem_cons.1 hm with e | hm
    · simp at e; simp [e]
    · have : m ≠ a := by rintro rfl; exact hnd.1 (List.mem_map_of_mem hm)
      rw [if_neg this]
      exact ih hnd.2 hm

theorem insertBid_ok {l l' a v dr} (h : insertBid c l a v = .ok (dr, l')) :
    (dr = none ∧ l' = l ++ [(a, v)] ∧ l.length < c.bidLimit) ∨
    (∃ x t, dr = some x ∧ l = x :: t ∧ l' = t ++ [(a, v)] ∧ c.bidLimit ≤ l.length) := by
  unfold insertBid at h
  split at h
  · split at h
    · simp at h
    · simp at h; right; exact ⟨_, _, h.1.symm, rfl, h.2.symm, by assumption⟩
  · simp at h; left; exact ⟨h.1.symm, h.2.symm, by omega⟩

theorem insertBid_rest {l l' a v dr} (h : insertBid c l a v = .ok (dr, l')) :
    ∃ t, t.Sublist l ∧ l' = t ++ [(a, v)] := by
  rcases insertBid_ok h with ⟨_, rfl, _⟩ | ⟨x, t, _, rfl, rfl, _⟩
  · exact ⟨l, .refl _, rfl⟩
  · exact ⟨t, List.sublist_cons_self _ _, rfl⟩

theorem insertBid_no_panic (hc : c.Ok) {l a v} : ∃ y, insertBid c l a v = .ok y := by
  have := hc.bid
  unfold insertBid
  split
  · split
    · simp_all
    · exact ⟨_, rfl⟩
  · exact ⟨_, rfl⟩

theorem last_max {l : List (AccountId × Balance)} (h : l.Pairwise (·.2 < ·.2)) {top}
    (ht : l.getLast? = some top) {x} (hx : x ∈ l) : x = top ∨ x.2 < top.2 := by
  obtain ⟨i, rfl⟩ := List.getLast?_eq_some_iff.1 ht
  rcases List.mem_append.1 hx with hx | hx
  · exact Or.inr ((List.pairwise_append.1 h).2.2 x hx top (by simp))
  · simp at hx; exact Or.inl hx

theorem beats_max {x : Auction} {v : Balance} (h : beats x v = true)
    (hl : x.bids.Pairwise (·.2 < ·.2)) (hs : ∀ y ∈ x.bids, x.startPrice < y.2) :
    x.startPrice < v ∧ ∀ y ∈ x.bids, y.2 < v := by
  unfold beats at h
  split at h
  · rename_i top ht
    have ht' := List.mem_of_getLast? ht
    have := hs top ht'
    simp at h
    refine ⟨by omega, fun y hy => ?_⟩
    rcases last_max hl ht hy with rfl | h' <;> omega
  · rename_i hn
    have : x.bids = [] := by simpa using hn
    simp at h
    exact ⟨h, by simp [this]⟩

/-! ## the invariant -/

/-- a running auction -/
structure AucOk (c : Cfg) (w : World) (n : NFTId) (x : Auction) : Prop where
  ladder : x.bids.Pairwise (·.2 < ·.2)
  one : (x.bids.map Prod.fst).Nodup
  len : x.bids.length ≤ c.bidLimit
  bid : ∀ y ∈ x.bids, y.1 ≠ x.creator ∧ x.startPrice < y.2 ∧ c.ed < y.2 ∧ ¬ c.pot y.1
  creator : ¬ c.pot x.creator
  times : x.start < x.fin
  begun : x.bids ≠ [] ∨ x.extended = true ∨ n ∉ Queue.ids w.auc.deadlines → x.start ≤ w.now
  mkt : w.mkt.mkts.get x.mkt ≠ none
  comm : ∃ f, w.auc.comm.get n = some f ∧ MktM.covers x.startPrice f = true
  buy : ∀ p ∈ x.buyIt, x.startPrice < p

structure Inv (c : Cfg) (w : World) : Prop where
  wf : Queue.WF w.auc.deadlines
  len : w.auc.deadlines.length ≤ c.aucLimit
  inQ : ∀ n e, (n, e) ∈ w.auc.deadlines → ∃ x, w.auc.auctions.get n = some x ∧ x.fin = e
  ok : ∀ n x, w.auc.auctions.get n = some x → AucOk c w n x
  claims : ∀ y v, w.auc.claims.get y = some v → c.ed < v ∧ ¬ c.pot y

/-- the parts `AucOk` looks at -/
theorem AucOk.mono {n x} (h : AucOk c w n x) (hn : w.now ≤ w'.now)
    (hm : ∀ m, w.mkt.mkts.get m ≠ none → w'.mkt.mkts.get m ≠ none)
    (hc : w'.auc.comm.get n = w.auc.comm.get n)
    (hq : n ∉ Queue.ids w'.auc.deadlines → n ∉ Queue.ids w.auc.deadlines ∨ x.start ≤ w'.now) :
    AucOk c w' n x := by
  obtain ⟨h1, h2, h3, h4, h5, h6, h7, h8, h9, h10⟩ := h
  refine ⟨h1, h2, h3, h4, h5, h6, ?_, hm _ h8, hc ▸ h9, h10⟩
  rintro (h | h | h)
  · have := h7 (Or.inl h); omega
  · have := h7 (Or.inr (Or.inl h)); omega
  · rcases hq h with h | h
    · have := h7 (Or.inr (Or.inr h)); omega
    · exact h

theorem addClaim_ok {m : FMap AccountId Balance} {y v}
    (hm : ∀ y v, m.get y = some v → c.ed < v ∧ ¬ c.pot y) (hv : c.ed < v) (hy : ¬ c.pot y) :
    ∀ z u, (addClaim m y v).get z = some u → c.ed < u ∧ ¬ c.pot z := by
  intro z u h
  simp only [addClaim, FMap.get_insert] at h
  split at h
  · simp at h; subst_vars; exact ⟨by omega, hy⟩
  · exact hm z u h

theorem addClaims_ok {m : FMap AccountId Balance} {l : List (AccountId × Balance)}
    (hm : ∀ y v, m.get y = some v → c.ed < v ∧ ¬ c.pot y) (hl : ∀ y ∈ l, c.ed < y.2 ∧ ¬ c.pot y.1) :
    ∀ z u, (addClaims m l).get z = some u → c.ed < u ∧ ¬ c.pot z := by
  unfold addClaims
  induction l generalizing m with
  | nil => exact hm
  | cons x t ih =>
    refine ih (addClaim_ok hm (hl x (by simp)).1 (hl x (by simp)).2) fun y hy => hl y (by simp [hy])

theorem addClaimOpt_ok {m : FMap AccountId Balance} {o : Option (AccountId × Balance)}
    (hm : ∀ y v, m.get y = some v → c.ed < v ∧ ¬ c.pot y) (ho : ∀ y ∈ o, c.ed < y.2 ∧ ¬ c.pot y.1) :
    ∀ z u, (addClaimOpt m o).get z = some u → c.ed < u ∧ ¬ c.pot z := by
  cases o with
  | none => exact hm
  | some x => exact addClaim_ok hm (ho x (by simp)).1 (ho x (by simp)).2

theorem Inv.init (hg : Genesis c w) : Inv c w := by
  obtain ⟨e1, e2, e3, e4⟩ := hg.auc
  refine ⟨by rw [e2]; exact .nil, by simp [e2], by simp [e2], by simp [e1], by simp [e3]⟩

/-- ending the auction of `n` -/
theorem Inv.ended (h : Inv c w) {n} {cl : FMap AccountId Balance} (hcl : ∀ y v, cl.get y = some v → c.ed < v ∧ ¬ c.pot y) {q : Queue}
    (hq : q.WF) (hl : q.length ≤ c.aucLimit) (hm : ∀ y, y ∈ q ↔ y ∈ w.auc.deadlines ∧ y.1 ≠ n)
    (hauc : w'.auc = { w.auc with
      claims := cl, auctions := w.auc.auctions.erase n, deadlines := q })
    (hnow : w'.now = w.now) (hmkt : w'.mkt = w.mkt) : Inv c w' := by
  refine ⟨by rw [hauc]; exact hq, by rw [hauc]; exact hl, ?_, ?_, by rw [hauc]; exact hcl⟩
  · intro m e hme
    rw [hauc] at hme ⊢
    obtain ⟨h1, h2⟩ := (hm _).1 hme
    obtain ⟨y, hy, he⟩ := h.inQ m e h1
    exact ⟨y, by simp only [FMap.get_erase]; rw [if_neg h2]; exact hy, he⟩
  · intro m y hy
    rw [hauc] at hy
    simp only [FMap.get_erase] at hy
    split at hy
    · simp at hy
    · rename_i hne
      refine (h.ok m y hy).mono (by omega) (by rw [hmkt]; simp) (by rw [hauc]) ?_
      intro hn
      rw [hauc] at hn
      left
      intro hin
      obtain ⟨e, he⟩ := Queue.mem_ids.1 hin
      exact hn (Queue.mem_ids.2 ⟨e, (hm _).2 ⟨he, hne⟩⟩)

theorem extend_eq (x : Auction) (now : Block) :
    extend c x now = if x.fin - now < c.grace then
      ({ x with fin := x.fin + (c.grace - (x.fin - now)), extended := true },
        some (x.fin + (c.grace - (x.fin - now)))) else (x, none) := rfl

theorem Inv.call (h : Inv c w) (ha : ¬ c.pot a) {x : Call} (hx : Act c w a x w') 
    (hg : ∀ n, Good c (slice w n)) : Inv c w' := by
  cases hx with
  | @create n m s e p bi d k q h1 h2 h3 h4 h5 h6 hd hown hl hk hal hcov hq =>
    have hnone : w.auc.auctions.get n = none := by
      have := ((hg n).nft d hd).listed.not.1 (by simp [hl])
      simp only [not_or, not_not] at this
      exact this.2
    have hnq : n ∉ Queue.ids w.auc.deadlines := by
      intro hin
      obtain ⟨e, he⟩ := Queue.mem_ids.1 hin
      obtain ⟨y, hy, _⟩ := h.inQ n e he
      rw [hnone] at hy; simp at hy
    obtain ⟨hlen, rfl⟩ := Queue.insert_some hq
    refine ⟨h.wf.ins hnq, by simp only [Queue.length_ins]; omega, ?_, ?_, h.claims⟩
    · intro m' e' hm
      simp only [Queue.mem_ins, Prod.mk.injEq] at hm
      simp only [FMap.get_insert]
      rcases hm with ⟨rfl, rfl⟩ | hm
      · exact ⟨_, by rw [if_pos rfl], rfl⟩
      · have : m' ≠ n := by rintro rfl; exact hnq (Queue.mem_ids.2 ⟨_, hm⟩)
        rw [if_neg this]; exact h.inQ _ _ hm
    · intro m' y hy
      simp only [FMap.get_insert] at hy
      split at hy
      · simp at hy; subst_vars
        exact {
          ladder := by simp
          one := by simp
          len := by simp
          bid := by simp
          creator := ha
          times := h2
          begun := by simp [Queue.mem_ids_ins]
          mkt := by simp [hk]
          comm := ⟨_, by simp, hcov⟩
          buy := h6 }
      · rename_i hne
        refine (h.ok m' y hy).mono (Nat.le_refl _) (fun _ h => h) (by simp [FMap.get_insert, hne]) ?_
        simp only [Queue.mem_ids_ins]; grind
  | @cancel n d x hd hx h1 h2 =>
    refine h.ended (addClaims_ok h.claims fun y hy => ((h.ok n x hx).bid y hy).2.2) h.wf.remove
      (Nat.le_trans Queue.length_remove_le h.len) (fun y => Queue.mem_remove h.wf) rfl rfl rfl
  | @end_ n d x top b hd hx h1 h2 h3 h4 =>
    refine h.ended (addClaims_ok h.claims fun y hy => ((h.ok n x hx).bid y
      (List.dropLast_subset _ hy)).2.2) h.wf.remove
      (Nat.le_trans Queue.length_remove_le h.len) (fun y => Queue.mem_remove h.wf) rfl rfl rfl
  | @buyItNow n p d x b hd hx h1 h2 h3 h4 h5 =>
    refine h.ended (addClaims_ok h.claims fun y hy => ((h.ok n x hx).bid y hy).2.2) h.wf.remove
      (Nat.le_trans Queue.length_remove_le h.len) (fun y => Queue.mem_remove h.wf) rfl rfl rfl
  | @claim v b h1 h2 =>
    refine ⟨h.wf, h.len, h.inQ, fun m y hy => (h.ok m y hy).mono (Nat.le_refl _) (fun _ h => h) rfl
      (fun h => Or.inl h), fun y v hy => ?_⟩
    simp only [FMap.get_erase] at hy
    split at hy
    · simp at hy
    · exact h.claims y v hy
  | @removeBid n x v b hx h1 h2 h3 =>
    have ho := h.ok n x hx
    refine ⟨h.wf, h.len, ?_, ?_, h.claims⟩
    · intro m e hm
      obtain ⟨y, hy, rfl⟩ := h.inQ m e hm
      simp only [FMap.get_insert]
      split
      · subst_vars
        rw [hx] at hy; simp at hy; subst hy
        exact ⟨_, rfl, rfl⟩
      · exact ⟨y, hy, rfl⟩
    · intro m y hy
      simp only [FMap.get_insert] at hy
      split at hy
      · simp at hy; subst_vars
        have hs := removeBid_sublist (a := a) (l := x.bids)
        exact {
          ladder := ho.ladder.sublist hs
          one := ho.one.sublist (hs.map _)
          len := Nat.le_trans hs.length_le ho.len
          bid := fun y hy => ho.bid y (hs.subset hy)
          creator := ho.creator
          times := ho.times
          begun := fun h => ho.begun (h.imp (fun h e => h (by simp [e, AucM.removeBid])) id)
          mkt := ho.mkt
          comm := ho.comm
          buy := ho.buy }
      · exact (h.ok m y hy).mono (Nat.le_refl _) (fun _ h => h) rfl (fun h => Or.inl h)
  | @addBid n v x b dr l q hx h1 h2 h3 h4 h5 h6 h7 =>
    have ho := h.ok n x hx
    obtain ⟨m1, m2⟩ := beats_max h4 ho.ladder (fun y hy => (ho.bid y hy).2.1)
    have hs := removeBid_sublist (a := a) (l := x.bids)
    obtain ⟨t, ht, hl⟩ := insertBid_rest h6
    have hmem : ∀ y ∈ t, y ∈ x.bids ∧ y.1 ≠ a := fun y hy =>
      (removeBid_iff ho.one).1 (ht.subset hy)
    have hlen : l.length ≤ c.bidLimit := by
      have := ho.len
      have := hs.length_le
      rcases insertBid_ok h6 with ⟨_, rfl, hl⟩ | ⟨z, t, _, e, rfl, _⟩
      · simp; omega
      · rw [e] at this; simp at this ⊢; omega
    have hd : ∀ y ∈ dr, c.ed < y.2 ∧ ¬ c.pot y.1 := by
      intro y hy
      rcases insertBid_ok h6 with ⟨rfl, _, hl⟩ | ⟨z, t, rfl, e, _, _⟩
      · simp at hy
      · simp at hy; subst hy
        exact (ho.bid z (hs.subset (by rw [e]; simp))).2.2
    have key : ∀ f : Block, ∀ ex : Bool, ∀ w' : World, x.start < f → w'.now = w.now → w'.mkt = w.mkt →
        w'.auc.comm = w.auc.comm →
        AucOk c w' n { x with bids := l, fin := f, extended := ex } := by
      intro f ex w' hf e1 e2 e3
      exact {
        ladder := by
          show l.Pairwise _
          subst hl
          refine List.pairwise_append.2 ⟨(ho.ladder.sublist hs).sublist ht, by simp, ?_⟩
          intro y hy z hz
          simp at hz; subst hz
          exact m2 y (hmem y hy).1
        one := by
          show (l.map _).Nodup
          subst hl
          rw [List.map_append]
          refine List.nodup_append.2 ⟨(ho.one.sublist (hs.map _)).sublist (ht.map _), by simp, ?_⟩
          intro y hy z hz
          simp at hz; subst hz
          obtain ⟨u, hu, rfl⟩ := List.mem_map.1 hy
          exact (hmem u hu).2
        len := hlen
        bid := by
          intro y hy
          have hy : y ∈ l := hy
          subst hl
          rcases List.mem_append.1 hy with hy | hy
          · exact ho.bid y (hmem y hy).1
          · simp at hy; subst hy; exact ⟨h1.symm, m1, h3, ha⟩
        creator := ho.creator
        times := hf
        begun := by rw [e1]; exact fun _ => h2
        mkt := by rw [e2]; exact ho.mkt
        comm := by rw [e3]; exact ho.comm
        buy := ho.buy }
    rw [extend_eq] at h7 ⊢
    split at h7
    · rename_i hlt
      rw [if_pos hlt]
      simp only [updateDeadline] at h7
      simp only at hlt
      have hf : x.start < x.fin + (c.grace - (x.fin - w.now)) := by have := ho.times; omega
      have hid : ∀ m, m ∈ Queue.ids q ↔ m ∈ Queue.ids w.auc.deadlines := by
        intro m
        rcases Queue.update_ok h7 with ⟨hn, rfl⟩ | ⟨hn, rfl⟩
        · rfl
        · rw [Queue.mem_ids_ins, Queue.mem_ids_remove h.wf]; grind
      refine ⟨?_, ?_, ?_, ?_, addClaimOpt_ok h.claims hd⟩
      · rcases Queue.update_ok h7 with ⟨hn, rfl⟩ | ⟨hn, rfl⟩
        · exact h.wf
        · exact h.wf.remove.ins (by rw [Queue.mem_ids_remove h.wf]; simp)
      · rcases Queue.update_ok h7 with ⟨hn, rfl⟩ | ⟨hn, rfl⟩
        · exact h.len
        · simp only [Queue.length_ins]
          rw [Queue.length_remove hn]; exact h.len
      · intro m e hm
        have hm : (m, e) ∈ q := hm
        have hin := (hid m).1 (Queue.mem_ids.2 ⟨e, hm⟩)
        simp only [FMap.get_insert]
        split
        · subst_vars
          rcases Queue.update_ok h7 with ⟨hn, rfl⟩ | ⟨hn, rfl⟩
          · exact absurd hin hn
          · simp only [Queue.mem_ins, Queue.mem_remove h.wf] at hm
            rcases hm with hm | hm
            · simp at hm; exact ⟨_, rfl, hm.symm⟩
            · simp at hm
        · rename_i hne
          rcases Queue.update_ok h7 with ⟨hn, rfl⟩ | ⟨hn, rfl⟩
          · exact h.inQ m e hm
          · simp only [Queue.mem_ins, Queue.mem_remove h.wf] at hm
            rcases hm with hm | hm
            · simp at hm; exact absurd hm.1 hne
            · exact h.inQ m e hm.1
      · intro m y hy
        simp only [FMap.get_insert] at hy
        split at hy
        · simp at hy; subst_vars
          exact key _ true _ hf rfl rfl rfl
        · refine (h.ok m y hy).mono (Nat.le_refl _) (fun _ h => h) rfl (fun h => Or.inl ?_)
          rw [← hid m]; exact h
    · rename_i hlt
      rw [if_neg hlt]
      simp only [updateDeadline, Except.ok.injEq] at h7
      subst h7
      refine ⟨h.wf, h.len, ?_, ?_, addClaimOpt_ok h.claims hd⟩
      · intro m e hm
        obtain ⟨y, hy, rfl⟩ := h.inQ m e hm
        simp only [FMap.get_insert]
        split
        · subst_vars
          rw [hx] at hy; simp at hy; subst hy
          exact ⟨_, rfl, rfl⟩
        · exact ⟨y, hy, rfl⟩
      · intro m y hy
        simp only [FMap.get_insert] at hy
        split at hy
        · simp at hy; subst_vars
          exact key x.fin x.extended _ ho.times rfl rfl rfl
        · exact (h.ok m y hy).mono (Nat.le_refl _) (fun _ h => h) rfl (fun h => Or.inl h)

theorem Inv.pop (h : Inv c w) (hx : Pop c w w') : Inv c w' := by
  have split : ∀ {n e t}, w.auc.deadlines = (n, e) :: t → Queue.WF t ∧ t.length ≤ c.aucLimit ∧
      n ∉ Queue.ids t ∧ ∀ y, y ∈ t ↔ y ∈ w.auc.deadlines ∧ y.1 ≠ n := by
    intro n e t hq
    have hwf := h.wf
    have hl := h.len
    rw [hq] at hwf hl ⊢
    refine ⟨hwf.tail, by simp at hl; omega, hwf.head, fun y => ?_⟩
    have hh := hwf.head
    constructor
    · intro hy
      exact ⟨List.mem_cons_of_mem _ hy, fun e => hh (e ▸ List.mem_map_of_mem hy)⟩
    · rintro ⟨h1, h2⟩
      rcases List.mem_cons.1 h1 with rfl | h1
      · exact absurd rfl h2
      · exact h1
  have drop : ∀ {n e t}, w.auc.deadlines = (n, e) :: t → e ≤ w.now →
      w'.auc = { w.auc with deadlines := t } → w'.now = w.now → w'.mkt = w.mkt → Inv c w' := by
    intro n e t hq he e1 e2 e3
    obtain ⟨s1, s2, s3, s4⟩ := split hq
    refine ⟨by rw [e1]; exact s1, by rw [e1]; exact s2, ?_, ?_, by rw [e1]; exact h.claims⟩
    · intro m f hm
      rw [e1] at hm ⊢
      exact h.inQ m f ((s4 _).1 hm).1
    · intro m y hy
      rw [e1] at hy
      have hok := h.ok m y hy
      refine hok.mono (by omega) (by rw [e3]; simp) (by rw [e1]) ?_
      rw [e1]
      intro hn
      by_cases hm : m = n
      · right
        subst hm
        obtain ⟨y', hy', hf⟩ := h.inQ m e (by rw [hq]; simp)
        rw [hy] at hy'; simp at hy'; subst hy'
        have := hok.times
        omega
      · left
        intro hin
        obtain ⟨f, hf⟩ := Queue.mem_ids.1 hin
        exact hn (Queue.mem_ids.2 ⟨f, (s4 _).2 ⟨hf, hm⟩⟩)
  cases hx with
  | @won n e t x d top b hq he hx hd htop hp =>
    obtain ⟨s1, s2, s3, s4⟩ := split hq
    exact h.ended (addClaims_ok h.claims fun y hy => ((h.ok n x hx).bid y
      (List.dropLast_subset _ hy)).2.2) s1 s2 s4 rfl rfl rfl
  | @noBid n e t x d hq he hx hd hn =>
    obtain ⟨s1, s2, s3, s4⟩ := split hq
    exact h.ended h.claims s1 s2 s4 rfl rfl rfl
  | missed hq he => exact drop hq he rfl rfl rfl
  | stray hq he => exact drop hq he rfl rfl rfl

theorem Inv.pops (h : Inv c w) (hx : Relation.ReflTransGen (Pop c) w w') : Inv c w' := by
  induction hx with
  | refl => exact h
  | tail _ h1 ih => exact ih.pop h1

end AucM

/-- marketplaces stay -/
theorem step_mkts_mono (w : World) (o : Op) (ho : o.Ok c) (m : MktId)
    (h : w.mkt.mkts.get m ≠ none) : (step c w o).mkt.mkts.get m ≠ none := by
  rcases (step_mkt (c := c) w o ho m).2 with ⟨_, e⟩ | ⟨_, e⟩
  · rw [Ne, e]; exact h
  · rw [Ne, e]; exact fun h' => h h'.2

theorem AucM.Inv.step (h : Inv c w) (o : Op) (ho : o.Ok c) (hg : ∀ n, Good c (slice w n)) :
    Inv c (_root_.step c w o) := by
  rcases step_auc_case w o ho with ⟨a, x, rfl, ha, hx⟩ | ⟨rfl, hx⟩ | e
  · exact h.call ha hx hg
  · exact h.pops hx
  · refine ⟨by rw [e]; exact h.wf, by rw [e]; exact h.len, by rw [e]; exact h.inQ, fun n x hx => ?_,
      by rw [e]; exact h.claims⟩
    rw [e] at hx
    refine (h.ok n x hx).mono (step_now_le w o) (step_mkts_mono w o ho) (by rw [e]) (by rw [e]; exact Or.inl)

theorem Reach.auc (hc : c.Ok) (h : Reach c w) : AucM.Inv c w := by
  induction h with
  | init hg => exact .init hg
  | step o hr ho ih => exact ih.step o ho (hr.inv hc).good
