import Verif.Proofs.Coll
import Verif.Props.Demo
/-
Properties of NFTs and collections: C01, C02, C04–C13.
-/
set_option maxRecDepth 10000
variable {c : Cfg} {w w' : World}

/-! ## C01: ids are unique for ever -/

/-- Every existing NFT has an id below `next_nft_id`. -/
theorem C01_below (hc : c.Ok) (hr : Reach c w) {n : NFTId} {d : NFTData}
    (h : w.nfts.get n = some d) : n < w.nft.nextNft := by
  have := (hr.inv hc).fresh n
  rw [h] at this
  simp at this
  exact this

example : ∃ d, (Demo.at_ [Demo.mint1]).nfts.get 0 = some d ∧ 0 < (Demo.at_ [Demo.mint1]).nft.nextNft :=
  ⟨_, rfl, C01_below Demo.cfg_ok (Demo.reach [Demo.mint1] (by decide)) (n := 0) (d := _) rfl⟩

theorem born_stays {now off k} {s s' : Slice} (h : SliceStep c now off k s s')
    (hb : s.born = true) : s'.born = true := by
  cases h <;> simp_all

theorem born_of (hc : c.Ok) (hr : Reach c w) {n : NFTId} {d : NFTData}
    (h : w.nfts.get n = some d) : (slice w n).born = true :=
  (((hr.inv hc).good n).nft d h).born

/-- A burned id never comes back, whatever happens later. -/
theorem C01_no_reuse (hc : c.Ok) (hr : Reach c w) {n : NFTId} {d : NFTData}
    (h : w.nfts.get n = some d) (l : List Op) (hl : ∀ o ∈ l, o.Ok c)
    (hg : (run c w l).nfts.get n = none) (l' : List Op) (hl' : ∀ o ∈ l', o.Ok c) :
    (run c (run c w l) l').nfts.get n = none := by
  have hb := run_slice_inv (P := fun s => s.born = true)
    (fun _ _ _ _ _ _ _ hb h => born_stays h hb) hc hr (born_of hc hr h) l hl
  have key := run_slice_inv (P := fun s => s.nft = none ∧ s.born = true) (n := n)
    (c := c) (w := run c w l) ?_ hc (hr.run l hl) ⟨hg, hb⟩ l' hl'
  · exact key.1
  · rintro now off k s s' hk hgd ⟨h1, h2⟩ hs
    refine ⟨?_, born_stays hs h2⟩
    have e := hgd.gone h1
    rw [h2] at e
    subst e
    cases hs <;> simp_all [Slice.blank]

example := C01_no_reuse Demo.cfg_ok (Demo.reach [Demo.mint1] (by decide)) (n := 0) (d := _) rfl
  [Demo.by_ 1 (.nft (.burnNft 0))] (by decide) rfl [Demo.mint1] (by decide)

/-- An id that comes into existence has never existed before and is the next unused one. -/
theorem C01_fresh (hc : c.Ok) (hr : Reach c w) (l : List Op) (hl : ∀ o ∈ l, o.Ok c) (o : Op)
    (ho : o.Ok c) {n : NFTId} {d : NFTData} (h0 : (run c w l).nfts.get n = none)
    (h1 : (step c (run c w l) o).nfts.get n = some d) :
    w.nfts.get n = none ∧ n = (run c w l).nft.nextNft := by
  constructor
  · cases e : w.nfts.get n with
    | none => rfl
    | some d0 =>
      have := C01_no_reuse hc hr e l hl h0 [o] (by simpa using ho)
      simp only [run] at this
      rw [this] at h1; simp at h1
  · have hr' := hr.run l hl
    rcases step_core hc hr' o ho with ⟨a, x, rfl, ha, h⟩ | ⟨h2, _⟩
    · have hw := NftM.call_nfts h n
      rw [h1] at hw
      generalize hd : some d = y at hw
      cases hw with
      | same => rw [h0] at hd; simp at hd
      | new d h => exact h
      | burn => simp at hd
      | transfer d r _ h => rw [h0] at h; simp at h
      | secretShard d s l _ h => rw [h0] at h; simp at h
      | capsuleShard d s l _ h => rw [h0] at h; simp at h
      | edit d d' h => rw [h0] at h; simp at h
    · have := h2 n
      rw [h0, h1] at this; simp at this

example := C01_fresh Demo.cfg_ok (Demo.reach [] (by decide)) [Demo.mint1] (by decide) Demo.mint1 (by decide)
  (n := 1) (d := _) rfl rfl

/-- `create_nft` yields exactly the NFT asked for, under the next unused id; nothing else changes
among NFTs. -/
theorem C01_create (hc : c.Ok) (hr : Reach c w) {a : AccountId} {data royalty coll sb}
    (h : dispatch c (.nft (.createNft data royalty coll sb)) (.signed a) w = .ok w') :
    w.nfts.get w.nft.nextNft = none ∧
    w'.nfts.get w.nft.nextNft = some {
      owner := a, creator := a, offchain := data, coll := coll, royalty := royalty,
      st := { soulbound := sb } } ∧
    w'.nft.nextNft = w.nft.nextNft + 1 ∧
    ∀ m, m ≠ w.nft.nextNft → w'.nfts.get m = w.nfts.get m := by
  simp only [dispatch, signedCall, NftM.call, NftM.createNft] at h
  obtain ⟨h1, h2⟩ := NftM.createHelper_nfts h
  refine ⟨(hr.inv hc).fresh _ (Nat.le_refl _), ?_, h1, fun m hm => ?_⟩
  · rw [h2, FMap.get_insert_self]
  · rw [h2, FMap.get_insert_ne _ _ hm]

-- the history mint, burn, mint: id 0 existed, is gone and stays gone; the new id is 1
example : Reach Demo.cfg (Demo.at_ [Demo.mint1]) ∧
    (Demo.at_ [Demo.mint1]).nfts.get 0 ≠ none ∧
    (Demo.at_ [Demo.mint1, Demo.by_ 1 (.nft (.burnNft 0))]).nfts.get 0 = none ∧
    (Demo.at_ [Demo.mint1, Demo.by_ 1 (.nft (.burnNft 0)), Demo.mint1]).nfts.get 0 = none ∧
    (Demo.at_ [Demo.mint1, Demo.by_ 1 (.nft (.burnNft 0)), Demo.mint1]).nfts.get 1 ≠ none := by
  exact ⟨Demo.reach _ (by decide), by decide, by decide, by decide, by decide⟩

/-! ## C02: creator and soulbound flag -/

/-- As long as an NFT exists, creator and soulbound flag are the ones it had before. -/
theorem C02 (hc : c.Ok) (hr : Reach c w) {n : NFTId} {d d' : NFTData}
    (h : w.nfts.get n = some d) (l : List Op) (hl : ∀ o ∈ l, o.Ok c)
    (h' : (run c w l).nfts.get n = some d') :
    d'.creator = d.creator ∧ d'.st.soulbound = d.st.soulbound := by
  have key := run_slice_inv (n := n) (c := c)
    (P := fun s => s.born = true ∧ ∀ x, s.nft = some x →
      x.creator = d.creator ∧ x.st.soulbound = d.st.soulbound) ?_ hc hr
    ⟨born_of hc hr h, fun x hx => ?_⟩ l hl
  · exact key.2 d' h'
  · rintro now off k s s' hk hg ⟨h1, h2⟩ hs
    refine ⟨born_stays hs h1, ?_⟩
    cases hs <;> simp_all
  · have : w.nfts.get n = some x := hx
    rw [h] at this; simp at this; subst this; exact ⟨rfl, rfl⟩

-- an NFT that moves twice
example :
    let l := [Demo.mint1, Demo.by_ 1 (.nft (.transferNft 0 2)), Demo.by_ 2 (.nft (.transferNft 0 3))]
    Reach Demo.cfg (Demo.at_ l) ∧ ((Demo.at_ l).nfts.get 0).map (·.owner) = some 3 ∧
      ((Demo.at_ l).nfts.get 0).map (·.creator) = some 1 :=
  ⟨Demo.reach _ (by decide), by decide, by decide⟩

/-! ## C04: an NFT disappears only when its owner burns it -/

theorem C04 (hc : c.Ok) (hr : Reach c w) (o : Op) (ho : o.Ok c) {n : NFTId} {d : NFTData}
    (h : w.nfts.get n = some d) (h' : (step c w o).nfts.get n = none) :
    o = .call (.signed d.owner) (.nft (.burnNft n)) ∧ d.st.listed = false ∧ d.st.rented = false ∧
    d.st.delegated = false ∧ d.st.transmission = false := by
  rcases step_core hc hr o ho with ⟨a, x, rfl, ha, hx⟩ | ⟨h2, _⟩
  · have hw := NftM.call_nfts hx n
    rw [h'] at hw
    generalize hd : (none : Option NFTData) = y at hw
    cases hw with
    | same => rw [h] at hd; simp at hd
    | burn d1 h1 h2 h3 h4 h5 h6 h7 =>
      rw [h] at h2; simp at h2; subst h2
      subst h1; subst h3
      exact ⟨rfl, h4, h5, h6, h7⟩
    | _ => simp at hd
  · have := h2 n
    rw [h', h] at this; simp at this

example : Reach Demo.cfg (Demo.at_ [Demo.mint1]) ∧
    (Demo.at_ [Demo.mint1]).nfts.get 0 ≠ none ∧
    (step Demo.cfg (Demo.at_ [Demo.mint1]) (Demo.by_ 1 (.nft (.burnNft 0)))).nfts.get 0 = none :=
  ⟨Demo.reach _ (by decide), by decide, by decide⟩

/-! ## C05: soulbound NFTs move at most once -/

theorem C05 (hc : c.Ok) (hr : Reach c w) {n : NFTId} {d d' : NFTData}
    (h : w.nfts.get n = some d) (hs : d.st.soulbound = true) (hm : d.owner ≠ d.creator)
    (l : List Op) (hl : ∀ o ∈ l, o.Ok c) (h' : (run c w l).nfts.get n = some d') :
    d'.owner = d.owner := by
  have key := run_slice_inv (n := n) (c := c)
    (P := fun s => s.born = true ∧ ∀ x, s.nft = some x →
      x.owner = d.owner ∧ x.creator = d.creator ∧ x.st.soulbound = true) ?_ hc hr
    ⟨born_of hc hr h, fun x hx => ?_⟩ l hl
  · exact (key.2 d' h').1
  · rintro now off k s s' hk hg ⟨h1, h2⟩ hs
    refine ⟨born_stays hs h1, ?_⟩
    have hq : ∀ x, s.nft = some x → s.sale = none ∧ s.auc = none ∧ s.con = none ∧ s.tr = none := by
      intro x hx
      obtain ⟨e1, e2, e3⟩ := h2 x hx
      have g := hg.nft x hx
      obtain ⟨f1, f2, f3⟩ := g.soul e3 (by rw [e1, e2]; exact hm)
      have g1 := g.listed; have g2 := g.rented; have g3 := g.trans
      rw [f1] at g1; rw [f2] at g2; rw [f3] at g3
      simp at g1 g2 g3
      exact ⟨g1.1, g1.2, g2, g3⟩
    cases hs with
    | give dst h hv hx =>
      simp only [RentM.valid, Bool.and_eq_true, Bool.not_eq_true'] at hv
      grind
    | release dst h ho hv hx =>
      simp only [RentM.valid, Bool.and_eq_true, Bool.not_eq_true'] at hv
      grind
    | _ => grind
  · have : w.nfts.get n = some x := hx
    rw [h] at this; simp at this; subst this; exact ⟨rfl, rfl, hs⟩

/-- a soulbound NFT minted by account 1 and given to account 2 -/
private def soul : List Op :=
  [Demo.by_ 1 (.nft (.createNft [1] ⟨0, by omega⟩ none true)), Demo.by_ 1 (.nft (.transferNft 0 2))]

-- it is reachable, owned by another account than its creator, and transferring it on fails
example : Reach Demo.cfg (Demo.at_ soul) ∧
    ((Demo.at_ soul).nfts.get 0).map (fun d => (d.owner, d.creator, d.st.soulbound)) =
      some (2, 1, true) ∧
    ((Demo.at_ (soul ++ [Demo.by_ 2 (.nft (.transferNft 0 3))])).nfts.get 0).map (·.owner) =
      some 2 :=
  ⟨Demo.reach _ (by decide), by decide, by decide⟩

/-! ## C06: one commercial use at a time -/

/-- at most one of the list is true -/
def AtMostOne (l : List Bool) : Prop := l.count true ≤ 1

theorem C06 (hc : c.Ok) (hr : Reach c w) {n : NFTId} {d : NFTData} (h : w.nfts.get n = some d) :
    AtMostOne [d.st.listed, d.st.rented, d.st.delegated, d.st.transmission, d.st.syncSecret,
      d.st.syncCapsule] := by
  have g := ((hr.inv hc).good n).nft d h
  have h1 := g.exL; have h2 := g.exR; have h3 := g.exT; have h4 := g.exD; have h5 := g.exS
  unfold AtMostOne
  generalize d.st.listed = b1 at *
  generalize d.st.rented = b2 at *
  generalize d.st.transmission = b3 at *
  generalize d.st.delegated = b4 at *
  generalize d.st.syncSecret = b5 at *
  generalize d.st.syncCapsule = b6 at *
  revert h1 h2 h3 h4 h5
  clear g h hr hc
  cases b1 <;> cases b2 <;> cases b3 <;> cases b4 <;> cases b5 <;> cases b6 <;> decide

example : ((Demo.at_ [Demo.mint1, Demo.by_ 1 (.nft (.delegateNft 0 (some 2)))]).nfts.get 0).map
    (·.st.delegated) = some true := by decide

/-! ## C07: flags agree with records -/

/-- The flags of an existing NFT say exactly which records there are, and each record names the
owner. -/
theorem C07_flags (hc : c.Ok) (hr : Reach c w) {n : NFTId} {d : NFTData}
    (h : w.nfts.get n = some d) :
    (d.st.listed = true ↔ (w.mkt.sales.get n ≠ none ∨ w.auc.auctions.get n ≠ none)) ∧
    ¬ (w.mkt.sales.get n ≠ none ∧ w.auc.auctions.get n ≠ none) ∧
    (d.st.rented = true ↔ w.rent.contracts.get n ≠ none) ∧
    (d.st.transmission = true ↔ w.tr.trans.get n ≠ none) ∧
    (d.st.delegated = true ↔ w.nft.deleg.get n ≠ none) ∧
    (∀ s, w.mkt.sales.get n = some s → s.seller = d.owner) ∧
    (∀ s, w.auc.auctions.get n = some s → s.creator = d.owner) ∧
    (∀ s, w.rent.contracts.get n = some s → s.renter = d.owner) := by
  have g := ((hr.inv hc).good n).nft d h
  refine ⟨g.listed, ?_, g.rented, g.trans, g.deleg, g.seller, g.creator, g.renter⟩
  rintro ⟨h1, h2⟩
  exact g.notBoth.elim h1 h2

example := C07_flags Demo.cfg_ok (Demo.reach [Demo.mint1, Demo.by_ 2 (.mkt (.create .pub)),
  Demo.by_ 1 (.mkt (.list 0 0 100))] (by decide)) (n := 0) (d := _) rfl

/-- Every record belongs to an existing NFT. -/
theorem C07_records (hc : c.Ok) (hr : Reach c w) {n : NFTId}
    (h : w.mkt.sales.get n ≠ none ∨ w.auc.auctions.get n ≠ none ∨ w.rent.contracts.get n ≠ none ∨
      w.tr.trans.get n ≠ none ∨ w.nft.deleg.get n ≠ none) : w.nfts.get n ≠ none := by
  intro e
  have g := ((hr.inv hc).good n).gone e
  have : ∀ {α} (f : Slice → Option α), (∀ b, f (Slice.blank b) = none) → f (slice w n) = none := by
    intro α f hf; rw [g]; exact hf _
  have h1 := this Slice.sale (fun _ => rfl)
  have h2 := this Slice.auc (fun _ => rfl)
  have h3 := this Slice.con (fun _ => rfl)
  have h4 := this Slice.tr (fun _ => rfl)
  have h5 := this Slice.deleg (fun _ => rfl)
  simp only [slice] at h1 h2 h3 h4 h5
  rcases h with h | h | h | h | h
  · exact h h1
  · exact h h2
  · exact h h3
  · exact h h4
  · exact h h5

-- an NFT on sale
example :
    let l := [Demo.mint1, Demo.by_ 2 (.mkt (.create .pub)), Demo.by_ 1 (.mkt (.list 0 0 100))]
    Reach Demo.cfg (Demo.at_ l) ∧ ((Demo.at_ l).nfts.get 0).map (·.st.listed) = some true ∧
      ((Demo.at_ l).mkt.sales.get 0).map (·.seller) = some 1 :=
  ⟨Demo.reach _ (by decide), by decide, by decide⟩

/-! ## C08: collections and NFTs agree -/

/-- An NFT names a collection iff that collection exists and lists it. -/
theorem C08_mem (hc : c.Ok) (hr : Reach c w) {n : NFTId} {d : NFTData}
    (h : w.nfts.get n = some d) (k : CollId) :
    d.coll = some k ↔ ∃ col, w.nft.colls.get k = some col ∧ n ∈ col.nfts := by
  have hi := hr.coll hc
  constructor
  · intro hk
    cases e : w.nft.colls.get k with
    | none => exact absurd e (hi.ex n d k h hk)
    | some col => exact ⟨col, rfl, (hi.mem k col e n).2 ⟨d, h, hk⟩⟩
  · rintro ⟨col, h1, h2⟩
    obtain ⟨d', h3, h4⟩ := (hi.mem k col h1 n).1 h2
    rw [h] at h3; simp at h3; subst h3; exact h4

/-- A collection lists existing NFTs only, none twice, and not more than its own and the global
limit. -/
theorem C08_coll (hc : c.Ok) (hr : Reach c w) {k : CollId} {col : Coll}
    (h : w.nft.colls.get k = some col) :
    (∀ n ∈ col.nfts, w.nfts.get n ≠ none) ∧ col.nfts.Nodup ∧ col.nfts.length ≤ c.collLimit ∧
    ∀ l, col.limit = some l → col.nfts.length ≤ l := by
  have hi := hr.coll hc
  refine ⟨fun n hn => ?_, hi.nodup k col h, hi.cap k col h⟩
  obtain ⟨d, h1, _⟩ := (hi.mem k col h n).1 hn
  rw [h1]; simp

/-- a collection of two NFTs with limit 3, the first of which was added later -/
private def coll2 : List Op :=
  [Demo.mint1, Demo.by_ 1 (.nft (.createColl [7] (some 3))),
   Demo.by_ 1 (.nft (.createNft [1] ⟨0, by omega⟩ (some 0) false)), Demo.by_ 1 (.nft (.addToColl 0 0))]

example : Reach Demo.cfg (Demo.at_ coll2) ∧
    ((Demo.at_ coll2).nft.colls.get 0).map (·.nfts) = some [1, 0] ∧
    ((Demo.at_ coll2).nfts.get 0).map (·.coll) = some (some 0) :=
  ⟨Demo.reach _ (by decide), by decide, by decide⟩

/-! ## C09: closed and limited collections stay so -/

/-- One operation: the collection survives unless its owner burns it empty; the owner never changes,
closing and limits are final, a closed collection gains nothing. -/
theorem C09_step (hc : c.Ok) (hr : Reach c w) (o : Op) (ho : o.Ok c) {k : CollId} {col : Coll}
    (h : w.nft.colls.get k = some col) :
    (o = .call (.signed col.owner) (.nft (.burnColl k)) ∧ col.nfts = [] ∧
      (step c w o).nft.colls.get k = none) ∨
    ∃ col', (step c w o).nft.colls.get k = some col' ∧ col'.owner = col.owner ∧
      (col.closed = true → col'.closed = true ∧ ∀ n ∈ col'.nfts, n ∈ col.nfts) ∧
      ∀ l, col.limit = some l → col'.limit = some l := by
  rcases step_core hc hr o ho with ⟨a, x, rfl, ha, hx⟩ | ⟨_, h2⟩
  · have hw := NftM.call_colls (hr.coll hc) h hx
    generalize (step c w _).nft.colls.get k = y at hw
    cases hw with
    | same => exact Or.inr ⟨col, rfl, rfl, fun hcl => ⟨hcl, fun _ => id⟩, fun _ => id⟩
    | burn h1 h2 h3 => subst h1; subst h2; exact Or.inl ⟨rfl, h3, rfl⟩
    | edit col' h1 h2 h3 h4 h5 =>
      refine Or.inr ⟨col', rfl, h1, fun hcl => ⟨h2 hcl, fun n hn => ?_⟩, h3⟩
      rcases h4 n hn with h | ⟨h, _⟩
      · exact h
      · rw [hcl] at h; simp at h
  · unfold NftSame at h2
    rw [h2]
    exact Or.inr ⟨col, h, rfl, fun hcl => ⟨hcl, fun _ => id⟩, fun _ => id⟩

/-- Over any future: if the collection is still there, it has the same owner, the limit once set, and
is still closed and without new members if it was closed. -/
theorem C09 (hc : c.Ok) (hr : Reach c w) {k : CollId} {col col' : Coll}
    (h : w.nft.colls.get k = some col) (l : List Op) (hl : ∀ o ∈ l, o.Ok c)
    (h' : (run c w l).nft.colls.get k = some col') :
    col'.owner = col.owner ∧
    (col.closed = true → col'.closed = true ∧ ∀ n ∈ col'.nfts, n ∈ col.nfts) ∧
    ∀ x, col.limit = some x → col'.limit = some x := by
  have key := run_inv (c := c) (P := fun w => k < w.nft.nextColl ∧
      ∀ x, w.nft.colls.get k = some x → x.owner = col.owner ∧
      (col.closed = true → x.closed = true ∧ ∀ n ∈ x.nfts, n ∈ col.nfts) ∧
      ∀ y, col.limit = some y → x.limit = some y) ?_ hr ⟨?_, ?_⟩ l hl
  · exact key.2 col' h'
  · rintro w o hr ho ⟨hk, hP⟩
    have hn := step_nextColl hc hr o ho
    refine ⟨by omega, fun x hx => ?_⟩
    cases e : w.nft.colls.get k with
    | none => rw [hn.2 k hk e] at hx; simp at hx
    | some y =>
      obtain ⟨p1, p2, p3⟩ := hP y e
      rcases C09_step hc hr o ho e with ⟨_, _, h3⟩ | ⟨z, h1, h2, h3, h4⟩
      · rw [h3] at hx; simp at hx
      · rw [h1] at hx; simp at hx; subst hx
        refine ⟨h2.trans p1, fun hcl => ?_, fun u hu => h4 u (p3 u hu)⟩
        obtain ⟨q1, q2⟩ := p2 hcl
        obtain ⟨r1, r2⟩ := h3 q1
        exact ⟨r1, fun n hn => q2 n (r2 n hn)⟩
  · have := (hr.coll hc).fresh k
    rw [h] at this; simp at this; exact this
  · intro x hx
    rw [h] at hx; simp at hx; subst hx
    exact ⟨rfl, fun hcl => ⟨hcl, fun _ => id⟩, fun _ => id⟩

-- a closed, limited collection with members
example :
    let l := coll2 ++ [Demo.by_ 1 (.nft (.closeColl 0))]
    Reach Demo.cfg (Demo.at_ l) ∧
    ((Demo.at_ l).nft.colls.get 0).map (fun k => (k.closed, k.limit, k.nfts)) =
      some (true, some 3, [1, 0]) :=
  ⟨Demo.reach _ (by decide), by decide⟩

/-! ## C10: membership is permanent -/

theorem C10 (hc : c.Ok) (hr : Reach c w) {n : NFTId} {d d' : NFTData} {k : CollId}
    (h : w.nfts.get n = some d) (hk : d.coll = some k) (l : List Op) (hl : ∀ o ∈ l, o.Ok c)
    (h' : (run c w l).nfts.get n = some d') :
    d'.coll = some k ∧ ∃ col, (run c w l).nft.colls.get k = some col ∧ n ∈ col.nfts := by
  have key := run_slice_inv (n := n) (c := c)
    (P := fun s => s.born = true ∧ ∀ x, s.nft = some x → x.coll = some k) ?_ hc hr
    ⟨born_of hc hr h, fun x hx => ?_⟩ l hl
  · exact ⟨key.2 d' h', (C08_mem hc (hr.run l hl) h' k).1 (key.2 d' h')⟩
  · rintro now off k' s s' hk' hg ⟨h1, h2⟩ hs
    refine ⟨born_stays hs h1, ?_⟩
    cases hs <;> simp_all
  · have : w.nfts.get n = some x := hx
    rw [h] at this; simp at this; subst this; exact hk

example : Reach Demo.cfg (Demo.at_ coll2) ∧ ((Demo.at_ (coll2 ++
    [Demo.by_ 1 (.nft (.transferNft 0 2))])).nfts.get 0).map (fun d => (d.owner, d.coll)) =
      some (2, some 0) :=
  ⟨Demo.reach _ (by decide), by decide⟩

/-! ## C11: syncing needs enough distinct enclaves of one cluster -/

/-- A partial list of shards: at least one, fewer than needed, all from one cluster, by distinct
operators. -/
def ShardsOk (c : Cfg) (l : List (ClusterId × AccountId)) : Prop :=
  0 < l.length ∧ l.length < c.shards ∧ (∃ k, ∀ s ∈ l, s.1 = k) ∧ (l.map (·.2)).Nodup

private theorem shards_nodup {l : List (ClusterId × AccountId)} {k : ClusterId}
    (h : ∀ s ∈ l, s.1 = k) (hn : (l.map (·.2)).Nodup) {s : ClusterId × AccountId} (hs : s.1 = k)
    (hm : s ∉ l) : ((l ++ [s]).map (·.2)).Nodup := by
  simp only [List.map_append, List.map_cons, List.map_nil, List.nodup_append, List.nodup_cons,
    List.not_mem_nil, not_false_eq_true, List.nodup_nil, and_self, true_and, List.mem_singleton]
  refine ⟨hn, ?_⟩
  rintro x hx y rfl rfl
  obtain ⟨t, ht, e⟩ := List.mem_map.1 hx
  exact hm (by have : t = s := Prod.ext ((h t ht).trans hs.symm) e
               exact this ▸ ht)

private theorem pushShard_cases {cur l : Option (List (ClusterId × AccountId))}
    {s : ClusterId × AccountId} (hcur : ∀ x, cur = some x → ShardsOk c x)
    (h : NftM.pushShard c cur s = .ok l) :
    (∀ x, l = some x → ShardsOk c x) ∧
    (l = none → (cur.getD []).length + 1 = c.shards ∧ (∀ t ∈ cur.getD [], t.1 = s.1) ∧
      ((cur.getD [] ++ [s]).map (·.2)).Nodup) := by
  cases cur with
  | none =>
    simp only [NftM.pushShard] at h; inv_ok at h
    obtain ⟨h1, h2⟩ := h
    split at h2
    · rename_i e; subst h2
      simp at e
      exact ⟨by simp, fun _ => ⟨by simpa using e, by simp, by simp⟩⟩
    · rename_i e; subst h2
      simp at e
      refine ⟨fun x hx => ?_, by simp⟩
      simp at hx; subst hx
      refine ⟨by simp, by simp; omega, ⟨s.1, by simp⟩, by simp⟩
  | some x =>
    obtain ⟨k0, k1, ⟨k, k2⟩, k3⟩ := hcur x rfl
    simp only [NftM.pushShard] at h; inv_ok at h
    obtain ⟨hd, h1, h2, h3, h4, h5⟩ := h
    have hk : s.1 = k := h2.trans (k2 hd (List.mem_of_head? h1))
    have hn := shards_nodup k2 k3 hk h4
    split at h5
    · rename_i e; subst h5
      simp at e
      refine ⟨by simp, fun _ => ⟨by simpa using e, ?_, ?_⟩⟩
      · intro t ht; rw [hk]; exact k2 t (by simpa using ht)
      · simpa using hn
    · rename_i e; subst h5
      simp at e
      refine ⟨fun y hy => ?_, by simp⟩
      simp at hy; subst hy
      refine ⟨by simp, by simp; omega, ⟨k, ?_⟩, hn⟩
      intro t ht
      simp at ht
      rcases ht with ht | rfl
      · exact k2 t ht
      · exact hk

/-- Recorded shards: at least one and fewer than `ShardsNumber`, from distinct operators of a single
cluster, and only for an NFT that is syncing. -/
theorem C11_shards (hc : c.Ok) (hr : Reach c w) {n : NFTId} {l : List (ClusterId × AccountId)} :
    (w.nft.secretShards.get n = some l → ShardsOk c l ∧
      ∃ d, w.nfts.get n = some d ∧ d.st.syncSecret = true) ∧
    (w.nft.capsuleShards.get n = some l → ShardsOk c l ∧
      ∃ d, w.nfts.get n = some d ∧ d.st.syncCapsule = true) := by
  have key : (∀ l, (slice w n).secretShards = some l → ShardsOk c l) ∧
      ∀ l, (slice w n).capsuleShards = some l → ShardsOk c l := by
    induction hr with
    | init hg => simp [slice, hg.nft.2.2.2.2.2.1, hg.nft.2.2.2.2.2.2.2]
    | step o hr ho ih =>
      refine step_slice_inv (n := n) (c := c) (P := fun s =>
        (∀ l, s.secretShards = some l → ShardsOk c l) ∧
        ∀ l, s.capsuleShards = some l → ShardsOk c l) ?_ hc hr ih o ho
      rintro now off k s s' hk hg ⟨h1, h2⟩ hs
      cases hs with
      | secretShard l _ _ _ hp => exact ⟨(pushShard_cases h1 hp).1, h2⟩
      | capsuleShard l _ _ _ hp => exact ⟨h1, (pushShard_cases h2 hp).1⟩
      | burn =>
        simp only
        refine ⟨fun l hl => ?_, fun l hl => ?_⟩
        · split at hl
          · simp at hl
          · exact h1 l hl
        · split at hl
          · simp at hl
          · exact h2 l hl
      | _ => exact ⟨h1, h2⟩
  have g := (hr.inv hc).good n
  refine ⟨fun h => ⟨key.1 l h, ?_⟩, fun h => ⟨key.2 l h, ?_⟩⟩
  · obtain ⟨d, hd⟩ := g.some_of (fun e => by
      have := congrArg Slice.secretShards e; simp [slice, h, Slice.blank] at this)
    exact ⟨d, hd, (g.nft d hd).shards (by simp [slice, h])⟩
  · obtain ⟨d, hd⟩ := g.some_of (fun e => by
      have := congrArg Slice.capsuleShards e; simp [slice, h, Slice.blank] at this)
    exact ⟨d, hd, (g.nft d hd).shards' (by simp [slice, h])⟩

/-- The signer `a` is a registered enclave of cluster `s.1`, run by operator `s.2`. -/
def IsEnclave (w : World) (a : AccountId) (s : ClusterId × AccountId) : Prop :=
  w.tee.accOp.get a = some s.2 ∧ w.tee.opCluster.get s.2 = some s.1

theorem isEnclave {a s} (h : NftM.ensureEnclave w a = some s) : IsEnclave w a s := by
  simp only [NftM.ensureEnclave, Option.bind_eq_bind, Option.bind_eq_some_iff, Option.pure_def,
    Option.some.injEq] at h
  obtain ⟨op, h1, cl, h2, rfl⟩ := h
  exact ⟨h1, h2⟩

/-- A secret finishes syncing only by a shard call of a registered enclave that brings the number of
shards, by distinct operators of its cluster, to exactly `ShardsNumber`. -/
theorem C11_secret (hc : c.Ok) (hr : Reach c w) (o : Op) (ho : o.Ok c) {n : NFTId} {d d' : NFTData}
    (h : w.nfts.get n = some d) (hs : d.st.syncSecret = true)
    (h' : (step c w o).nfts.get n = some d') (hs' : d'.st.syncSecret = false) :
    ∃ a s, o = .call (.signed a) (.nft (.addSecretShard n)) ∧ IsEnclave w a s ∧
      let l := (w.nft.secretShards.get n).getD []
      l.length + 1 = c.shards ∧ (∀ t ∈ l, t.1 = s.1) ∧ ((l ++ [s]).map (·.2)).Nodup := by
  rcases step_core hc hr o ho with ⟨a, x, rfl, ha, hx⟩ | ⟨h2, _⟩
  · have hw := NftM.call_nfts hx n
    rw [h'] at hw
    generalize hd : some d' = y at hw
    cases hw with
    | same => rw [h] at hd; simp at hd; subst hd; rw [hs] at hs'; simp at hs'
    | new d1 e => have := (hr.inv hc).fresh n (by omega); rw [this] at h; simp at h
    | burn => simp at hd
    | transfer d1 r _ e => rw [h] at e; simp at e; subst e; simp at hd; subst hd; rw [hs] at hs'; simp at hs'
    | capsuleShard d1 _ _ _ e => rw [h] at e; simp at e; subst e; simp at hd; subst hd; rw [hs] at hs'; simp at hs'
    | edit d1 d2 e _ e2 =>
      rw [h] at e; simp at e; subst e; simp at hd; subst hd
      rw [e2 hs] at hs'; simp at hs'
    | secretShard d1 s l e1 e2 e3 e4 e5 =>
      subst e1
      rw [h] at e2; simp at e2; subst e2; simp at hd; subst hd
      simp at hs'
      subst hs'
      refine ⟨a, s, rfl, isEnclave e3, ?_⟩
      exact (pushShard_cases (fun x hx => ((C11_shards hc hr (n := n)).1 hx).1) e4).2 rfl
  · have := h2 n
    rw [h', h] at this
    simp [NFTData.core, hs, hs'] at this

/-- The same for capsules. -/
theorem C11_capsule (hc : c.Ok) (hr : Reach c w) (o : Op) (ho : o.Ok c) {n : NFTId} {d d' : NFTData}
    (h : w.nfts.get n = some d) (hs : d.st.syncCapsule = true)
    (h' : (step c w o).nfts.get n = some d') (hs' : d'.st.syncCapsule = false) :
    ∃ a s, o = .call (.signed a) (.nft (.addCapsuleShard n)) ∧ IsEnclave w a s ∧
      let l := (w.nft.capsuleShards.get n).getD []
      l.length + 1 = c.shards ∧ (∀ t ∈ l, t.1 = s.1) ∧ ((l ++ [s]).map (·.2)).Nodup := by
  rcases step_core hc hr o ho with ⟨a, x, rfl, ha, hx⟩ | ⟨h2, _⟩
  · have hw := NftM.call_nfts hx n
    rw [h'] at hw
    generalize hd : some d' = y at hw
    cases hw with
    | same => rw [h] at hd; simp at hd; subst hd; rw [hs] at hs'; simp at hs'
    | new d1 e => have := (hr.inv hc).fresh n (by omega); rw [this] at h; simp at h
    | burn => simp at hd
    | transfer d1 r _ e => rw [h] at e; simp at e; subst e; simp at hd; subst hd; rw [hs] at hs'; simp at hs'
    | secretShard d1 _ _ _ e => rw [h] at e; simp at e; subst e; simp at hd; subst hd; rw [hs] at hs'; simp at hs'
    | edit d1 d2 e _ _ e2 =>
      rw [h] at e; simp at e; subst e; simp at hd; subst hd
      rw [e2 hs] at hs'; simp at hs'
    | capsuleShard d1 s l e1 e2 e3 e4 e5 =>
      subst e1
      rw [h] at e2; simp at e2; subst e2; simp at hd; subst hd
      simp at hs'
      subst hs'
      refine ⟨a, s, rfl, isEnclave e3, ?_⟩
      exact (pushShard_cases (fun x hx => ((C11_shards hc hr (n := n)).2 hx).1) e4).2 rfl
  · have := h2 n
    rw [h', h] at this
    simp [NFTData.core, hs, hs'] at this

/-- a secret NFT with one of two shards -/
private def syncing : List Op :=
  Demo.enclaves ++ [Demo.by_ 1 (.nft (.createSecret [1] [2] ⟨0, by omega⟩ none false)),
    Demo.by_ 18 (.nft (.addSecretShard 0))]

-- one shard is there, the NFT is syncing; the other enclave's shard completes, the same one's fails
example : Reach Demo.cfg (Demo.at_ syncing) ∧
    (Demo.at_ syncing).nft.secretShards.get 0 = some [(0, 8)] ∧
    ((Demo.at_ syncing).nfts.get 0).map (·.st.syncSecret) = some true ∧
    ((step Demo.cfg (Demo.at_ syncing) (Demo.by_ 19 (.nft (.addSecretShard 0)))).nfts.get 0).map
      (·.st.syncSecret) = some false ∧
    ((step Demo.cfg (Demo.at_ syncing) (Demo.by_ 18 (.nft (.addSecretShard 0)))).nfts.get 0).map
      (·.st.syncSecret) = some true :=
  ⟨Demo.reach _ (by decide), by decide, by decide, by decide, by decide⟩

-- the same for a capsule
example :
    let l := Demo.enclaves ++ [Demo.by_ 1 (.nft (.createCapsule [1] [2] ⟨0, by omega⟩ none false)),
      Demo.by_ 18 (.nft (.addCapsuleShard 0))]
    Reach Demo.cfg (Demo.at_ l) ∧ (Demo.at_ l).nft.capsuleShards.get 0 = some [(0, 8)] ∧
    ((step Demo.cfg (Demo.at_ l) (Demo.by_ 19 (.nft (.addCapsuleShard 0)))).nfts.get 0).map
      (·.st.syncCapsule) = some false :=
  ⟨Demo.reach _ (by decide), by decide, by decide⟩

/-! ## C12: burning leaves nothing behind -/

/-- Nothing is recorded under an id that has no NFT; if the id had an NFT once, that holds for ever. -/
theorem C12 (hc : c.Ok) (hr : Reach c w) {n : NFTId} {d : NFTData} (h : w.nfts.get n = some d)
    (l : List Op) (hl : ∀ o ∈ l, o.Ok c) (hg : (run c w l).nfts.get n = none)
    (l' : List Op) (hl' : ∀ o ∈ l', o.Ok c) :
    let u := run c (run c w l) l'
    u.nfts.get n = none ∧ u.mkt.sales.get n = none ∧ u.auc.auctions.get n = none ∧
    u.rent.contracts.get n = none ∧ u.tr.trans.get n = none ∧ u.tr.consents.get n = none ∧
    u.nft.deleg.get n = none ∧ u.nft.secretData.get n = none ∧ u.nft.capsuleData.get n = none ∧
    u.nft.secretShards.get n = none ∧ u.nft.capsuleShards.get n = none ∧
    ∀ k col, u.nft.colls.get k = some col → n ∉ col.nfts := by
  have hr' := (hr.run l hl).run l' hl'
  have hn := C01_no_reuse hc hr h l hl hg l' hl'
  intro u
  have g := ((hr'.inv hc).good n).gone hn
  have f : ∀ {α} (f : Slice → Option α), (∀ b, f (Slice.blank b) = none) → f (slice u n) = none := by
    intro α f hf; rw [g]; exact hf _
  refine ⟨hn, f Slice.sale fun _ => rfl, f Slice.auc fun _ => rfl, f Slice.con fun _ => rfl,
    f Slice.tr fun _ => rfl, f Slice.cons fun _ => rfl, f Slice.deleg fun _ => rfl,
    f Slice.secretData fun _ => rfl, f Slice.capsuleData fun _ => rfl,
    f Slice.secretShards fun _ => rfl, f Slice.capsuleShards fun _ => rfl, fun k col hk hm => ?_⟩
  obtain ⟨d, h1, _⟩ := ((hr'.coll hc).mem k col hk n).1 hm
  rw [hn] at h1; simp at h1

/-- a secret capsule in a collection -/
private def rich : List Op :=
  [Demo.by_ 1 (.nft (.createColl [7] none)),
   Demo.by_ 1 (.nft (.createSecret [1] [2] ⟨0, by omega⟩ (some 0) false))]

-- an NFT with secret data in a collection, burned while syncing
example : Reach Demo.cfg (Demo.at_ rich) ∧
    (Demo.at_ rich).nft.secretData.get 0 = some [2] ∧
    ((Demo.at_ rich).nft.colls.get 0).map (·.nfts) = some [0] ∧
    (Demo.at_ (rich ++ [Demo.by_ 1 (.nft (.burnNft 0))])).nfts.get 0 = none :=
  ⟨Demo.reach _ (by decide), by decide, by decide, by decide⟩

/-! ## C13: secret and capsule data -/

/-- Secret data exists iff the NFT exists and is secret; the same for capsules. -/
theorem C13_data (hc : c.Ok) (hr : Reach c w) (n : NFTId) :
    (w.nft.secretData.get n ≠ none ↔ ∃ d, w.nfts.get n = some d ∧ d.st.secret = true) ∧
    (w.nft.capsuleData.get n ≠ none ↔ ∃ d, w.nfts.get n = some d ∧ d.st.capsule = true) := by
  have g := (hr.inv hc).good n
  constructor
  · constructor
    · intro h
      obtain ⟨d, hd⟩ := g.some_of (fun e => h (by
        have := congrArg Slice.secretData e; simpa [slice, Slice.blank] using this))
      exact ⟨d, hd, (g.nft d hd).secret.2 h⟩
    · rintro ⟨d, hd, h⟩; exact (g.nft d hd).secret.1 h
  · constructor
    · intro h
      obtain ⟨d, hd⟩ := g.some_of (fun e => h (by
        have := congrArg Slice.capsuleData e; simpa [slice, Slice.blank] using this))
      exact ⟨d, hd, (g.nft d hd).capsule.2 h⟩
    · rintro ⟨d, hd, h⟩; exact (g.nft d hd).capsule.1 h

/-- Secret and capsule status are never lost. -/
theorem C13_status (hc : c.Ok) (hr : Reach c w) {n : NFTId} {d d' : NFTData}
    (h : w.nfts.get n = some d) (l : List Op) (hl : ∀ o ∈ l, o.Ok c)
    (h' : (run c w l).nfts.get n = some d') :
    (d.st.secret = true → d'.st.secret = true) ∧ (d.st.capsule = true → d'.st.capsule = true) := by
  have key := run_slice_inv (n := n) (c := c)
    (P := fun s => s.born = true ∧ ∀ x, s.nft = some x →
      (d.st.secret = true → x.st.secret = true) ∧ (d.st.capsule = true → x.st.capsule = true)) ?_ hc hr
    ⟨born_of hc hr h, fun x hx => ?_⟩ l hl
  · exact key.2 d' h'
  · rintro now off k s s' hk hg ⟨h1, h2⟩ hs
    refine ⟨born_stays hs h1, ?_⟩
    cases hs <;> simp_all
  · have : w.nfts.get n = some x := hx
    rw [h] at this; simp at this; subst this; exact ⟨id, id⟩

/-- Secret data, once written, is never rewritten while the NFT exists. -/
theorem C13_secret_frozen (hc : c.Ok) (hr : Reach c w) {n : NFTId} {x : Data}
    (h : w.nft.secretData.get n = some x) (l : List Op) (hl : ∀ o ∈ l, o.Ok c) :
    (run c w l).nft.secretData.get n = some x ∨ (run c w l).nfts.get n = none := by
  have h0 : ∃ d, w.nfts.get n = some d := by
    obtain ⟨d, hd, _⟩ := (C13_data hc hr n).1.1 (by rw [h]; simp)
    exact ⟨d, hd⟩
  obtain ⟨d, hd⟩ := h0
  have key := run_slice_inv (n := n) (c := c)
    (P := fun s => s.born = true ∧ (s.secretData = some x ∨ s.nft = none)) ?_ hc hr
    ⟨born_of hc hr hd, Or.inl h⟩ l hl
  · exact key.2
  · rintro now off k s s' hk hg ⟨h1, h2⟩ hs
    refine ⟨born_stays hs h1, ?_⟩
    rcases h2 with h2 | h2
    · cases hs with
      | addSecret h _ _ h3 => have := (hg.nft _ h).secret; rw [h3] at this; simp [h2] at this
      | burn => exact Or.inr rfl
      | _ => exact Or.inl h2
    · have e := hg.gone h2
      rw [h1] at e
      subst e
      cases hs <;> simp_all [Slice.blank]

example : Reach Demo.cfg (Demo.at_ rich) ∧ (Demo.at_ rich).nft.secretData.get 0 = some [2] ∧
    ((Demo.at_ rich).nfts.get 0).map (·.st.secret) = some true :=
  ⟨Demo.reach _ (by decide), by decide, by decide⟩

example := C08_mem Demo.cfg_ok (Demo.reach coll2 (by decide)) (n := 0) (d := _) rfl 0

example := C09_step Demo.cfg_ok (Demo.reach coll2 (by decide)) (Demo.by_ 1 (.nft (.closeColl 0))) (by decide)
  (k := 0) (col := _) rfl

example := C11_shards Demo.cfg_ok (Demo.reach syncing (by decide)) (n := 0) (l := [(0, 8)])

example := C11_secret Demo.cfg_ok (Demo.reach syncing (by decide)) (Demo.by_ 19 (.nft (.addSecretShard 0)))
  (by decide) (n := 0) (d := _) (d' := _) rfl rfl rfl rfl

example := (C13_data Demo.cfg_ok (Demo.reach rich (by decide)) 0).1.mp (by decide)

example := C13_status Demo.cfg_ok (Demo.reach rich (by decide)) (n := 0) (d := _) rfl
  [Demo.by_ 1 (.nft (.transferNft 0 2))] (by decide) (d' := _) rfl
