import Verif.Proofs.Events
/-
What one operation does to listings and marketplaces.
-/
variable {c : Cfg} {w w' : World} {a : AccountId}

/-- A change of the marketplace pallet's records comes from one of its own calls. -/
theorem step_mkt_case (w : World) (o : Op) (ho : o.Ok c) :
    (∃ a x, o = .call (.signed a) (.mkt x) ∧ ¬ c.pot a ∧ MktM.call c w a x = .ok (step c w o)) ∨
    (step c w o).mkt = { w.mkt with fee := (step c w o).mkt.fee } := by
  generalize hw' : step c w o = w'
  have key := step_case w o ho
  rw [hw'] at key
  cases key with
  | mkt x ha h => exact Or.inl ⟨_, x, rfl, ha, h⟩
  | nft x ha h =>
    have e := NftM.call_frame h
    right; rw [e]
  | auc x ha h =>
    have e := AucM.call_frame h
    right; rw [e]
  | rent x ha h =>
    have e := RentM.call_frame h
    right; rw [e]
  | tr x ha h =>
    have e := TrM.call_frame h
    right; rw [e]
  | hookAuc =>
    have e := AucM.hook_frame (c := c) w
    right; rw [e]
  | hookRent =>
    have e := RentM.hook_frame (c := c) w
    right; rw [e]
  | hookTr =>
    have e := TrM.hook_frame (c := c) w
    right; rw [e]
  | quiet _ _ hq => exact Or.inr hq.mkt

/-- What one operation does to the listing of `n`. -/
inductive SaleMove (c : Cfg) (w : World) (n : NFTId) : Option Sale → Op → Prop where
  | same {o : Op} : SaleMove c w n (w.mkt.sales.get n) o
  | list {a : AccountId} {m : MktId} {p : Balance} {d : NFTData} {k : Mkt} :
      w.nfts.get n = some d → d.owner = a → d.st.listed = false → w.mkt.mkts.get m = some k →
      MktM.allowedToList k a d.coll = true → MktM.covers p k.commission = true →
      SaleMove c w n (some { seller := a, mkt := m, price := p, commission := k.commission })
        (.call (.signed a) (.mkt (.list n m p)))
  | unlist {a : AccountId} {d : NFTData} : w.nfts.get n = some d → d.owner = a →
      SaleMove c w n none (.call (.signed a) (.mkt (.unlist n)))
  | buy {a : AccountId} {s : Sale} : w.mkt.sales.get n = some s → s.seller ≠ a →
      SaleMove c w n none (.call (.signed a) (.mkt (.buy n s.price)))

theorem step_sale (w : World) (o : Op) (ho : o.Ok c) (n : NFTId) :
    SaleMove c w n ((step c w o).mkt.sales.get n) o := by
  rcases step_mkt_case w o ho with ⟨a, x, rfl, ha, h⟩ | h
  · generalize step c w (.call (.signed a) (.mkt x)) = w' at h ⊢
    cases x <;> simp only [MktM.call] at h
    case create k =>
      simp only [MktM.create] at h; inv_ok at h
      obtain ⟨b, _, h1, _, rfl⟩ := h
      exact .same
    case setOwner m r =>
      simp only [MktM.setOwner] at h; inv_ok at h
      repeat' (obtain ⟨_, h⟩ := h)
      exact .same
    case setKind m r =>
      simp only [MktM.setKind] at h; inv_ok at h
      repeat' (obtain ⟨_, h⟩ := h)
      exact .same
    case setConfig =>
      simp only [MktM.setConfig] at h; inv_ok at h
      repeat' (obtain ⟨_, h⟩ := h)
      exact .same
    case list m k p =>
      simp only [MktM.list] at h; inv_ok at h
      obtain ⟨d, k', b, hd, h1, h2, h3, h4, h5, h6, h7, h8, hk, h9, h10, h11, rfl⟩ := h
      by_cases e : n = m
      · subst e
        simp only [World.putNft, World.putBal, FMap.get_insert_self]
        exact .list hd h1 h2 hk h9 h10
      · simp only [World.putNft, World.putBal, FMap.get_insert, e, if_false]
        exact .same
    case unlist m =>
      simp only [MktM.unlist] at h; inv_ok at h
      obtain ⟨d, s, hd, h1, h2, rfl⟩ := h
      by_cases e : n = m
      · subst e
        simp only [World.putNft, FMap.get_erase_self]
        exact .unlist hd h1
      · simp only [World.putNft, FMap.get_erase, e, if_false]
        exact .same
    case buy m p =>
      simp only [MktM.buy] at h; inv_ok at h
      obtain ⟨d, s, k, b1, b2, b3, hd, hs, hk, h1, h2, h⟩ := h
      obtain ⟨_, _, _, _, _, _, rfl⟩ := h
      by_cases e : n = m
      · subst e
        subst h2
        simp only [World.putNft, World.putBal, FMap.get_erase_self]
        exact .buy hs h1
      · simp only [World.putNft, World.putBal, FMap.get_erase, e, if_false]
        exact .same
  · rw [h]
    exact .same

/-- What one operation does to the marketplace `m`. -/
inductive MktMove (w : World) (m : MktId) : Option Mkt → Op → Prop where
  | same {o : Op} : MktMove w m (w.mkt.mkts.get m) o
  | new {a : AccountId} {k : MktKind} : m = w.mkt.next →
      MktMove w m (some {
        owner := a, kind := k, commission := none, listing := none, accounts := none,
        offchain := none, colls := none }) (.call (.signed a) (.mkt (.create k)))
  | owner {r : AccountId} {d : Mkt} : w.mkt.mkts.get m = some d →
      MktMove w m (some { d with owner := r }) (.call (.signed d.owner) (.mkt (.setOwner m r)))
  | kind {k : MktKind} {d : Mkt} : w.mkt.mkts.get m = some d →
      MktMove w m (some { d with kind := k }) (.call (.signed d.owner) (.mkt (.setKind m k)))
  | config {d : Mkt} {f l : ConfigOp CompoundFee} {ac : ConfigOp (List AccountId)}
      {oc : ConfigOp Data} {cs : ConfigOp (List CollId)} : w.mkt.mkts.get m = some d →
      MktMove w m (some { d with
        commission := MktM.apply d.commission f
        listing := MktM.apply d.listing l
        accounts := MktM.apply d.accounts ac
        offchain := MktM.apply d.offchain oc
        colls := MktM.apply d.colls cs }) (.call (.signed d.owner) (.mkt (.setConfig m f l ac oc cs)))

theorem step_mkt (w : World) (o : Op) (ho : o.Ok c) (m : MktId) :
    MktMove w m ((step c w o).mkt.mkts.get m) o ∧
    ((step c w o).mkt.next = w.mkt.next ∧
        (∀ m, (step c w o).mkt.mkts.get m = none ↔ w.mkt.mkts.get m = none) ∨
      (step c w o).mkt.next = w.mkt.next + 1 ∧
        (∀ m, (step c w o).mkt.mkts.get m = none ↔ m ≠ w.mkt.next ∧ w.mkt.mkts.get m = none)) := by
  have upd : ∀ {m : MktId} {d d' : Mkt}, w.mkt.mkts.get m = some d →
      ∀ x, ((w.mkt.mkts.insert m d').get x = none ↔ w.mkt.mkts.get x = none) := by
    intro m d d' h x
    rw [FMap.get_insert]
    split
    · subst_vars; simp [h]
    · rfl
  rcases step_mkt_case w o ho with ⟨a, x, rfl, ha, h⟩ | h
  · generalize step c w (.call (.signed a) (.mkt x)) = w' at h ⊢
    cases x <;> simp only [MktM.call] at h
    case create k =>
      simp only [MktM.create] at h; inv_ok at h
      obtain ⟨b, nx, h1, h2, rfl⟩ := h
      split at h2
      · simp at h2; subst h2
        refine ⟨?_, Or.inr ⟨rfl, fun x => ?_⟩⟩
        · simp only [World.putBal, FMap.get_insert]
          split
          · exact .new (by assumption)
          · exact .same
        · simp only [World.putBal, FMap.get_insert]
          split <;> simp_all
      · simp at h2
    case setOwner k r =>
      simp only [MktM.setOwner] at h; inv_ok at h
      obtain ⟨d, _, hd, rfl, rfl⟩ := h
      refine ⟨?_, Or.inl ⟨rfl, upd hd⟩⟩
      simp only [FMap.get_insert]
      split
      · subst_vars; exact .owner hd
      · exact .same
    case setKind k r =>
      simp only [MktM.setKind] at h; inv_ok at h
      obtain ⟨d, hd, rfl, rfl⟩ := h
      refine ⟨?_, Or.inl ⟨rfl, upd hd⟩⟩
      simp only [FMap.get_insert]
      split
      · subst_vars; exact .kind hd
      · exact .same
    case setConfig =>
      simp only [MktM.setConfig] at h; inv_ok at h
      obtain ⟨d, hd, rfl, rfl⟩ := h
      refine ⟨?_, Or.inl ⟨rfl, upd hd⟩⟩
      simp only [FMap.get_insert]
      split
      · subst_vars; exact .config hd
      · exact .same
    case list m k p =>
      simp only [MktM.list] at h; inv_ok at h
      obtain ⟨d, k', b, hd, h1, h2, h3, h4, h5, h6, h7, h8, hk, h9, h10, h11, rfl⟩ := h
      exact ⟨.same, Or.inl ⟨rfl, fun _ => Iff.rfl⟩⟩
    case unlist m =>
      simp only [MktM.unlist] at h; inv_ok at h
      obtain ⟨d, s, hd, h1, h2, rfl⟩ := h
      exact ⟨.same, Or.inl ⟨rfl, fun _ => Iff.rfl⟩⟩
    case buy m p =>
      simp only [MktM.buy] at h; inv_ok at h
      obtain ⟨d, s, k, b1, b2, b3, hd, hs, hk, h1, h2, h⟩ := h
      obtain ⟨_, _, _, _, _, _, rfl⟩ := h
      exact ⟨.same, Or.inl ⟨rfl, fun _ => Iff.rfl⟩⟩
  · have e1 : (step c w o).mkt.mkts = w.mkt.mkts := by rw [h]
    have e2 : (step c w o).mkt.next = w.mkt.next := by rw [h]
    rw [e1]
    exact ⟨.same, Or.inl ⟨e2, fun _ => Iff.rfl⟩⟩
