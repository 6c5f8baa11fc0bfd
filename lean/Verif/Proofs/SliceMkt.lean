import Verif.Proofs.SliceNft
/-
The marketplace's and the auction pallet's calls, and the auction hook, as slice transitions.
-/
variable {c : Cfg} {w w' : World} {a : AccountId} {off : AccountId → AccountId → Prop}

namespace MktM

theorem list_slice {n m p} (h : list c w a n m p = .ok w') (k : NFTId) :
    SliceRel c w.now off (.signed .mkt a) (slice w k) (slice w' k) := by
  unfold list at h
  inv_ok at h
  obtain ⟨d, mk, b, hd, ho, h1, h2, h3, h4, h5, h6, h7, h8, h9, h10, h11, rfl⟩ := h
  slice_at k n
  exact .one (.list (m := m) (price := p) (comm := mk.commission) hd ho h1 h2 h3 h4 h5 h6 h7)
    (by slice_eq)

theorem unlist_slice {n} (h : unlist w a n = .ok w') (k : NFTId) :
    SliceRel c w.now off (.signed .mkt a) (slice w k) (slice w' k) := by
  unfold unlist at h
  inv_ok at h
  obtain ⟨d, s, hd, ho, h1, rfl⟩ := h
  slice_at k n
  exact .one (.unlist hd ho h1) (by slice_eq)

theorem buy_slice {n p} (h : buy c w a n p = .ok w') (k : NFTId) :
    SliceRel c w.now off (.signed .mkt a) (slice w k) (slice w' k) := by
  unfold buy at h
  inv_ok at h
  obtain ⟨d, s, mk, b, b1, b2, hd, hs, h1, h2, h3, h4, h5, h6, h7, h8, h9, rfl⟩ := h
  slice_at k n
  exact .one (.buy hd hs h2) (by slice_eq)

theorem call_slice {x : Call} (h : call c w a x = .ok w') (k : NFTId) :
    SliceRel c w.now off (.signed .mkt a) (slice w k) (slice w' k) := by
  cases x with
  | create kind =>
    simp only [call, create] at h; inv_ok at h
    obtain ⟨_, _, _, _, rfl⟩ := h
    exact .of_eq (NftM.slice_same rfl rfl rfl rfl rfl rfl rfl rfl rfl rfl rfl rfl _)
  | setOwner m r =>
    simp only [call, setOwner] at h; inv_ok at h
    obtain ⟨_, _, _, _, rfl⟩ := h
    exact .of_eq (NftM.slice_same rfl rfl rfl rfl rfl rfl rfl rfl rfl rfl rfl rfl _)
  | setKind m r =>
    simp only [call, setKind] at h; inv_ok at h
    obtain ⟨_, _, _, rfl⟩ := h
    exact .of_eq (NftM.slice_same rfl rfl rfl rfl rfl rfl rfl rfl rfl rfl rfl rfl _)
  | setConfig m =>
    simp only [call, setConfig] at h; inv_ok at h
    obtain ⟨_, _, _, rfl⟩ := h
    exact .of_eq (NftM.slice_same rfl rfl rfl rfl rfl rfl rfl rfl rfl rfl rfl rfl _)
  | list n m p => exact list_slice h k
  | unlist n => exact unlist_slice h k
  | buy n p => exact buy_slice h k

end MktM

namespace AucM

theorem create_slice {n m s e p bi} (h : create c w a n m s e p bi = .ok w') (k : NFTId) :
    SliceRel c w.now off (.signed .auc a) (slice w k) (slice w' k) := by
  unfold create at h
  inv_ok at h
  obtain ⟨d, mk, q, t1, t2, t3, t4, t5, t6, hd, ho, h1, h2, h3, h4, h5, h6, h7, h8, h9, h10, h11,
    rfl⟩ := h
  slice_at k n
  exact .one (.aucCreate (m := m) (start := s) (fin := e) (sp := p) (bi := bi)
    hd ho h1 h2 h3 h4 h5 h6 h7) (by slice_eq)

theorem cancel_slice {n} (h : cancel w a n = .ok w') (k : NFTId) :
    SliceRel c w.now off (.signed .auc a) (slice w k) (slice w' k) := by
  unfold cancel at h
  inv_ok at h
  obtain ⟨d, x, hd, hx, h1, h2, rfl⟩ := h
  slice_at k n
  exact .one (.aucCancel hd hx h1 h2) (by slice_eq)

theorem end_slice {n} (h : end_ c w a n = .ok w') (k : NFTId) :
    SliceRel c w.now off (.signed .auc a) (slice w k) (slice w' k) := by
  unfold end_ at h
  inv_ok at h
  obtain ⟨d, x, top, b, hd, hx, h1, h2, h3, h4, rfl⟩ := h
  slice_at k n
  exact .one (.aucEnd hd hx h1 h2 h3) (by slice_eq)

theorem mem_removeBid {x : AccountId × Balance} {l} (h : x ∈ removeBid a l) : x ∈ l := by
  induction l with
  | nil => simp [removeBid] at h
  | cons y t ih =>
    obtain ⟨y1, y2⟩ := y
    simp only [removeBid] at h
    split at h
    · simp [h]
    · simp only [List.mem_cons] at h ⊢
      rcases h with h | h
      · exact Or.inl h
      · exact Or.inr (ih h)

theorem mem_insertBid {x : AccountId × Balance} {l v r} (h : insertBid c l a v = .ok r)
    (hx : x ∈ r.2) : x ∈ l ∨ x = (a, v) := by
  unfold insertBid at h
  split at h
  · split at h
    · simp at h
    · simp only [Except.ok.injEq] at h; subst h; simp at hx; simp; grind
  · simp only [Except.ok.injEq] at h; subst h; simpa using hx

theorem extend_fst (x : Auction) (now : Block) :
    (extend c x now).1 = { x with fin := (extend c x now).1.fin,
                                  extended := (extend c x now).1.extended } := by
  unfold extend; split <;> rfl

theorem addBid_slice {n v} (h : addBid c w a n v = .ok w') (k : NFTId) :
    SliceRel c w.now off (.signed .auc a) (slice w k) (slice w' k) := by
  unfold addBid at h
  inv_ok at h
  obtain ⟨x, b, r, q, hx, h1, h2, h3, h4, h5, h6, h7, rfl⟩ := h
  slice_at k n
  have e := extend_fst (c := c) { x with bids := r.2 } w.now
  refine .one (.aucBids (y := (extend c { x with bids := r.2 } w.now).1) hx ?_ ?_) (by clear e; slice_eq)
  · rw [e]
  · rw [e]
    intro y hy
    rcases mem_insertBid h6 hy with h | h
    · exact Or.inl (mem_removeBid h)
    · subst h; exact Or.inr ⟨rfl, h1⟩

theorem removeBid_slice {n} (h : removeBidCall c w a n = .ok w') (k : NFTId) :
    SliceRel c w.now off (.signed .auc a) (slice w k) (slice w' k) := by
  unfold removeBidCall at h
  inv_ok at h
  obtain ⟨x, v, b, hx, h1, h2, h3, rfl⟩ := h
  slice_at k n
  exact .one (.aucBids (y := { x with bids := removeBid a x.bids }) hx rfl
    fun y hy => Or.inl (mem_removeBid hy)) (by slice_eq)

theorem buy_slice {n v} (h : buyItNow c w a n v = .ok w') (k : NFTId) :
    SliceRel c w.now off (.signed .auc a) (slice w k) (slice w' k) := by
  unfold buyItNow at h
  inv_ok at h
  obtain ⟨d, x, p, b, hd, hx, hp, h1, h2, h3, h4, h5, rfl⟩ := h
  slice_at k n
  exact .one (.aucBuy hd hx hp h2 h3) (by slice_eq)

theorem call_slice {x : Call} (h : call c w a x = .ok w') (k : NFTId) :
    SliceRel c w.now off (.signed .auc a) (slice w k) (slice w' k) := by
  cases x with
  | create => exact create_slice h k
  | cancel n => exact cancel_slice h k
  | end_ n => exact end_slice h k
  | addBid n v => exact addBid_slice h k
  | removeBid n => exact removeBid_slice h k
  | buyItNow n v => exact buy_slice h k
  | claim =>
    simp only [call, claim] at h; inv_ok at h
    obtain ⟨_, _, _, _, rfl⟩ := h
    exact .of_eq (NftM.slice_same rfl rfl rfl rfl rfl rfl rfl rfl rfl rfl rfl rfl _)

theorem settleOne_slice (w : World) (n : NFTId) (k : NFTId) :
    SliceRel c w.now off .hookAuc (slice w k) (slice (settleOne c w n).1 k) := by
  unfold settleOne
  split
  · exact .refl
  · rename_i x hx
    split
    · exact .refl
    · rename_i d hd
      split
      · rename_i top ht
        split
        · exact .of_eq rfl
        · slice_at k n
          exact .one (.aucHook hd hx ht) (by slice_eq)
      · rename_i ht
        slice_at k n
        exact .one (.aucHookNone hd hx (by simpa using ht)) (by slice_eq)

theorem settleOne_now (w : World) (n : NFTId) : (settleOne c w n).1.now = w.now := by
  unfold settleOne
  repeat' split
  all_goals rfl

theorem hookLoop_slice (q : Queue) (w : World) (i : Nat) (k : NFTId) :
    SliceRel c w.now off .hookAuc (slice w k) (slice (hookLoop c w q i).1 k) := by
  induction q generalizing w i with
  | nil => exact .refl
  | cons x t ih =>
    obtain ⟨n, b⟩ := x
    simp only [hookLoop]
    have h := settleOne_slice (c := c) (off := off) w n k
    have hn := settleOne_now (c := c) w n
    split
    · split
      · split
        · exact h
        · exact h.trans (hn ▸ ih _ _)
      · exact h.trans (hn ▸ ih _ _)
    · exact .refl

theorem hook_slice (w : World) (k : NFTId) :
    SliceRel c w.now off .hookAuc (slice w k) (slice (hook c w) k) := by
  have h := hookLoop_slice (c := c) (off := off) w.auc.deadlines w 0 k
  exact h

end AucM
