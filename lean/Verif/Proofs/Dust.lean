import Verif.Proofs.RentStep
/-
Only an account that is emptied loses tokens for nobody, and less than the existential deposit.
-/
variable {c : Cfg} {w w' : World} {a : AccountId}

/-- A payment that keeps everybody but `p` alive, and does not go to `p`. -/
inductive Soft (ed : Balance) (p : AccountId) : Bal → Bal → Prop where
  | out {b b' : Bal} {d v l} : b.transfer ed p d v l = .ok b' → Soft ed p b b'
  | keep {b b' : Bal} {s d v} : d ≠ p → b.transfer ed s d v .keepAlive = .ok b' → Soft ed p b b'

/-- Any number of them. -/
abbrev Softs (ed : Balance) (p : AccountId) := Relation.ReflTransGen (Soft ed p)

/-- Nothing is lost, or `p` is emptied and loses a rest. -/
def Loses (ed : Balance) (p : AccountId) (b b' : Bal) : Prop :=
  b'.issuance = b.issuance ∨
    (0 < b.freeOf p ∧ b'.freeOf p = 0 ∧ b'.issuance ≤ b.issuance ∧ b.issuance < b'.issuance + ed)

theorem Bal.keep_issuance {ed : Balance} {b b' : Bal} {s d v}
    (h : b.transfer ed s d v .keepAlive = .ok b') : b'.issuance = b.issuance := by
  rcases Bal.transfer_issuance h with h | ⟨_, _, h, _⟩
  · exact h
  · simp at h

theorem Soft.free {ed p} {b b' : Bal} (h : Soft ed p b b') : b'.freeOf p ≤ b.freeOf p := by
  cases h with
  | @out d v l h =>
    by_cases e : p = d
    · subst e; rw [Bal.transfer_self h]; exact Nat.le_refl _
    · rw [Bal.transfer_free h e]
      simp only [e, if_false, if_true]
      split
      · omega
      · split <;> omega
  | @keep s d v hd h =>
    by_cases e : s = d
    · subst e; rw [Bal.transfer_self h]; exact Nat.le_refl _
    · rw [Bal.transfer_keep h p e]
      simp only [Ne.symm hd, if_false]
      split
      · subst_vars; omega
      · omega

theorem Softs.free {ed p} {b b' : Bal} (h : Softs ed p b b') : b'.freeOf p ≤ b.freeOf p := by
  induction h with
  | refl => exact Nat.le_refl _
  | tail _ h ih => exact Nat.le_trans h.free ih

theorem Softs.loses {ed p} {b b' : Bal} (h : Softs ed p b b') : Loses ed p b b' := by
  induction h with
  | refl => exact .inl rfl
  | @tail b1 b2 h1 h2 ih =>
    have hf := Softs.free h1
    have hf2 := h2.free
    cases h2 with
    | @out d v l h =>
      rcases Bal.transfer_issuance h with e | ⟨hv, hd, _, hlt, e⟩
      · rcases ih with ih | ⟨i1, i2, i3, i4⟩
        · left; omega
        · right; exact ⟨i1, by omega, by omega, by omega⟩
      · have hle := Bal.transfer_le h hd
        have hfree : b2.freeOf p = 0 := by
          rw [Bal.transfer_free h hd]; simp [hd, hv, hlt]
        rcases ih with ih | ⟨i1, i2, i3, i4⟩
        · right; exact ⟨by omega, hfree, by omega, by omega⟩
        · omega
    | @keep s d v hd h =>
      have e := Bal.keep_issuance h
      rcases ih with ih | ⟨i1, i2, i3, i4⟩
      · left; omega
      · right; exact ⟨i1, by omega, by omega, by omega⟩

/-! ## calls that lose nothing -/

theorem NftM.call_issuance {x : NftM.Call} (h : NftM.call c w a x = .ok w') :
    w'.bal.issuance = w.bal.issuance := by
  have hc : ∀ {w w' : World} {data roy coll sb}, createHelper c w a data roy coll sb = .ok w' →
      w'.bal.issuance = w.bal.issuance := by
    intro w w' data roy coll sb h
    obtain ⟨b, w1, h1, h2, _, rfl⟩ := createHelper_ok h
    have : w1.bal = b := by
      cases coll with
      | none => simp only [pushToColl] at h2; frame_auto at h2; rfl
      | some j => simp only [pushToColl] at h2; frame_auto at h2; rfl
    show w1.bal.issuance = _
    rw [this]; exact (Bal.payFee_issuance h1).1
  have hs : ∀ {w w' : World} {n data}, addSecretHelper c w a n data = .ok w' →
      w'.bal.issuance = w.bal.issuance := by
    intro w w' n data h
    simp only [addSecretHelper] at h; inv_ok at h
    obtain ⟨d, b, _, _, _, _, _, _, _, _, h1, rfl⟩ := h
    exact (Bal.payFee_issuance h1).1
  have ht : ∀ {w w' : World} {n data}, toCapsuleHelper c w a n data = .ok w' →
      w'.bal.issuance = w.bal.issuance := by
    intro w w' n data h
    simp only [toCapsuleHelper] at h; inv_ok at h
    obtain ⟨d, b, _, _, _, _, _, _, _, _, h1, rfl⟩ := h
    exact (Bal.payFee_issuance h1).1
  cases x <;> simp only [call] at h
  case createNft => exact hc h
  case addSecret => exact hs h
  case toCapsule => exact ht h
  case createSecret =>
    simp only [createSecret] at h; inv_ok at h
    obtain ⟨w1, _, h1, h2⟩ := h
    exact (hs h2).trans (hc h1)
  case createCapsule =>
    simp only [createCapsule] at h; inv_ok at h
    obtain ⟨w1, _, h1, h2⟩ := h
    exact (ht h2).trans (hc h1)
  case burnNft n =>
    simp only [burnNft] at h
    inv_ok at h
    obtain ⟨d, w1, _, _, _, _, _, _, h5, rfl⟩ := h
    cases hcoll : d.coll with
    | none => simp only [hcoll, dropFromColl] at h5; frame_auto at h5; rfl
    | some j => simp only [hcoll, dropFromColl] at h5; frame_auto at h5; rfl
  all_goals simp only [transferNft, delegateNft, setRoyalty, createColl, burnColl, closeColl,
    limitColl, addToColl, addSecretShard, setCapsuleData, addCapsuleShard, notifyKey,
    setCollData] at h
  all_goals frame_auto at h
  all_goals rfl

theorem MktM.call_issuance {x : MktM.Call} (h : MktM.call c w a x = .ok w') :
    w'.bal.issuance = w.bal.issuance := by
  cases x <;> simp only [call] at h
  case create =>
    simp only [create] at h; inv_ok at h
    obtain ⟨b, _, h1, _, rfl⟩ := h
    exact (Bal.payFee_issuance h1).1
  case list =>
    simp only [list] at h; inv_ok at h
    obtain ⟨d, k, b, h⟩ := h
    obtain ⟨_, _, _, _, _, _, _, _, _, _, _, _, h1, rfl⟩ := h
    exact Bal.keep_issuance h1
  case buy =>
    simp only [buy] at h; inv_ok at h
    obtain ⟨d, s, k, b1, b2, b3, _, _, _, _, _, _, h1, _, h2, _, h3, rfl⟩ := h
    exact (Bal.keep_issuance h3).trans ((Bal.keep_issuance h2).trans (Bal.keep_issuance h1))
  all_goals simp only [setOwner, setKind, setConfig, unlist] at h
  all_goals frame_auto at h
  all_goals rfl

theorem TrM.call_issuance {x : TrM.Call} (h : TrM.call c w a x = .ok w') :
    w'.bal.issuance = w.bal.issuance := by
  cases x <;> simp only [call] at h
  case set =>
    simp only [set] at h; inv_ok at h
    obtain ⟨d, q, b, h⟩ := h
    obtain ⟨_, _, _, _, _, _, _, _, _, _, _, _, _, _, _, _, _, _, _, h1, rfl⟩ := h
    exact (Bal.payFee_issuance h1).1
  case remove =>
    simp only [remove] at h; inv_ok at h
    obtain ⟨d, t, hd, ho, h1, ht, h2, rfl⟩ := h
    rfl
  case resetTimer => simp only [resetTimer] at h; frame_auto at h; rfl
  case addConsent =>
    obtain ⟨d, t, x, hd, h1, ht, hx, h2, h3, h4, h5, h⟩ := addConsent_ok h
    rcases h with ⟨h6, rfl⟩ | ⟨h6, _, rfl⟩ | ⟨h6, e, q, _, _, _, _, rfl⟩ <;> rfl

/-! ## auction -/

theorem AucM.paySeq_soft (t : List (AccountId × Balance)) (b : Bal) (l : Live) :
    Softs c.ed c.aucPot b (paySeq c b c.aucPot l t).1 := by
  induction t generalizing b with
  | nil => exact .refl
  | cons x t ih =>
    obtain ⟨d, v⟩ := x
    simp only [paySeq]
    split
    · exact .refl
    · rename_i b' h; exact (Relation.ReflTransGen.single (.out h)).trans (ih b')

theorem AucM.payForNft_soft {n v d x} (w : World) :
    Softs c.ed c.aucPot w.bal (payForNft c w n c.aucPot v d x).1 := by
  unfold payForNft
  split
  · exact .refl
  · split
    · exact .refl
    · exact paySeq_soft _ _ _

theorem AucM.paySeq_keep {src : AccountId} (t : List (AccountId × Balance)) (b : Bal) :
    (paySeq c b src .keepAlive t).1.issuance = b.issuance := by
  induction t generalizing b with
  | nil => rfl
  | cons x t ih =>
    obtain ⟨d, v⟩ := x
    simp only [paySeq]
    split
    · rfl
    · rename_i b' h; exact (ih b').trans (Bal.keep_issuance h)

theorem AucM.call_loses {x : AucM.Call} (ha : a ≠ c.aucPot) (h : AucM.call c w a x = .ok w') :
    Loses c.ed c.aucPot w.bal w'.bal := by
  cases x <;> simp only [call] at h
  case end_ n =>
    simp only [end_] at h; inv_ok at h
    obtain ⟨d, x, top, b, _, _, _, _, _, h1, rfl⟩ := h
    refine Softs.loses ?_
    have := payForNft_soft (c := c) (n := n) (v := top.2) (d := d) (x := x) w
    rw [payForNftExt_ok h1] at this
    exact this
  case addBid =>
    simp only [addBid] at h; inv_ok at h
    obtain ⟨x, b, y, q, _, _, _, _, _, h1, _, _, rfl⟩ := h
    exact .inl (Bal.keep_issuance h1)
  case removeBid =>
    simp only [removeBidCall] at h; inv_ok at h
    obtain ⟨x, v, b, _, _, _, h1, rfl⟩ := h
    exact Softs.loses (.single (.out h1))
  case buyItNow =>
    simp only [buyItNow] at h; inv_ok at h
    obtain ⟨d, x, p, b, _, _, _, _, _, _, _, h1, rfl⟩ := h
    left
    have := payForNftExt_ok h1
    unfold payForNft at this
    simp only [ha, if_false] at this
    split at this
    · simp at this
    · split at this
      · simp at this
      · exact (congrArg (fun x => x.1.issuance) this).symm.trans (paySeq_keep _ _)
  case claim =>
    simp only [claim] at h; inv_ok at h
    obtain ⟨v, b, _, h1, rfl⟩ := h
    exact Softs.loses (.single (.out h1))
  all_goals simp only [create, cancel] at h
  all_goals frame_auto at h
  all_goals exact .inl rfl

theorem AucM.settleOne_soft (w : World) (n : NFTId) :
    Softs c.ed c.aucPot w.bal (settleOne c w n).1.bal := by
  unfold settleOne
  split
  · exact .refl
  · split
    · exact .refl
    · rename_i x _ _ d _
      split
      · rename_i top _
        have := payForNft_soft (c := c) (n := n) (v := top.2) (d := d) (x := x) w
        split
        · rename_i h; rw [h] at this; exact this
        · rename_i h; rw [h] at this; exact this
      · exact .refl

theorem AucM.hookLoop_soft (q : Queue) (w : World) (i : Nat) :
    Softs c.ed c.aucPot w.bal (hookLoop c w q i).1.bal := by
  induction q generalizing w i with
  | nil => exact .refl
  | cons x t ih =>
    obtain ⟨n, b⟩ := x
    simp only [hookLoop]
    have h := settleOne_soft (c := c) w n
    split
    · split
      · split
        · exact h
        · exact h.trans (ih _ _)
      · exact h.trans (ih _ _)
    · exact .refl

/-! ## rent -/

namespace RentM

theorem Refund.soft {n k b f} (h : Refund c w n k b f) : Softs c.ed c.rentPot w.bal b := by
  obtain ⟨d, b1, _, h1, h2, _⟩ := h
  exact (Relation.ReflTransGen.single (.out h1)).tail (.out h2)

theorem Ticks.soft (h : Ticks c w w') : Softs c.ed c.rentPot w.bal w'.bal := by
  induction h with
  | refl => exact .refl
  | tail _ h ih =>
    obtain ⟨hi, _, ht⟩ := h
    cases ht with
    | finish hk ho hf => exact ih.trans hf.soft
    | renew _ _ hk _ _ _ _ _ _ ht => exact ih.tail (.keep (hi.parties hk).1.symm ht)

theorem call_loses {x : RentM.Call} (h : RentM.call c w a x = .ok w') :
    Loses c.ed c.rentPot w.bal w'.bal := by
  have hs : ∀ {n k r}, startContract c w n k r = .ok w' → w'.bal.issuance = w.bal.issuance := by
    intro n k r h
    obtain ⟨w1, q, h1, h2, rfl⟩ := startContract_ok h
    obtain ⟨b1, b2, h3, h4, c1, c2, rfl⟩ := takeFees_ok h1
    exact (Bal.keep_issuance h4).trans (Bal.keep_issuance h3)
  cases x <;> simp only [call] at h
  case create =>
    obtain ⟨d, b, q, h⟩ := create_ok h
    obtain ⟨_, _, _, _, _, _, _, _, _, _, _, _, _, _, _, h1, _, _, rfl⟩ := h
    exact .inl (Bal.keep_issuance h1)
  case cancel =>
    simp only [cancel] at h; inv_ok at h
    obtain ⟨k, hk, h1, h2, h⟩ := h
    obtain ⟨k, d, b1, b2, hk, hd, h3, h4, rfl⟩ := finished_ok (ext_ok h)
    exact Softs.loses ((Relation.ReflTransGen.single (.out h3)).tail (.out h4))
  case revoke =>
    obtain ⟨k, r, d, b0, b1, b2, hk, hr, hp, hcr, hd, h0, h1, h2, _, rfl⟩ := revoke_ok h
    exact Softs.loses (((Relation.ReflTransGen.single (.out h0)).tail (.out h1)).tail (.out h2))
  case rent =>
    simp only [rent] at h; inv_ok at h
    obtain ⟨k, hk, _, _, _, _, _, h⟩ := h
    exact .inl (hs h)
  case acceptOffer =>
    simp only [acceptOffer] at h; inv_ok at h
    obtain ⟨k, l, hk, hl, _, hm, h⟩ := h
    exact .inl (hs h)
  all_goals simp only [makeOffer, retractOffer, changeTerms, acceptTerms] at h
  all_goals frame_auto at h
  all_goals exact .inl rfl

end RentM

theorem TeeM.call_loses {x : TeeM.Call} (h : TeeM.call c w a x = .ok w') :
    Loses c.ed c.teePot w.bal w'.bal := by
  have hl : ∀ (b : Bal) (y : AccountId) (v : Balance),
      (b.setLock y v).issuance = b.issuance := by
    intro b y v; simp only [Bal.setLock]; split <;> rfl
  cases x <;> simp only [call] at h
  case claim =>
    simp only [claim] at h; inv_ok at h
    obtain ⟨_, _, _, b, _, _, _, _, _, _, _, h1, rfl⟩ := h
    exact Softs.loses (.single (.out h1))
  case unregister =>
    simp only [unregister] at h
    split at h
    · simp only [unregisterAssigned] at h; frame_auto at h; exact .inl rfl
    · simp only [dropRegistration] at h; frame_auto at h; exact .inl rfl
  all_goals simp only [register, withdraw, bondExtra, refundExcess, update, dropUpdate,
    submitReport] at h
  all_goals frame_auto at h
  all_goals first | exact .inl rfl | exact .inl (hl _ _ _)
