import Verif.Proofs.Frame
/-
Every pallet moves tokens only by transfers and fee payments; who pays in which call.
-/
variable {c : Cfg} {w w' : World} {a : AccountId}

/-- One payment by an account in `S`. -/
inductive Pay (ed : Balance) (S : AccountId → Prop) : Bal → Bal → Prop where
  | transfer {b b' : Bal} {s d v l} : S s → b.transfer ed s d v l = .ok b' → Pay ed S b b'
  | fee {b b' : Bal} {s v} : S s → b.payFee ed s v = .ok b' → Pay ed S b b'

/-- Any number of payments by accounts in `S`. -/
abbrev Pays (ed : Balance) (S : AccountId → Prop) := Relation.ReflTransGen (Pay ed S)

namespace Pays
variable {ed : Balance} {S T : AccountId → Prop} {b b' : Bal}

theorem tr {s d v l} (hs : S s) (h : b.transfer ed s d v l = .ok b') : Pays ed S b b' :=
  .single (.transfer hs h)

theorem thenTr {s d v l} {b1 : Bal} (h1 : Pays ed S b b1) (hs : S s)
    (h : b1.transfer ed s d v l = .ok b') : Pays ed S b b' := h1.tail (.transfer hs h)

theorem fee {s v} (hs : S s) (h : b.payFee ed s v = .ok b') : Pays ed S b b' := .single (.fee hs h)

theorem weaken (h : Pays ed S b b') (hst : ∀ x, S x → T x) : Pays ed T b b' := by
  induction h with
  | refl => exact .refl
  | tail _ h ih =>
    cases h with
    | transfer hs h => exact ih.tail (.transfer (hst _ hs) h)
    | fee hs h => exact ih.tail (.fee (hst _ hs) h)

theorem wf (h : Pays ed S b b') (hw : b.WF ed) : b'.WF ed := by
  induction h with
  | refl => exact hw
  | tail _ h ih =>
    cases h with
    | transfer hs h => exact Bal.transfer_wf ih h
    | fee hs h => exact Bal.payFee_wf ih h

theorem mono (h : Pays ed S b b') : Bal.Mono S b b' := by
  induction h with
  | refl => exact .refl _
  | tail _ h ih =>
    cases h with
    | transfer hs h => exact ih.trans ((Bal.transfer_mono h).weaken (by rintro x rfl; exact hs))
    | fee hs h => exact ih.trans ((Bal.payFee_mono h).weaken (by rintro x rfl; exact hs))

theorem issuance (h : Pays ed S b b') : b'.issuance ≤ b.issuance ∧ b.collected ≤ b'.collected := by
  induction h with
  | refl => simp
  | tail _ h ih =>
    cases h with
    | transfer hs h =>
      have := Bal.transfer_issuance h
      have := (Bal.transfer_locks h).2.2
      omega
    | fee hs h => have := Bal.payFee_issuance h; omega

end Pays

theorem NftM.call_pays {x : NftM.Call} (h : NftM.call c w a x = .ok w') :
    Pays c.ed (· = a) w.bal w'.bal := by
  have hc : ∀ {w w' : World} {data roy coll sb}, createHelper c w a data roy coll sb = .ok w' →
      Pays c.ed (· = a) w.bal w'.bal := by
    intro w w' data roy coll sb h
    obtain ⟨b, w1, h1, h2, _, rfl⟩ := createHelper_ok h
    have : w1.bal = b := by
      cases coll with
      | none => simp only [pushToColl] at h2; frame_auto at h2; rfl
      | some j => simp only [pushToColl] at h2; frame_auto at h2; rfl
    show Pays _ _ _ w1.bal
    rw [this]; exact .fee rfl h1
  have hs : ∀ {w w' : World} {n data}, addSecretHelper c w a n data = .ok w' →
      Pays c.ed (· = a) w.bal w'.bal := by
    intro w w' n data h
    simp only [addSecretHelper] at h; inv_ok at h
    obtain ⟨d, b, _, _, _, _, _, _, _, _, h1, rfl⟩ := h
    exact .fee rfl h1
  have ht : ∀ {w w' : World} {n data}, toCapsuleHelper c w a n data = .ok w' →
      Pays c.ed (· = a) w.bal w'.bal := by
    intro w w' n data h
    simp only [toCapsuleHelper] at h; inv_ok at h
    obtain ⟨d, b, _, _, _, _, _, _, _, _, h1, rfl⟩ := h
    exact .fee rfl h1
  cases x <;> simp only [call] at h
  case createNft => exact hc h
  case addSecret => exact hs h
  case toCapsule => exact ht h
  case createSecret =>
    simp only [createSecret] at h; inv_ok at h
    obtain ⟨w1, _, h1, h2⟩ := h
    exact (hc h1).trans (hs h2)
  case createCapsule =>
    simp only [createCapsule] at h; inv_ok at h
    obtain ⟨w1, _, h1, h2⟩ := h
    exact (hc h1).trans (ht h2)
  case burnNft n =>
    simp only [burnNft] at h
    inv_ok at h
    obtain ⟨d, w1, _, _, _, _, _, _, h5, rfl⟩ := h
    cases hcoll : d.coll with
    | none => simp only [hcoll, dropFromColl] at h5; frame_auto at h5; exact .refl
    | some j => simp only [hcoll, dropFromColl] at h5; frame_auto at h5; exact .refl
  all_goals simp only [transferNft, delegateNft, setRoyalty, createColl, burnColl, closeColl,
    limitColl, addToColl, addSecretShard, setCapsuleData, addCapsuleShard, notifyKey,
    setCollData] at h
  all_goals frame_auto at h
  all_goals exact .refl

theorem MktM.call_pays {x : MktM.Call} (h : MktM.call c w a x = .ok w') :
    Pays c.ed (· = a) w.bal w'.bal := by
  cases x <;> simp only [call] at h
  case create =>
    simp only [create] at h; inv_ok at h
    obtain ⟨b, _, h1, _, rfl⟩ := h
    exact .fee rfl h1
  case list =>
    simp only [list] at h; inv_ok at h
    obtain ⟨d, k, b, h⟩ := h
    obtain ⟨_, _, _, _, _, _, _, _, _, _, _, _, h1, rfl⟩ := h
    exact .tr rfl h1
  case buy =>
    simp only [buy] at h; inv_ok at h
    obtain ⟨d, s, k, b1, b2, b3, _, _, _, _, _, _, h1, _, h2, _, h3, rfl⟩ := h
    exact ((Pays.tr (S := (· = a)) rfl h1).thenTr rfl h2).thenTr rfl h3
  all_goals simp only [setOwner, setKind, setConfig, unlist] at h
  all_goals frame_auto at h
  all_goals exact .refl

theorem AucM.paySeq_pays {src l} (t : List (AccountId × Balance)) (b : Bal) :
    Pays c.ed (· = src) b (paySeq c b src l t).1 := by
  induction t generalizing b with
  | nil => exact .refl
  | cons x t ih =>
    obtain ⟨d, v⟩ := x
    simp only [paySeq]
    split
    · exact .refl
    · rename_i b' h; exact (Pays.tr (S := (· = src)) rfl h).trans (ih b')

theorem AucM.payForNft_pays {n src v d x} (w : World) :
    Pays c.ed (· = src) w.bal (payForNft c w n src v d x).1 := by
  unfold payForNft
  split
  · exact .refl
  · split
    · exact .refl
    · exact paySeq_pays _ _

theorem AucM.payForNftExt_ok {n src v d x b} (h : payForNftExt c w n src v d x = .ok b) :
    payForNft c w n src v d x = (b, .ok ()) := by
  unfold payForNftExt at h
  split at h
  · rename_i e; simp only [Except.ok.injEq] at h; subst h; exact e
  · simp at h

theorem AucM.payForNftExt_pays {n src v d x b} (h : payForNftExt c w n src v d x = .ok b) :
    Pays c.ed (· = src) w.bal b := by
  have := payForNft_pays (c := c) (n := n) (src := src) (v := v) (d := d) (x := x) w
  rw [payForNftExt_ok h] at this
  exact this

theorem AucM.call_pays {x : AucM.Call} (h : AucM.call c w a x = .ok w') :
    Pays c.ed (fun x => x = a ∨ x = c.aucPot) w.bal w'.bal := by
  cases x <;> simp only [call] at h
  case end_ =>
    simp only [end_] at h; inv_ok at h
    obtain ⟨d, x, top, b, _, _, _, _, _, h1, rfl⟩ := h
    exact (payForNftExt_pays h1).weaken fun _ h => Or.inr h
  case addBid =>
    simp only [addBid] at h; inv_ok at h
    obtain ⟨x, b, y, q, _, _, _, _, _, h1, _, _, rfl⟩ := h
    exact .tr (Or.inl rfl) h1
  case removeBid =>
    simp only [removeBidCall] at h; inv_ok at h
    obtain ⟨x, v, b, _, _, _, h1, rfl⟩ := h
    exact .tr (Or.inr rfl) h1
  case buyItNow =>
    simp only [buyItNow] at h; inv_ok at h
    obtain ⟨d, x, p, b, _, _, _, _, _, _, _, h1, rfl⟩ := h
    exact (payForNftExt_pays h1).weaken fun _ h => Or.inl h
  case claim =>
    simp only [claim] at h; inv_ok at h
    obtain ⟨v, b, _, h1, rfl⟩ := h
    exact .tr (Or.inr rfl) h1
  all_goals simp only [create, cancel] at h
  all_goals frame_auto at h
  all_goals exact .refl

theorem AucM.settleOne_pays (w : World) (n : NFTId) :
    Pays c.ed (· = c.aucPot) w.bal (settleOne c w n).1.bal := by
  unfold settleOne
  split
  · exact .refl
  · split
    · exact .refl
    · rename_i x _ _ d _
      split
      · rename_i top _
        have := payForNft_pays (c := c) (n := n) (src := c.aucPot) (v := top.2) (d := d) (x := x) w
        split
        · rename_i h; rw [h] at this; exact this
        · rename_i h; rw [h] at this; exact this
      · exact .refl

theorem AucM.hookLoop_pays (q : Queue) (w : World) (i : Nat) :
    Pays c.ed (· = c.aucPot) w.bal (hookLoop c w q i).1.bal := by
  induction q generalizing w i with
  | nil => exact .refl
  | cons x t ih =>
    obtain ⟨n, b⟩ := x
    simp only [hookLoop]
    have h := settleOne_pays (c := c) w n
    split
    · split
      · split
        · exact h
        · exact h.trans (ih _ _)
      · exact h.trans (ih _ _)
    · exact .refl

theorem AucM.hook_pays (w : World) : Pays c.ed (· = c.aucPot) w.bal (hook c w).bal :=
  hookLoop_pays _ w 0

/-- who may have to pay in a rent call: caller, pot, and the account whose offer is accepted -/
def RentM.payer (c : Cfg) (w : World) (a : AccountId) : RentM.Call → AccountId → Prop
  | .acceptOffer n r => fun x => x = c.rentPot ∨
      (x = r ∧ ∃ l, w.rent.offers.get n = some l ∧ r ∈ l)
  | _ => fun x => x = a ∨ x = c.rentPot

theorem RentM.call_pays {x : RentM.Call} (h : RentM.call c w a x = .ok w') :
    Pays c.ed (RentM.payer c w a x) w.bal w'.bal := by
  have hs : ∀ {n k r}, startContract c w n k r = .ok w' →
      Pays c.ed (fun x => x = r) w.bal w'.bal := by
    intro n k r h
    obtain ⟨w1, q, h1, h2, rfl⟩ := startContract_ok h
    obtain ⟨b1, b2, h3, h4, c1, c2, rfl⟩ := takeFees_ok h1
    exact (Pays.tr (S := (· = r)) rfl h3).thenTr rfl h4
  cases x <;> simp only [call] at h <;> simp only [payer]
  case create =>
    obtain ⟨d, b, q, h⟩ := create_ok h
    obtain ⟨_, _, _, _, _, _, _, _, _, _, _, _, _, _, _, h1, _, _, rfl⟩ := h
    exact .tr (Or.inl rfl) h1
  case cancel =>
    simp only [cancel] at h; inv_ok at h
    obtain ⟨k, hk, h1, h2, h⟩ := h
    obtain ⟨k, d, b1, b2, hk, hd, h3, h4, rfl⟩ := finished_ok (ext_ok h)
    exact (Pays.tr (S := fun x => x = a ∨ x = c.rentPot) (Or.inr rfl) h3).thenTr (Or.inr rfl) h4
  case revoke =>
    obtain ⟨k, r, d, b0, b1, b2, hk, hr, hp, hcr, hd, h0, h1, h2, _, rfl⟩ := revoke_ok h
    exact ((Pays.tr (S := fun x => x = a ∨ x = c.rentPot) (Or.inr rfl) h0).thenTr (Or.inr rfl) h1).thenTr (Or.inr rfl) h2
  case rent =>
    simp only [rent] at h; inv_ok at h
    obtain ⟨k, hk, _, _, _, _, _, h⟩ := h
    exact (hs h).weaken fun _ h => Or.inl h
  case acceptOffer =>
    simp only [acceptOffer] at h; inv_ok at h
    obtain ⟨k, l, hk, hl, _, hm, h⟩ := h
    exact (hs h).weaken fun _ h => Or.inr ⟨h, l, hl, hm⟩
  all_goals simp only [makeOffer, retractOffer, changeTerms, acceptTerms] at h
  all_goals frame_auto at h
  all_goals exact .refl

theorem TrM.call_pays {x : TrM.Call} (h : TrM.call c w a x = .ok w') :
    Pays c.ed (· = a) w.bal w'.bal := by
  cases x <;> simp only [call] at h
  case set =>
    simp only [set] at h; inv_ok at h
    obtain ⟨d, q, b, h⟩ := h
    obtain ⟨_, _, _, _, _, _, _, _, _, _, _, _, _, _, _, _, _, _, _, h1, rfl⟩ := h
    exact .fee rfl h1
  case remove =>
    simp only [remove] at h; inv_ok at h
    obtain ⟨d, t, hd, ho, h1, ht, h2, rfl⟩ := h
    exact .refl
  case resetTimer => simp only [resetTimer] at h; frame_auto at h; exact .refl
  case addConsent =>
    obtain ⟨d, t, x, hd, h1, ht, hx, h2, h3, h4, h5, h⟩ := addConsent_ok h
    rcases h with ⟨h6, rfl⟩ | ⟨h6, _, rfl⟩ | ⟨h6, e, q, _, _, _, _, rfl⟩ <;> exact .refl

theorem RentM.payAct_pays {S : AccountId → Prop} (w : World) {s d v l} (hs : S s) :
    Pays c.ed S w.bal (payAct c s d v l w).1.bal := by
  unfold payAct; split
  · rename_i h; exact .tr hs h
  · exact .refl

theorem RentM.chownOpt_pays {S : AccountId → Prop} (w : World) (m a) :
    Pays c.ed S w.bal (chownOpt m a w).1.bal := by
  unfold chownOpt
  split
  · unfold chownAct; split <;> exact .refl
  · exact .refl

theorem RentM.seq_pays {S : AccountId → Prop} {f g : Act}
    (hf : ∀ w, Pays c.ed S w.bal (f w).1.bal)
    (hg : ∀ w, Pays c.ed S w.bal (g w).1.bal) (w : World) :
    Pays c.ed S w.bal (f.seq g w).1.bal := by
  unfold Act.seq
  have h := hf w
  split
  · rename_i w1 e; rw [e] at h; exact h.trans (hg w1)
  · rename_i w1 e1 e; rw [e] at h; exact h

theorem RentM.handleFinished_pays (w : World) (n : NFTId) :
    Pays c.ed (· = c.rentPot) w.bal (handleFinished c n w).1.bal := by
  unfold handleFinished
  split
  · exact .refl
  · rename_i k hk
    split
    · exact .refl
    · refine seq_pays (S := (· = c.rentPot)) (fun w => payAct_pays w rfl) (seq_pays ?_ (seq_pays
        (fun w => chownOpt_pays w ..) (seq_pays ?_ ?_))) w
      · intro w; cases k.rentee with
        | some r => exact payAct_pays (S := (· = c.rentPot)) w rfl
        | none => exact .refl
      · intro w; cases k.rentee with
        | some r => exact chownOpt_pays w ..
        | none => exact .refl
      · intro w; exact .refl

theorem RentM.finishLoop_pays (q : Queue) (w : World) (i : Nat) :
    Pays c.ed (· = c.rentPot) w.bal (finishLoop c w q i).1.bal := by
  induction q generalizing w i with
  | nil => exact .refl
  | cons x t ih =>
    obtain ⟨n, b⟩ := x
    simp only [finishLoop]
    have h := handleFinished_pays (c := c) w n
    split
    · split
      · exact h
      · exact h.trans (ih _ _)
    · exact .refl

/-- a rentee of a running subscription whose rent is paid in tokens -/
def RentM.subscriber (w : World) (x : AccountId) : Prop :=
  ∃ n k s, w.rent.contracts.get n = some k ∧ k.rentee = some x ∧ k.duration = .sub s

/-- A rentee of some contract. -/
def RentM.renting (w : World) (x : AccountId) : Prop :=
  ∃ n k, w.rent.contracts.get n = some k ∧ k.rentee = some x

theorem RentM.handleSub_pays (w : World) (n : NFTId) :
    Pays c.ed (renting w) w.bal (handleSub c w n).1.bal := by
  unfold handleSub
  split
  · exact .refl
  · rename_i k hk
    split
    · rename_i r fee hr hf
      split
      · exact .refl
      · split
        · exact .refl
        · rename_i h; exact .tr ⟨n, k, hk, hr⟩ h
    · exact .refl

/-- the rentees can only get fewer -/
def RentM.SubsLe (w w' : World) : Prop := ∀ n k, w'.rent.contracts.get n = some k →
  w.rent.contracts.get n = some k

theorem RentM.SubsLe.trans {w1 w2 w3 : World} (h1 : SubsLe w1 w2) (h2 : SubsLe w2 w3) :
    SubsLe w1 w3 := fun n k h => h1 n k (h2 n k h)

theorem RentM.seq_le {f g : Act} (hf : ∀ w, SubsLe w (f w).1)
    (hg : ∀ w, SubsLe w (g w).1) (w : World) : SubsLe w (f.seq g w).1 := by
  unfold Act.seq
  have h := hf w
  split
  · rename_i w1 e; rw [e] at h; exact h.trans (hg w1)
  · rename_i w1 e1 e; rw [e] at h; exact h

theorem RentM.payAct_le (w : World) (s d v l) : SubsLe w (payAct c s d v l w).1 := by
  unfold payAct; split <;> exact fun _ _ h => h

theorem RentM.chownOpt_le (w : World) (m a) : SubsLe w (chownOpt m a w).1 := by
  unfold chownOpt
  split
  · unfold chownAct; split <;> exact fun _ _ h => h
  · exact fun _ _ h => h

theorem RentM.handleFinished_le (w : World) (n : NFTId) :
    SubsLe w (handleFinished c n w).1 := by
  unfold handleFinished
  split
  · exact fun _ _ h => h
  · rename_i k hk
    split
    · exact fun _ _ h => h
    · refine seq_le (fun w => payAct_le w _ _ _ _) (seq_le ?_ (seq_le
        (fun w => chownOpt_le w _ _) (seq_le ?_ ?_))) w
      · intro w; cases k.rentee with
        | some r => exact payAct_le w _ _ _ _
        | none => exact fun _ _ h => h
      · intro w; cases k.rentee with
        | some r => exact chownOpt_le w _ _
        | none => exact fun _ _ h => h
      · intro w m k h
        simp only [World.putNft, FMap.get_erase] at h
        split at h
        · simp at h
        · exact h

theorem RentM.finishLoop_le (q : Queue) (w : World) (i : Nat) :
    SubsLe w (finishLoop c w q i).1 := by
  induction q generalizing w i with
  | nil => exact fun _ _ h => h
  | cons x t ih =>
    obtain ⟨n, b⟩ := x
    simp only [finishLoop]
    have h := handleFinished_le (c := c) w n
    split
    · split
      · exact h
      · exact h.trans (ih _ _)
    · exact fun _ _ h => h

theorem RentM.handleSub_le (w : World) (n : NFTId) : SubsLe w (handleSub c w n).1 := by
  have := handleSub_frame (c := c) w n
  intro m k h
  rw [this] at h; exact h

theorem RentM.subOne_le (w : World) (n : NFTId) (t : Queue) : SubsLe w (subOne c w n t).1 := by
  unfold subOne
  have h := handleSub_le (c := c) w n
  split
  · rename_i w1 b e; rw [e] at h; exact h
  · rename_i w1 e; rw [e] at h; exact h.trans (handleFinished_le _ _)

theorem RentM.subOne_pays (w : World) (n : NFTId) (t : Queue) :
    Pays c.ed (fun x => x = c.rentPot ∨ renting w x) w.bal (subOne c w n t).1.bal := by
  unfold subOne
  have h := handleSub_pays (c := c) w n
  split
  · rename_i w1 b e; rw [e] at h; exact h.weaken fun _ h => Or.inr h
  · rename_i w1 e; rw [e] at h
    exact (h.weaken fun _ h => Or.inr h).trans
      ((handleFinished_pays w1 n).weaken fun _ h => Or.inl h)

theorem RentM.renting_le (h : SubsLe w w') {x} (hx : renting w' x) : renting w x := by
  obtain ⟨n, k, h1, h2⟩ := hx; exact ⟨n, k, h n k h1, h2⟩

theorem RentM.subLoop_pays (fuel : Nat) (w : World) (q : Queue) (i : Nat) :
    Pays c.ed (fun x => x = c.rentPot ∨ renting w x) w.bal (subLoop c w q i fuel).1.bal := by
  induction fuel generalizing w q i with
  | zero => exact .refl
  | succ f ih =>
    unfold subLoop
    split
    · exact .refl
    · rename_i n b t
      have h := subOne_pays (c := c) w n t
      have hl := subOne_le (c := c) w n t
      split
      · dsimp only
        split
        · exact h
        · exact h.trans ((ih _ _ _).weaken fun x hx => hx.imp id (renting_le hl))
      · exact .refl

theorem RentM.hook_pays (w : World) :
    Pays c.ed (fun x => x = c.rentPot ∨ renting w x) w.bal (hook c w).bal := by
  unfold hook
  have h1 := finishLoop_pays (c := c) w.rent.fixedQ w 0
  have l1 := finishLoop_le (c := c) w.rent.fixedQ w 0
  have h2 := subLoop_pays (c := c) (max 1 (c.rentActions - (finishLoop c w w.rent.fixedQ 0).2.2))
    (finishLoop c w w.rent.fixedQ 0).1 w.rent.subQ (finishLoop c w w.rent.fixedQ 0).2.2
  have h3 := finishLoop_pays (c := c) w.rent.availQ (subLoop c (finishLoop c w w.rent.fixedQ 0).1
    w.rent.subQ (finishLoop c w w.rent.fixedQ 0).2.2
    (max 1 (c.rentActions - (finishLoop c w w.rent.fixedQ 0).2.2))).1
    (subLoop c (finishLoop c w w.rent.fixedQ 0).1 w.rent.subQ (finishLoop c w w.rent.fixedQ 0).2.2
    (max 1 (c.rentActions - (finishLoop c w w.rent.fixedQ 0).2.2))).2.2
  have h := ((h1.weaken fun x hx => Or.inl hx).trans
    (h2.weaken fun x hx => hx.imp id (renting_le l1))).trans (h3.weaken fun x hx => Or.inl hx)
  dsimp only
  split <;> exact h

/-! ## the books always balance -/

/-- Balances invariant: books balance, pallet accounts carry no lock. -/
structure BalInv (c : Cfg) (b : Bal) : Prop where
  wf : b.WF c.ed
  pots : ∀ a, c.pot a → b.frozen a = 0

theorem BalInv.pays {S} {b b' : Bal} (hi : BalInv c b) (h : Pays c.ed S b b') : BalInv c b' :=
  ⟨h.wf hi.wf, fun a ha => by rw [Bal.frozen_mono h.mono]; exact hi.pots a ha⟩

theorem BalInv.mono {S} {b b' : Bal} (hi : BalInv c b) (hw : b'.WF c.ed) (h : Bal.Mono S b b') :
    BalInv c b' :=
  ⟨hw, fun a ha => by rw [Bal.frozen_mono h]; exact hi.pots a ha⟩

theorem TeeM.call_bal {x : TeeM.Call} (h : TeeM.call c w a x = .ok w') :
    (w'.bal.tee = w.bal.tee ∧ Pays c.ed (· = c.teePot) w.bal w'.bal) ∨
    (∃ m, w'.bal = { w.bal with tee := m } ∧ ∀ x, x ≠ a → m.get x = w.bal.tee.get x) := by
  cases x <;> simp only [call] at h
  case register =>
    simp only [register] at h; frame_auto at h
    simp only [World.putBal, Bal.setLock]
    split
    · left; exact ⟨rfl, .refl⟩
    · right; exact ⟨_, rfl, fun x hx => FMap.get_insert_ne _ _ hx⟩
  case unregister =>
    simp only [unregister] at h
    split at h
    · simp only [unregisterAssigned] at h; frame_auto at h; left; exact ⟨rfl, .refl⟩
    · simp only [dropRegistration] at h; frame_auto at h
      right; exact ⟨_, rfl, fun x hx => FMap.get_erase_ne _ hx⟩
  case withdraw =>
    simp only [withdraw] at h; frame_auto at h
    right; exact ⟨_, rfl, fun x hx => FMap.get_erase_ne _ hx⟩
  case claim =>
    simp only [claim] at h; inv_ok at h
    obtain ⟨_, _, _, b, _, _, _, _, _, _, _, h1, rfl⟩ := h
    left; exact ⟨(Bal.transfer_locks h1).1, .tr rfl h1⟩
  case bondExtra =>
    simp only [bondExtra] at h; frame_auto at h
    simp only [World.putBal, Bal.setLock]
    split
    · left; exact ⟨rfl, .refl⟩
    · right; exact ⟨_, rfl, fun x hx => FMap.get_insert_ne _ _ hx⟩
  case refundExcess =>
    simp only [refundExcess] at h; frame_auto at h
    simp only [World.putBal, Bal.setLock]
    split
    · left; exact ⟨rfl, .refl⟩
    · right; exact ⟨_, rfl, fun x hx => FMap.get_insert_ne _ _ hx⟩
  all_goals simp only [update, dropUpdate, submitReport] at h
  all_goals frame_auto at h
  all_goals left; exact ⟨rfl, .refl⟩

theorem TeeM.root_bal {x : TeeM.RootCall} (h : TeeM.root c w x = .ok w') :
    w'.bal = w.bal ∨ ∃ op, x = .removeRegistration op ∧ w'.bal = w.bal.removeLock op := by
  have hu : ∀ {op w'}, unassign w op = .ok w' → w'.bal = w.bal := by
    intro op w' h; simp only [unassign] at h; frame_auto at h; rfl
  cases x <;> simp only [root] at h
  case removeRegistration op =>
    simp only [dropRegistration] at h; frame_auto at h
    right; exact ⟨op, rfl, rfl⟩
  case approveUnregister =>
    simp only [approveUnregister] at h; inv_ok at h
    exact Or.inl (hu h.2)
  case forceRemove =>
    simp only [forceRemove] at h; inv_ok at h
    obtain ⟨w1, s, h1, h2, rfl⟩ := h
    have := hu h1; exact Or.inl this
  case approveUpdate =>
    simp only [approveUpdate] at h; inv_ok at h
    obtain ⟨u, e, w1, _, _, _, _, h1, rfl⟩ := h
    unfold approveAddr at h1
    split at h1
    · frame_auto at h1; exact Or.inl rfl
    · frame_auto at h1; exact Or.inl rfl
  case forceUpdate op addr uri =>
    simp only [forceUpdate] at h; inv_ok at h
    obtain ⟨e, y, _, _, h1, _, rfl⟩ := h
    cases addr with
    | none => simp only [forceAddr] at h1; frame_auto at h1; exact Or.inl rfl
    | some ad =>
      simp only [forceAddr] at h1; inv_ok at h1
      obtain ⟨_, _, rfl⟩ := h1
      dsimp only
      split <;> exact Or.inl rfl
  all_goals simp only [assign, dropUpdate, createCluster, updateCluster,
    removeCluster, registerServer, unregisterServer, setServerType, setWeights, setStakingAmount,
    setPool, setAssignedEra] at h
  all_goals frame_auto at h
  all_goals exact Or.inl rfl

theorem BalInv.teeErase {b : Bal} (hi : BalInv c b) (op : AccountId) : BalInv c (b.removeLock op) := by
  refine ⟨⟨hi.wf.ed, hi.wf.sum, hi.wf.max⟩, fun a ha => ?_⟩
  have h := hi.pots a ha
  simp only [Bal.frozen, Bal.removeLock, FMap.get_erase] at h ⊢
  split
  · simp; omega
  · exact h

theorem BrM.call_bal {x : BrM.Call} (hi : BalInv c w.bal) (h : BrM.call c w a x = .ok w') :
    BalInv c w'.bal := by
  cases x <;> simp only [call] at h
  case vote k t =>
    simp only [voteFor] at h; inv_ok at h
    obtain ⟨y, _, _, _, rfl⟩ := h
    cases y.2
    · exact hi
    · exact hi.mono (S := fun _ => False) (Bal.mint_wf hi.wf) (Bal.mint_mono ..)
  case deposit =>
    simp only [deposit] at h; inv_ok at h
    obtain ⟨b1, b2, _, _, h1, h2, rfl⟩ := h
    have i1 := hi.pays (S := (· = a)) (.fee rfl h1)
    have m := Bal.withdraw_mono h2
    exact i1.mono (S := (· = a)) (Bal.burn_wf i1.wf h2) ⟨m.free, m.tee, m.other⟩

theorem RewM.txFee_bal {p f t au} (hi : BalInv c w.bal) (h : RewM.txFee c w p f t au = .ok w') :
    BalInv c w'.bal := by
  simp only [txFee] at h; inv_ok at h
  obtain ⟨b, h1, rfl⟩ := h
  have m := Bal.withdraw_mono h1
  have i1 : BalInv c (b.burn (f + t)) :=
    hi.mono (S := (· = p)) (Bal.burn_wf hi.wf h1) ⟨m.free, m.tee, m.other⟩
  cases au with
  | none => exact i1
  | some x => exact i1.mono (S := fun _ => False) (Bal.mint_wf i1.wf) (Bal.mint_mono ..)

theorem RewM.eraPayout_bal (hi : BalInv c w.bal) : BalInv c (RewM.eraPayout c w).1.bal := by
  unfold eraPayout
  dsimp only [World.putBal, World.ev]
  split
  · rename_i b h1
    have m := Bal.withdraw_mono h1
    exact hi.mono (S := (· = c.rewPot)) (Bal.burn_wf hi.wf h1) ⟨m.free, m.tee, m.other⟩
  · exact hi

theorem Micro.bal_inv (h : Micro c w w') (hi : BalInv c w.bal) : BalInv c w'.bal := by
  cases h with
  | nft x ha h => exact hi.pays (NftM.call_pays h)
  | mkt x ha h => exact hi.pays (MktM.call_pays h)
  | auc x ha h => exact hi.pays (AucM.call_pays h)
  | rent x ha h => exact hi.pays (RentM.call_pays h)
  | tr x ha h => exact hi.pays (TrM.call_pays h)
  | @tee _ y x ha h =>
    rcases TeeM.call_bal h with ⟨_, h⟩ | ⟨m, e, hm⟩
    · exact hi.pays h
    · rw [e]
      refine ⟨⟨hi.wf.ed, hi.wf.sum, hi.wf.max⟩, fun p hp => ?_⟩
      have hne : p ≠ y := fun e => ha (e ▸ hp)
      have := hi.pots p hp
      simp only [Bal.frozen] at this ⊢
      rw [hm p hne]; exact this
  | br x ha h => exact BrM.call_bal hi h
  | bal ha h => exact hi.pays (.tr (S := fun _ => True) trivial h)
  | nftFee | secretFee | capsuleFee | mktFee => exact hi
  | trFee k x => cases k <;> exact hi
  | teeRoot x h =>
    rcases TeeM.root_bal h with e | ⟨op, _, e⟩
    · rw [e]; exact hi
    · rw [e]; exact hi.teeErase op
  | ext x h => have := congrArg World.bal (BrM.ext_frame h); dsimp only at this; rw [this]; exact hi
  | mandated ok => exact hi
  | hookAuc => exact hi.pays (AucM.hook_pays w)
  | hookRent => exact hi.pays (RentM.hook_pays w)
  | hookTr =>
    have := congrArg World.bal (TrM.hook_frame (c := c) w); dsimp only at this; rw [this]; exact hi
  | hookTee =>
    have := congrArg World.bal (TeeM.hook_frame (c := c) w); dsimp only at this; rw [this]; exact hi
  | tick | era => exact hi
  | txFee hp h => exact RewM.txFee_bal hi h
  | eraPayout => exact RewM.eraPayout_bal hi
  | mint a v => exact hi.mono (S := fun _ => False) (Bal.mint_wf hi.wf) (Bal.mint_mono ..)
  | lock a v ha =>
    refine ⟨⟨hi.wf.ed, hi.wf.sum, hi.wf.max⟩, fun p hp => ?_⟩
    have hne : p ≠ a := fun e => ha (e ▸ hp)
    have := hi.pots p hp
    simp only [Bal.frozen, World.putBal] at this ⊢
    rw [FMap.get_insert_ne _ _ hne]; exact this

theorem MReach.balInv (h : MReach c w) : BalInv c w.bal := by
  induction h with
  | init hg =>
    refine ⟨⟨hg.bal.ed, hg.bal.sum, hg.bal.max⟩, fun a ha => ?_⟩
    simp [Bal.frozen, hg.bal.tee, hg.bal.pots a ha]
  | step _ hm ih => exact hm.bal_inv ih
