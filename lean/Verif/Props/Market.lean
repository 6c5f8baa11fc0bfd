import Verif.Proofs.MktStep
import Verif.Props.Demo
/-
Properties C14–C18: fees and marketplaces.
-/
variable {c : Cfg} {w w' : World} {a : AccountId}
set_option maxRecDepth 10000

/- Specification -/
namespace Spec

/-- the fee setting of each kind of transmission protocol -/
def protocolFee (w : World) : Protocol → Balance
  | .atBlock _ => w.tr.feeAt
  | .atBlockWithReset _ => w.tr.feeReset
  | .onConsent _ _ => w.tr.feeConsent
  | .onConsentAtBlock _ _ _ => w.tr.feeConsentAt

/-- the configured fee of a call that costs one -/
def feeOf (w : World) : Call → Option Balance
  | .nft (.createNft ..) => some w.nft.fee
  | .nft (.createSecret ..) => some (w.nft.fee + w.nft.secretFee)
  | .nft (.createCapsule ..) => some (w.nft.fee + w.nft.capsuleFee)
  | .nft (.addSecret ..) => some w.nft.secretFee
  | .nft (.toCapsule ..) => some w.nft.capsuleFee
  | .mkt (.create _) => some w.mkt.fee
  | .tr (.set _ _ p _) => some (protocolFee w p)
  | _ => none

/-- `a` paid exactly `f` to the fee collector and no other balance, lock or issuance changed -/
structure PaidFee (b b' : Bal) (a : AccountId) (f : Balance) : Prop where
  payer : b'.freeOf a + f = b.freeOf a
  others : ∀ x, x ≠ a → b'.freeOf x = b.freeOf x
  collected : b'.collected = b.collected + f
  issuance : b'.issuance = b.issuance
  locks : b'.tee = b.tee ∧ b'.other = b.other

/-- a commission on a price: a flat amount, or a share in parts per million, rounded to the nearest -/
def commission (price : Balance) : Option CompoundFee → Balance
  | none => 0
  | some (.flat x) => x
  | some (.percentage p) => p.mul price

/-- a setting after a configuration entry -/
def configure {α : Type} (old : Option α) : ConfigOp α → Option α
  | .noop => old
  | .remove => none
  | .set x => some x

/-- what `v` means for `x` if `y` is to receive it -/
def gets (x y : AccountId) (v : Balance) : Balance := if x = y then v else 0

/-- may `who` list an NFT of collection `coll` on this marketplace? -/
def Allowed (k : Mkt) (who : AccountId) (coll : Option CollId) : Prop :=
  let named := (∃ l, k.accounts = some l ∧ who ∈ l) ∨ ∃ j l, coll = some j ∧ k.colls = some l ∧ j ∈ l
  match k.kind with
  | .pub => ¬ named
  | .priv => named

end Spec

/- C14 -/

theorem Spec.PaidFee.of_pay {b b' : Bal} {v : Balance} (h : b.payFee c.ed a v = .ok b') :
    Spec.PaidFee b b' a v := by
  have h1 := Bal.payFee_free h
  have h2 := Bal.payFee_le h
  have h3 := Bal.payFee_issuance h
  have h4 := Bal.payFee_mono h
  refine ⟨?_, fun x hx => ?_, h3.2, h3.1, h4.tee, h4.other⟩
  · rw [h1, if_pos rfl]; omega
  · rw [h1, if_neg hx]

theorem Spec.PaidFee.trans {b1 b2 b3 : Bal} {u v : Balance} (h : Spec.PaidFee b1 b2 a u)
    (h' : Spec.PaidFee b2 b3 a v) : Spec.PaidFee b1 b3 a (u + v) := by
  obtain ⟨p1, p2, p3, p4, p5⟩ := h
  obtain ⟨q1, q2, q3, q4, q5⟩ := h'
  refine ⟨by omega, fun x hx => (q2 x hx).trans (p2 x hx), by omega, q4.trans p4,
    q5.1.trans p5.1, q5.2.trans p5.2⟩

/-- A successful minting, secret, capsule, marketplace creation or protocol call takes exactly the
configured fee from the caller, hands it to the collector, and touches no other balance. -/
theorem C14 {x : Call} {f : Balance} (hf : Spec.feeOf w x = some f)
    (h : dispatch c x (.signed a) w = .ok w') : Spec.PaidFee w.bal w'.bal a f := by
  have hcr : ∀ {w w' : World} {data roy coll sb}, NftM.createHelper c w a data roy coll sb = .ok w' →
      Spec.PaidFee w.bal w'.bal a w.nft.fee ∧ w'.nft.secretFee = w.nft.secretFee ∧
        w'.nft.capsuleFee = w.nft.capsuleFee := by
    intro w w' data roy coll sb h
    obtain ⟨b, w1, h1, h2, _, rfl⟩ := NftM.createHelper_ok h
    have e : w1.bal = b ∧ w1.nft.secretFee = w.nft.secretFee ∧
        w1.nft.capsuleFee = w.nft.capsuleFee := by
      cases coll with
      | none => simp [NftM.pushToColl] at h2; cases h2; exact ⟨rfl, rfl, rfl⟩
      | some k =>
        simp only [NftM.pushToColl] at h2; inv_ok at h2
        repeat' (obtain ⟨_, h2⟩ := h2)
        exact ⟨rfl, rfl, rfl⟩
    obtain ⟨rfl, e2, e3⟩ := e
    exact ⟨.of_pay h1, e2, e3⟩
  have hse : ∀ {w w' : World} {n data}, NftM.addSecretHelper c w a n data = .ok w' →
      Spec.PaidFee w.bal w'.bal a w.nft.secretFee := by
    intro w w' n data h
    simp only [NftM.addSecretHelper] at h; inv_ok at h
    obtain ⟨d, b, _, _, _, _, _, _, _, _, h1, rfl⟩ := h
    exact .of_pay h1
  have hca : ∀ {w w' : World} {n data}, NftM.toCapsuleHelper c w a n data = .ok w' →
      Spec.PaidFee w.bal w'.bal a w.nft.capsuleFee := by
    intro w w' n data h
    simp only [NftM.toCapsuleHelper] at h; inv_ok at h
    obtain ⟨d, b, _, _, _, _, _, _, _, _, h1, rfl⟩ := h
    exact .of_pay h1
  cases x <;> simp only [Spec.feeOf, reduceCtorEq] at hf
  case nft x =>
    simp only [dispatch, signedCall] at h
    cases x <;> simp only [Option.some.injEq, reduceCtorEq] at hf <;> subst hf <;>
      simp only [NftM.call] at h
    case createNft => exact (hcr h).1
    case addSecret => exact hse h
    case createSecret =>
      simp only [NftM.createSecret] at h; inv_ok at h
      obtain ⟨w1, _, h1, h2⟩ := h
      have := hse h2
      rw [(hcr h1).2.1] at this
      exact (hcr h1).1.trans this
    case toCapsule => exact hca h
    case createCapsule =>
      simp only [NftM.createCapsule] at h; inv_ok at h
      obtain ⟨w1, _, h1, h2⟩ := h
      have := hca h2
      rw [(hcr h1).2.2] at this
      exact (hcr h1).1.trans this
  case mkt x =>
    simp only [dispatch, signedCall] at h
    cases x <;> simp only [Option.some.injEq, reduceCtorEq] at hf
    subst hf
    simp only [MktM.call, MktM.create] at h; inv_ok at h
    obtain ⟨b, _, h1, _, rfl⟩ := h
    exact .of_pay h1
  case tr x =>
    simp only [dispatch, signedCall] at h
    cases x <;> simp only [Option.some.injEq, reduceCtorEq] at hf
    rename_i n r p k
    subst hf
    simp only [TrM.call, TrM.set] at h; inv_ok at h
    obtain ⟨d, q, b, h⟩ := h
    obtain ⟨_, _, _, _, _, _, _, _, _, _, _, _, _, _, _, _, _, _, _, h1, rfl⟩ := h
    have e : TrM.protocolFee w.tr (TrM.kind p) = Spec.protocolFee w p := by cases p <;> rfl
    rw [e] at h1
    exact .of_pay h1

example : (dispatch Demo.cfg (.nft (.createSecret [1] [2] ⟨0, by omega⟩ none false)) (.signed 1) Demo.w0).toOption.map
      (fun w => (w.bal.freeOf 1, w.bal.collected)) = some (9989, 11) ∧
    Spec.feeOf Demo.w0 (.nft (.createSecret [1] [2] ⟨0, by omega⟩ none false)) = some 11 := by decide

/- C15 -/

/-- A `KeepAlive` transfer moves exactly `v`. -/
theorem Spec.transfer_moves {b b' : Bal} {s d : AccountId} {v : Balance}
    (h : b.transfer c.ed s d v .keepAlive = .ok b') (x : AccountId) :
    b'.freeOf x + Spec.gets x s v = b.freeOf x + Spec.gets x d v := by
  by_cases hsd : s = d
  · subst hsd; rw [Bal.transfer_self h]
  · have h1 := Bal.transfer_keep h x hsd
    have h2 := Bal.transfer_le h hsd
    rw [h1]
    unfold Spec.gets
    by_cases e : x = s <;> by_cases e' : x = d <;> simp_all <;> omega

theorem Spec.transfer_keep_issuance {b b' : Bal} {s d : AccountId} {v : Balance}
    (h : b.transfer c.ed s d v .keepAlive = .ok b') : b'.issuance = b.issuance := by
  rcases Bal.transfer_issuance h with h | ⟨_, _, h, _⟩
  · exact h
  · simp at h

theorem Spec.commission_eq (p : Balance) (f : Option CompoundFee) :
    Spec.commission p f = MktM.feeOnOpt p f := by
  cases f with
  | none => rfl
  | some f => cases f <;> rfl

/-- A successful purchase: the buyer pays exactly the price they signed, which is split without loss
into commission for the marketplace's owner, royalty for the NFT's creator on the rest, and the
seller's part; these parties may coincide in any way, also with the buyer.  Nobody else's balance
changes. -/
theorem C15 {n : NFTId} {p : Balance}
    (h : dispatch c (.mkt (.buy n p)) (.signed a) w = .ok w') :
    ∃ d s k m r rest, w.nfts.get n = some d ∧ w.mkt.sales.get n = some s ∧
      w.mkt.mkts.get s.mkt = some k ∧ s.price = p ∧ s.seller ≠ a ∧
      m = Spec.commission p s.commission ∧ r = d.royalty.mul (p - m) ∧ m + r + rest = p ∧
      (∀ x, w'.bal.freeOf x + Spec.gets x a p = w.bal.freeOf x +
        (Spec.gets x k.owner m + Spec.gets x d.creator r + Spec.gets x s.seller rest)) ∧
      w'.bal.issuance = w.bal.issuance ∧ w'.bal.collected = w.bal.collected ∧
      w'.nfts.get n = some { d with owner := a, st := { d.st with listed := false } } ∧
      w'.mkt.sales.get n = none := by
  simp only [dispatch, signedCall, MktM.call, MktM.buy] at h
  inv_ok at h
  obtain ⟨d, s, k, b1, b2, b3, hd, hs, hk, h1, h2, h3, t1, h4, t2, h5, t3, rfl⟩ := h
  subst h2
  refine ⟨d, s, k, MktM.feeOnOpt s.price s.commission, _,
    s.price - MktM.feeOnOpt s.price s.commission -
      d.royalty.mul (s.price - MktM.feeOnOpt s.price s.commission), hd, hs, hk, rfl, h1,
    (Spec.commission_eq _ _).symm, rfl, ?_, fun x => ?_, ?_, ?_, by simp [World.putNft],
    by simp⟩
  rotate_left
  · have m1 := Spec.transfer_moves t1 x
    have m2 := Spec.transfer_moves t2 x
    have m3 := Spec.transfer_moves t3 x
    show b3.freeOf x + _ = _
    have e : Spec.gets x a s.price = Spec.gets x a (MktM.feeOnOpt s.price s.commission) +
        Spec.gets x a (d.royalty.mul (s.price - MktM.feeOnOpt s.price s.commission)) +
        Spec.gets x a (s.price - MktM.feeOnOpt s.price s.commission -
          d.royalty.mul (s.price - MktM.feeOnOpt s.price s.commission)) := by
      unfold Spec.gets; split <;> omega
    rw [e]
    omega
  · show b3.issuance = _
    rw [Spec.transfer_keep_issuance t3, Spec.transfer_keep_issuance t2, Spec.transfer_keep_issuance t1]
  · show b3.collected = _
    rw [(Bal.transfer_locks t3).2.2, (Bal.transfer_locks t2).2.2, (Bal.transfer_locks t1).2.2]
  · omega

/-- account 3 opens a marketplace with 10 % commission; account 1 lists NFT 0 there for 1000 -/
abbrev listed : List Op :=
  [Demo.mint1, Demo.by_ 3 (.mkt (.create .pub)),
   Demo.by_ 3 (.mkt (.setConfig 0 (.set (.percentage ⟨100000, by omega⟩)) .noop .noop .noop .noop)),
   Demo.by_ 1 (.mkt (.list 0 0 1000))]

example : Reach Demo.cfg (Demo.at_ listed) ∧
    (dispatch Demo.cfg (.mkt (.buy 0 1000)) (.signed 2) (Demo.at_ listed)).toOption.map
      (fun w => (w.bal.freeOf 2, w.bal.freeOf 3, w.bal.freeOf 1)) =
      some (10000 - 1000, 10000 - 8 + 100, 10000 - 5 + 90 + 810) :=
  ⟨Demo.reach _ (by decide), by decide⟩

/-- The commission of a listing on record never exceeds its price, and the marketplace exists. -/
theorem C15_commission (hr : Reach c w) {n : NFTId} {s : Sale} (h : w.mkt.sales.get n = some s) :
    Spec.commission s.price s.commission ≤ s.price ∧ w.mkt.mkts.get s.mkt ≠ none := by
  induction hr generalizing s with
  | init hg => rw [hg.mkt.2.2] at h; simp at h
  | @step w o hr ho ih =>
    have hm := (step_mkt (c := c) w o ho s.mkt).2
    have hkeep : w.mkt.mkts.get s.mkt ≠ none → (step c w o).mkt.mkts.get s.mkt ≠ none := by
      intro hne
      rcases hm with ⟨_, e⟩ | ⟨_, e⟩
      · rw [Ne, e]; exact hne
      · rw [Ne, e]; exact fun h => hne h.2
    have := step_sale (c := c) w o ho n
    rw [h] at this
    generalize he : some s = os at this
    cases this with
    | same =>
      have := ih he.symm
      exact ⟨this.1, hkeep this.2⟩
    | list h1 h2 h3 h4 h5 h6 =>
      simp at he; subst he
      refine ⟨?_, hkeep (by rw [h4]; simp)⟩
      rename_i k
      cases hk : k.commission with
      | none => simp [Spec.commission]
      | some f =>
        cases f with
        | flat x => rw [hk] at h6; simpa [MktM.covers, Spec.commission] using h6
        | percentage p => exact p.mul_le _
    | unlist => simp at he
    | buy => simp at he

/- C16 -/

/-- A listing keeps its price, commission, marketplace and seller, and the seller keeps the NFT, until
one operation ends it: the seller's unlisting, or somebody else's purchase at that price. -/
theorem C16 (hc : c.Ok) (hr : Reach c w) {n : NFTId} {s : Sale} (h : w.mkt.sales.get n = some s)
    (l : List Op) (hl : ∀ o ∈ l, o.Ok c) :
    (run c w l).mkt.sales.get n = some s ∧
      (∃ d, (run c w l).nfts.get n = some d ∧ d.owner = s.seller ∧ d.st.listed = true) ∨
    ∃ l1 o l2, l = l1 ++ o :: l2 ∧ (run c w l1).mkt.sales.get n = some s ∧
      (run c w (l1 ++ [o])).mkt.sales.get n = none ∧
      (o = .call (.signed s.seller) (.mkt (.unlist n)) ∨
       ∃ b, b ≠ s.seller ∧ o = .call (.signed b) (.mkt (.buy n s.price))) := by
  have owner : ∀ {w}, Reach c w → w.mkt.sales.get n = some s →
      ∃ d, w.nfts.get n = some d ∧ d.owner = s.seller ∧ d.st.listed = true := by
    intro w hr h
    have g := (hr.inv hc).good n
    obtain ⟨d, hd⟩ := g.some_of (fun e => by
      have := congrArg Slice.sale e; simp [slice, Slice.blank, h] at this)
    have := g.nft d hd
    exact ⟨d, hd, (this.seller s h).symm, this.listed.2 (Or.inl (by
      show w.mkt.sales.get n ≠ none; rw [h]; simp))⟩
  induction l generalizing w with
  | nil => exact Or.inl ⟨h, owner hr h⟩
  | cons o t ih =>
    have ho := hl o (by simp)
    have hm := step_sale (c := c) w o ho n
    generalize he : (step c w o).mkt.sales.get n = os at hm
    cases hm with
    | same =>
      rcases ih (hr.step o ho) (he.trans h) (fun y hy => hl y (by simp [hy])) with
        h' | ⟨l1, o', l2, rfl, h1, h2, h3⟩
      · exact Or.inl h'
      · exact Or.inr ⟨o :: l1, o', l2, rfl, h1, h2, h3⟩
    | list h1 h2 h3 =>
      obtain ⟨d, hd, _, hl⟩ := owner hr h
      rw [h1] at hd; simp at hd; subst hd
      rw [h3] at hl; simp at hl
    | unlist h1 h2 =>
      obtain ⟨d, hd, hs, hl⟩ := owner hr h
      rw [h1] at hd; simp at hd; subst hd
      subst h2
      refine Or.inr ⟨[], _, t, rfl, h, he, Or.inl ?_⟩
      rw [hs]
    | buy h1 h2 =>
      rw [h] at h1; simp at h1; subst h1
      exact Or.inr ⟨[], _, t, rfl, h, he, Or.inr ⟨_, fun e => h2 e.symm, rfl⟩⟩

example : Reach Demo.cfg (Demo.at_ listed) ∧
    (Demo.at_ (listed ++ [Demo.by_ 3 (.mkt (.setConfig 0 .remove .noop .noop .noop .noop))])).mkt.sales.get 0 =
      some ⟨1, 0, 1000, some (.percentage ⟨100000, by omega⟩)⟩ :=
  ⟨Demo.reach _ (by decide), by decide⟩

/- C17 -/

theorem Spec.configure_eq {α : Type} (x : Option α) (o : ConfigOp α) :
    Spec.configure x o = MktM.apply x o := by cases o <;> rfl

/-- A marketplace never disappears, and changes only by a call of its current owner: `set_owner`
changes only the owner, `set_kind` only the kind, and a configuration sets, removes or keeps each setting as it says. -/
theorem C17 (w : World) (o : Op) (ho : o.Ok c) {m : MktId} {k : Mkt}
    (hi : m < w.mkt.next) (h : w.mkt.mkts.get m = some k) :
    ∃ k', (step c w o).mkt.mkts.get m = some k' ∧
      (k' = k ∨
       (∃ r, o = .call (.signed k.owner) (.mkt (.setOwner m r)) ∧ k' = { k with owner := r }) ∨
       (∃ t, o = .call (.signed k.owner) (.mkt (.setKind m t)) ∧ k' = { k with kind := t }) ∨
       (∃ f l ac oc cs, o = .call (.signed k.owner) (.mkt (.setConfig m f l ac oc cs)) ∧
          k' = { k with
            commission := Spec.configure k.commission f
            listing := Spec.configure k.listing l
            accounts := Spec.configure k.accounts ac
            offchain := Spec.configure k.offchain oc
            colls := Spec.configure k.colls cs })) := by
  have hm := (step_mkt (c := c) w o ho m).1
  generalize he : (step c w o).mkt.mkts.get m = ok at hm
  cases hm with
  | same => exact ⟨k, h, Or.inl rfl⟩
  | new h1 => omega
  | owner h1 =>
    rw [h] at h1; simp at h1; subst h1
    exact ⟨_, rfl, Or.inr (Or.inl ⟨_, rfl, rfl⟩)⟩
  | kind h1 =>
    rw [h] at h1; simp at h1; subst h1
    exact ⟨_, rfl, Or.inr (Or.inr (Or.inl ⟨_, rfl, rfl⟩))⟩
  | config h1 =>
    rw [h] at h1; simp at h1; subst h1
    refine ⟨_, rfl, Or.inr (Or.inr (Or.inr ⟨_, _, _, _, _, rfl, ?_⟩))⟩
    simp only [Spec.configure_eq]

/-- The marketplaces in existence are exactly the ids handed out so far. -/
theorem C17_ids (hr : Reach c w) (m : MktId) : w.mkt.mkts.get m ≠ none ↔ m < w.mkt.next := by
  induction hr with
  | init hg => rw [hg.mkt.1, hg.mkt.2.1]; simp
  | @step w o hr ho ih =>
    rcases (step_mkt (c := c) w o ho m).2 with ⟨e1, e2⟩ | ⟨e1, e2⟩
    · rw [e1, Ne, e2]; exact ih
    · rw [e1, Ne, e2]
      constructor
      · intro h
        by_cases e : m = w.mkt.next
        · omega
        · have := ih.1 (fun h' => h ⟨e, h'⟩); omega
      · intro h ⟨h1, h2⟩
        exact ih.2 (by omega) h2

/-- A new marketplace gets an id that no marketplace had before, and belongs to its creator. -/
theorem C17_new (hr : Reach c w) (o : Op) (ho : o.Ok c) {m : MktId} {k : Mkt}
    (h0 : w.mkt.mkts.get m = none) (h : (step c w o).mkt.mkts.get m = some k) :
    m = w.mkt.next ∧ (step c w o).mkt.next = w.mkt.next + 1 ∧
      ∃ t, o = .call (.signed k.owner) (.mkt (.create t)) ∧ k.kind = t := by
  have hm := step_mkt (c := c) w o ho m
  have hn : (step c w o).mkt.next = w.mkt.next + 1 := by
    rcases hm.2 with ⟨_, e2⟩ | ⟨e1, _⟩
    · have := (e2 m).2 h0; rw [h] at this; simp at this
    · exact e1
  have hm := hm.1
  generalize he : (step c w o).mkt.mkts.get m = ok at hm
  cases hm with
  | same => rw [h0] at he; rw [h] at he; simp at he
  | new h1 =>
    rw [h] at he; simp at he; subst he
    exact ⟨h1, hn, _, rfl, rfl⟩
  | owner h1 => rw [h0] at h1; simp at h1
  | kind h1 => rw [h0] at h1; simp at h1
  | config h1 => rw [h0] at h1; simp at h1

example : Reach Demo.cfg (Demo.at_ listed) ∧ (Demo.at_ listed).mkt.next = 1 ∧
    ((Demo.at_ listed).mkt.mkts.get 0).map (·.owner) = some 3 ∧
    ((Demo.at_ (listed ++ [Demo.by_ 2 (.mkt (.setOwner 0 4)), Demo.by_ 3 (.mkt (.setOwner 0 5)),
      Demo.by_ 3 (.mkt (.setKind 0 .priv))])).mkt.mkts.get 0).map (fun k => (k.owner, k.kind)) =
      some (5, .pub) :=
  ⟨Demo.reach _ (by decide), by decide, by decide, by decide⟩

/- C18 -/

theorem Spec.allowed_iff (k : Mkt) (who : AccountId) (coll : Option CollId) :
    MktM.allowedToList k who coll = true ↔ Spec.Allowed k who coll := by
  unfold MktM.allowedToList Spec.Allowed
  cases hk : k.kind <;> cases ha : k.accounts <;> cases hc : coll <;> cases hs : k.colls <;> simp <;> grind

/-- Whoever gets an NFT listed for sale owns it, signed the call, and was allowed on that marketplace
at that moment. -/
theorem C18_sale (w : World) (o : Op) (ho : o.Ok c) {n : NFTId} {s : Sale}
    (h0 : w.mkt.sales.get n ≠ some s) (h : (step c w o).mkt.sales.get n = some s) :
    ∃ d k, w.nfts.get n = some d ∧ d.owner = s.seller ∧ w.mkt.mkts.get s.mkt = some k ∧
      Spec.Allowed k s.seller d.coll ∧ s.commission = k.commission ∧
      o = .call (.signed s.seller) (.mkt (.list n s.mkt s.price)) := by
  have hm := step_sale (c := c) w o ho n
  rw [h] at hm
  generalize he : some s = os at hm
  cases hm with
  | same => exact absurd he.symm h0
  | list h1 h2 h3 h4 h5 h6 =>
    simp at he; subst he
    exact ⟨_, _, h1, h2, h4, (Spec.allowed_iff _ _ _).1 h5, rfl, rfl⟩
  | unlist => simp at he
  | buy => simp at he

/-- The access rule is exact: `list_nft` is refused for lack of access only if the rule forbids it. -/
theorem C18_exact {n : NFTId} {m : MktId} {p : Balance} {d : NFTData} {k : Mkt}
    (hd : w.nfts.get n = some d) (hk : w.mkt.mkts.get m = some k) (h : Spec.Allowed k a d.coll) :
    dispatch c (.mkt (.list n m p)) (.signed a) w ≠ .error (.e "NotAllowedToList") := by
  have h' := (Spec.allowed_iff _ _ _).2 h
  have ht : ∀ {b : Bal} {x y : AccountId} {v : Balance},
      b.transfer c.ed x y v .keepAlive ≠ .error (.e "NotAllowedToList") := by
    intro b x y v he
    unfold Bal.transfer at he
    split at he
    · simp at he
    simp only [Exec.bind_err, Exec.require_err, Exec.pure_err] at he
    grind
  intro he
  simp only [dispatch, signedCall, MktM.call, MktM.list, Exec.bind_err, Exec.require_err,
    Exec.getOr_err, Exec.getOr_ok, Exec.require_ok, Exec.pure_err, hd, hk] at he
  simp at he
  grind

example : Reach Demo.cfg (Demo.at_ listed) ∧ (Demo.at_ listed).mkt.sales.get 0 ≠ none ∧
    (Demo.at_ (listed.dropLast ++ [Demo.by_ 3 (.mkt (.setKind 0 .priv)),
      Demo.by_ 1 (.mkt (.list 0 0 1000))])).mkt.sales.get 0 = none :=
  ⟨Demo.reach _ (by decide), by decide, by decide⟩

-- account 2 buys the listed NFT
example := C15 (Demo.accepted (l := listed) (x := .mkt (.buy 0 1000)) (o := .signed 2) (by decide))

/-- the sale in `listed` -/
abbrev listedSale : Sale := ⟨1, 0, 1000, some (.percentage ⟨100000, by omega⟩)⟩

example := C15_commission (Demo.reach listed (by decide)) (n := 0) (s := listedSale) rfl

-- the owner of a marketplace gives it away
example := C17 (c := Demo.cfg) (Demo.at_ listed) (Demo.by_ 3 (.mkt (.setOwner 0 5))) (by decide) (m := 0) (by decide)
  (k := ⟨3, .pub, some (.percentage ⟨100000, by omega⟩), none, none, none, none⟩) rfl

example := C17_ids (Demo.reach listed (by decide)) 0

-- the listing itself
example := C18_sale (c := Demo.cfg) (Demo.at_ (listed.take 3)) (Demo.by_ 1 (.mkt (.list 0 0 1000))) (by decide) (n := 0)
  (s := listedSale) (by decide) rfl
