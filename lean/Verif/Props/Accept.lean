import Verif.Proofs.AcceptNft
import Verif.Proofs.AcceptMkt
import Verif.Proofs.AcceptTr
import Verif.Proofs.AcceptTee
import Verif.Proofs.AcceptFee
import Verif.Props.Supply
/-
Properties C115 and C116: exactly when a call is accepted, and that lower fees never make one fail.
-/
variable {c : Cfg} {w w' : World} {a : AccountId}
set_option maxRecDepth 10000
open Spec Spec.Accept

/-- the same for a signed call -/
theorem signed_accept (hc : c.Ok) (hr : Reach c w) (ha : ¬ c.pot a) {x : Call} :
    (∃ w', signedCall c w a x = .ok w') ↔ Accepts c w (.signed a) x := by
  constructor
  · rintro ⟨w', h⟩
    have hd : dispatch c x (.signed a) w = .ok w' := by cases x <;> exact h
    refine ⟨C79 hc hr hd, C87_signed hd, ?_⟩
    cases x <;> simp only [signedCall] at h
    case nft => exact NftM.accept_fwd h
    case mkt => exact MktM.accept_fwd h
    case auc => exact AucM.accept_fwd hc hr ha h
    case rent => exact RentM.accept_fwd h
    case tr => exact TrM.accept_fwd h
    case tee => exact TeeM.accept_fwd h
    case br => exact BrM.accept_fwd h
    case bal d v l =>
      refine ⟨trivial, ?_⟩
      simp only [dues]
      refine transfer_one.1 ?_
      cases e : w.bal.transfer c.ed a d v l with
      | ok b => exact ⟨b, rfl⟩
      | error e' => rw [e] at h; simp [Except.map] at h
    all_goals simp at h
  · rintro ⟨he, hf, hm, hp⟩
    cases x <;> simp only [signedCall]
    case nft => exact NftM.accept_bwd hc hr he hf hm hp
    case mkt => exact MktM.accept_bwd hc hr he hf hm hp
    case auc => exact AucM.accept_bwd hc hr ha he hf hp
    case rent => exact RentM.accept_bwd hc hr he hf hm hp
    case tr => exact TrM.accept_bwd hc hr he hf hm hp
    case tee => exact TeeM.accept_bwd hr he hf hm hp
    case br => exact BrM.accept_bwd he hf hm hp
    case bal d v l =>
      simp only [dues] at hp
      obtain ⟨b, hb⟩ := transfer_one.2 hp
      exact ⟨w.putBal b, by rw [hb]; rfl⟩
    all_goals exact he.elim

/-- C115: a call is accepted exactly if its origin may make it, its object is in a state that allows it, there is room for
what it creates, and all payments it makes can be made in their order. -/
theorem C115 (hc : c.Ok) (hr : Reach c w) {x : Call} {o : Origin} (ho : ∀ a, o = .signed a → ¬ c.pot a) :
    (∃ w', dispatch c x o w = .ok w') ↔ Accepts c w o x := by
  have hs := someShards hc hr
  cases o with
  | signed a =>
    have : dispatch c x (.signed a) w = signedCall c w a x := by cases x <;> rfl
    rw [this]
    exact signed_accept hc hr (ho a rfl)
  | root =>
    cases x with
    | mandate y =>
      simp only [dispatch, Accepts, mandate_ok]
      rw [crashes_iff hc hr hs]
    | root y =>
      cases y with
      | tee y => exact TeeM.root_iff hr
      | _ => exact ⟨fun _ => trivial, fun _ => ⟨_, rfl⟩⟩
    | ext y => exact BrM.ext_iff
    | _ => simp [dispatch, Accepts]
  | ext =>
    cases x with
    | mandate y =>
      simp only [dispatch, Accepts, mandate_ok]
      rw [crashes_iff hc hr hs]
    | ext y => exact BrM.ext_iff
    | _ => simp [dispatch, Accepts]

-- account 1 mints an NFT and has 9995 tokens left; it can send 9985 and must keep an existential deposit of 10
example : Reach Demo.cfg (Demo.at_ [Demo.mint1]) ∧ (∀ a, Origin.signed 1 = .signed a → ¬ Demo.cfg.pot a) ∧
    Accepts Demo.cfg (Demo.at_ [Demo.mint1]) (.signed 1) (.bal 2 9985 .keepAlive) ∧
    ¬ Accepts Demo.cfg (Demo.at_ [Demo.mint1]) (.signed 1) (.bal 2 9986 .keepAlive) :=
  have hr : Reach Demo.cfg (Demo.at_ [Demo.mint1]) := Demo.reach _ (by decide)
  have ho : ∀ a, Origin.signed 1 = .signed a → ¬ Demo.cfg.pot a := by rintro a h; cases h; decide
  ⟨hr, ho, (C115 Demo.cfg_ok hr ho).1 ⟨_, Demo.accepted (by decide)⟩, fun h =>
    have ⟨_, h⟩ := (C115 Demo.cfg_ok hr ho).2 h
    absurd (show (dispatch Demo.cfg _ _ _).isOk = true by rw [h]; rfl) (by decide)⟩

-- the conditions themselves, in that state: the payment and nothing else
example : dues Demo.cfg (Demo.at_ [Demo.mint1]) 1 (.bal 2 9985 .keepAlive) = [pays 1 2 9985] ∧
    Due.Can 10 (purse (Demo.at_ [Demo.mint1]).bal) (pays 1 2 9985) ∧
    ¬ Due.Can 10 (purse (Demo.at_ [Demo.mint1]).bal) (pays 1 2 9986) := by
  refine ⟨rfl, ?_, ?_⟩ <;> simp only [Due.Can, Due.Idle, pays] <;> decide

-- buying NFT 0 for 1000 in the marketplace of account 2, which takes no commission: account 3 pays the royalty and the rest
example : let w := Demo.at_ [Demo.mint1, Demo.by_ 2 (.mkt (.create .pub)), Demo.by_ 1 (.mkt (.list 0 0 1000))]
    Reach Demo.cfg w ∧ dues Demo.cfg w 3 (.mkt (.buy 0 1000)) = [pays 3 2 0, pays 3 1 100, pays 3 1 900] ∧
      (dispatch Demo.cfg (.mkt (.buy 0 1000)) (.signed 3) w).isOk = true :=
  ⟨Demo.reach _ (by decide), by rfl, by decide⟩

/-- C116: a call that is accepted is accepted as well after any of the fees has been lowered. -/
theorem C116 (hc : c.Ok) (hr : Reach c w) (ha : ¬ c.pot a) {r x : Call} (hl : LowersFee w r)
    (h : dispatch c x (.signed a) w = .ok w') :
    ∃ w1, dispatch c x (.signed a) (step c w (.call .root r)) = .ok w1 :=
  have ho : ∀ b, Origin.signed a = .signed b → ¬ c.pot b := by rintro b h; cases h; exact ha
  (C115 hc (hr.step (.call .root r) trivial) ho).2 (lower_accepts hl ((C115 hc hr ho).1 ⟨w', h⟩))

-- the mint fee falls from 5 to 2, the bridge's from 3 to 0; account 1 can still mint
example : Reach Demo.cfg Demo.w0 ∧ LowersFee Demo.w0 (.root (.nftFee 2)) ∧ LowersFee Demo.w0 (.ext (.setFee 0)) ∧
    (dispatch Demo.cfg (.nft (.createNft [1] ⟨100000, by omega⟩ none false)) (.signed 1) Demo.w0).isOk = true :=
  ⟨.init Demo.genesis, by show (2 : Nat) ≤ 5; omega, by show (0 : Nat) ≤ 3; omega, by decide⟩
