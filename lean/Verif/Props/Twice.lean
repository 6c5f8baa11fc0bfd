import Verif.Proofs.Twice
import Verif.Props.Rent
import Verif.Proofs.AucPay
/-
Property C118: a call made twice counts once.
-/
variable {c : Cfg} {w w' w'' : World} {a : AccountId}
set_option maxRecDepth 10000
open Spec

/-- Whoever makes the same call twice in a row, for example because it was sent twice by mistake, does nothing more than with
one call: the second call is refused, or it leaves everything stored as it is.  The exceptions are the calls that make
something new or send tokens. -/
theorem C118_once (hc : c.Ok) (hr : Reach c w) {x : Call} {o : Origin} (hx : ¬ EachCounts x)
    (h1 : dispatch c x o w = .ok w') (h2 : dispatch c x o w' = .ok w'') : OnlyEvents w' w'' :=
  dispatch_twice hc hr (hr.offers_nodup hc) hx h1 h2

/-- making an NFT raises the next number, so something changes -/
theorem NftM.createHelper_counts {w1 : World} {data roy coll sb}
    (h : NftM.createHelper c w a data roy coll sb = .ok w1) : w1.nft.nextNft = w.nft.nextNft + 1 := by
  obtain ⟨b, w2, -, -, -, rfl⟩ := NftM.createHelper_ok h
  rfl

/-- The exceptions are exceptions: each time such a signed call is accepted something changes, unless it sends nothing or to
oneself. -/
theorem C118_counts {x : Call} (hx : EachCounts x) (h : dispatch c x (.signed a) w = .ok w') (he : OnlyEvents w w') :
    ∃ d v l, x = .bal d v l ∧ (v = 0 ∨ d = a) := by
  have en : w'.nft = w.nft := by rw [he]
  have em : w'.mkt = w.mkt := by rw [he]
  have eb : w'.br = w.br := by rw [he]
  have ef : w'.bal = w.bal := by rw [he]
  clear he
  cases x with
  | nft x =>
    exfalso
    cases x <;> try exact hx
    case createNft =>
      have := NftM.createHelper_counts (h : NftM.createHelper .. = _)
      rw [en] at this; omega
    case createSecret =>
      simp only [dispatch, signedCall, NftM.call, NftM.createSecret] at h
      inv_ok at h
      obtain ⟨w1, -, h1, h2⟩ := h
      have h3 := NftM.createHelper_counts h1
      have h4 : w'.nft.nextNft = w1.nft.nextNft := by
        unfold NftM.addSecretHelper at h2
        inv_ok at h2
        casesm* _ ∧ _, ∃ _, _
        subst_vars
        rfl
      rw [en] at h4; omega
    case createCapsule =>
      simp only [dispatch, signedCall, NftM.call, NftM.createCapsule] at h
      inv_ok at h
      obtain ⟨w1, -, h1, h2⟩ := h
      have h3 := NftM.createHelper_counts h1
      have h4 : w'.nft.nextNft = w1.nft.nextNft := by
        unfold NftM.toCapsuleHelper at h2
        inv_ok at h2
        casesm* _ ∧ _, ∃ _, _
        subst_vars
        rfl
      rw [en] at h4; omega
    case createColl =>
      simp only [dispatch, signedCall, NftM.call, NftM.createColl] at h
      inv_ok at h
      obtain ⟨k, -, h1, rfl⟩ := h
      have h2 : k = w.nft.nextColl := congrArg NftSt.nextColl en
      split at h1
      · cases h1; omega
      · cases h1
  | mkt x =>
    exfalso
    cases x <;> try exact hx
    simp only [dispatch, signedCall, MktM.call, MktM.create] at h
    inv_ok at h
    obtain ⟨b, k, -, h1, rfl⟩ := h
    have h2 : k = w.mkt.next := congrArg MktSt.next em
    split at h1
    · cases h1; omega
    · cases h1
  | br x =>
    exfalso
    cases x <;> try exact hx
    simp only [dispatch, signedCall, BrM.call, BrM.deposit] at h
    inv_ok at h
    rename_i v r k
    obtain ⟨b, b', h1, -, -, -, rfl⟩ := h
    have h2 := congrArg (fun z : BrSt => (z.nonces.get k).getD 0) eb
    simp only [World.ev, World.putBal, FMap.get_insert, if_true, Option.getD_some] at h2
    simp only [U64MAX] at h2
    omega
  | bal d v l =>
    refine ⟨d, v, l, rfl, ?_⟩
    by_cases hd : d = a
    · exact .inr hd
    simp only [dispatch, signedCall] at h
    cases ht : w.bal.transfer c.ed a d v l with
    | error e => rw [ht] at h; cases h
    | ok b =>
      rw [ht] at h
      cases h
      obtain ⟨δ, h1, -⟩ := Bal.transfer_moves ht
      have h2 := h1 d hd
      have h3 : b = w.bal := ef
      rw [h3] at h2
      simp only [_root_.gets, if_true] at h2
      omega
  | root x => cases h
  | mandate x => cases h
  | _ => exact hx.elim

/-- royalty set twice: the second call is accepted and changes nothing -/
example : ∃ w' w'', dispatch Demo.cfg (.nft (.setRoyalty 0 ⟨5, by omega⟩)) (.signed 1) (Demo.at_ [Demo.mint1]) = .ok w' ∧
    dispatch Demo.cfg (.nft (.setRoyalty 0 ⟨5, by omega⟩)) (.signed 1) w' = .ok w'' ∧ OnlyEvents w' w'' := by
  refine ⟨_, _, rfl, rfl, ?_⟩
  exact C118_once (c := Demo.cfg) (w := Demo.at_ [Demo.mint1]) (x := .nft (.setRoyalty 0 ⟨5, by omega⟩)) (o := .signed 1) Demo.cfg_ok
    (Demo.reach [Demo.mint1] (by decide)) (fun h => h) rfl rfl

/-- ten tokens sent twice count twice -/
example : ∃ w' w'', dispatch Demo.cfg (.bal 2 10 .keepAlive) (.signed 1) (Demo.at_ []) = .ok w' ∧
    dispatch Demo.cfg (.bal 2 10 .keepAlive) (.signed 1) w' = .ok w'' ∧ ¬ OnlyEvents w' w'' := by
  refine ⟨_, _, rfl, rfl, fun h => ?_⟩
  obtain ⟨d, v, l, e, h⟩ := C118_counts (c := Demo.cfg) (x := .bal 2 10 .keepAlive) (a := 1) trivial rfl h
  cases e
  revert h
  decide
