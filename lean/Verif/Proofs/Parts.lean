import Verif.Props.PartsSpec
import Verif.Proofs.Override
import Verif.Proofs.TeeStake
import Verif.Props.Exit
/-
Lemmas for C126.
-/
open Spec

variable {c : Cfg} {w w' : World} {a : AccountId}

namespace Parts

theorem ok_bind {α β : Type} {x : Except Err α} {f : α → Except Err β} {b : β} :
    x.bind f = .ok b ↔ ∃ y, x = .ok y ∧ f y = .ok b := by
  cases x <;> simp [Except.bind]

theorem one {o : Origin} {x : Call} : batch c w [(o, x)] = dispatch c x o w := by
  simp only [batch]; cases dispatch c x o w <;> rfl

theorem two {o o' : Origin} {x x' : Call} : batch c w [(o, x), (o', x')] = .ok w' ↔
    ∃ w1, dispatch c x o w = .ok w1 ∧ dispatch c x' o' w1 = .ok w' := by
  show (dispatch c x o w).bind _ = _ ↔ _
  rw [ok_bind]
  constructor
  · rintro ⟨y, h1, h2⟩; refine ⟨y, h1, ?_⟩; rw [← h2]; exact one.symm
  · rintro ⟨y, h1, h2⟩; refine ⟨y, h1, ?_⟩; rw [← h2]; exact one

/-- two ways that lead to the same state with the same events -/
theorem leads {o : Origin} {x : Call} {l : List (Origin × Call)}
    (h : ∀ w', dispatch c x o w = .ok w' ↔ batch c w l = .ok w') (v : World) : Leads c w [(o, x)] v ↔ Leads c w l v := by
  unfold Leads
  simp only [one, h]

/-- after paying two fees the check for their sum, wrapped or not, passes too -/
theorem paid_check {ed : Balance} {b b1 b2 : Bal} {u v : Balance} (h1 : b.payFee ed a u = .ok b1)
    (h2 : b1.payFee ed a v = .ok b2) : b.balanceCheck a ((u + v) % (U128MAX + 1)) := by
  have hle : (u + v) % (U128MAX + 1) ≤ u + v := Nat.mod_le _ _
  obtain ⟨p1, g1, rfl⟩ := Bal.payFee_ok h1
  obtain ⟨p2, g2, rfl⟩ := Bal.payFee_ok h2
  have f1 : ∀ x, (p1.collect u).freeOf x = p1.freeOf x := fun _ => rfl
  have f2 : (p1.collect u).frozen a = p1.frozen a := rfl
  have z : ∀ (b b' : Bal) (v : Balance), b.withdraw ed a v .keepAlive = .ok b' →
      v ≤ b.freeOf a ∧ b'.freeOf a = b.freeOf a - v ∧ b'.frozen a = b.frozen a ∧ (v ≠ 0 → b.frozen a ≤ b.freeOf a - v) := by
    intro b b' v h
    rcases Bal.withdraw_ok h with ⟨rfl, rfl⟩ | ⟨h1, h2, h3, rfl⟩
    · exact ⟨Nat.zero_le _, by simp, rfl, fun h => absurd rfl h⟩
    · have h4 : ed ≤ b.freeOf a - v := by
        by_contra hlt
        have := (h3.2 (by omega)).1
        simp at this
      have e1 : b.settle ed a (b.freeOf a - v) = b.setFree a (b.freeOf a - v) := by
        unfold Bal.settle; rw [if_neg (by omega)]
      rw [e1]
      exact ⟨h2, by rw [Bal.freeOf_setFree, if_pos rfl], rfl, fun _ => h3.1⟩
  obtain ⟨a1, a2, a3, a4⟩ := z _ _ _ g1
  obtain ⟨b1, b2, b3, b4⟩ := z _ _ _ g2
  rw [f1, a2] at b1 b4
  rw [f2, a3] at b4
  refine ⟨by omega, ?_⟩
  unfold Bal.ensureCanWithdraw
  by_cases hz : (u + v) % (U128MAX + 1) = 0
  · exact .inl hz
  · right
    by_cases hv : v = 0
    · have := a4 (by omega); omega
    · have := b4 hv; omega

theorem push_frame {id k} (h : NftM.pushToColl c w a id k = .ok w') : ∃ f, w' = { w with nft := { w.nft with colls := f } } := by
  cases k with
  | none => simp only [NftM.pushToColl] at h; inv_ok at h; subst h; exact ⟨w.nft.colls, rfl⟩
  | some k =>
    simp only [NftM.pushToColl] at h; inv_ok at h
    obtain ⟨col, _, _, _, _, _, rfl⟩ := h
    exact ⟨_, rfl⟩

theorem create_frame {d r k sb} (h : NftM.createHelper c w a d r k sb = .ok w') :
    w'.nft.nextNft = w.nft.nextNft + 1 ∧ w'.nft.secretFee = w.nft.secretFee ∧ w'.nft.capsuleFee = w.nft.capsuleFee ∧
      w.bal.payFee c.ed a w.nft.fee = .ok w'.bal := by
  simp only [NftM.createHelper] at h
  inv_ok at h
  obtain ⟨b, w1, ⟨id, w2⟩, hb, hp, hn, rfl⟩ := h
  obtain ⟨f, rfl⟩ := push_frame hp
  simp only [NftM.nextNftId, expectSome] at hn
  split at hn
  · simp only [bind, Except.bind, pure, Except.pure, Except.ok.injEq, Prod.mk.injEq] at hn
    obtain ⟨rfl, rfl⟩ := hn
    rename_i hs
    split at hs
    · cases hs
      exact ⟨rfl, rfl, rfl, hb⟩
    · cases hs
  · cases hn

end Parts
open Parts

namespace NftM

theorem secret_parts {d s r k sb} : dispatch c (.nft (.createSecret d s r k sb)) (.signed a) w = .ok w' ↔
    batch c w [(.signed a, .nft (.createNft d r k sb)), (.signed a, .nft (.addSecret w.nft.nextNft s))] = .ok w' := by
  rw [two]
  simp only [dispatch, signedCall, call, createSecret, createNft, addSecret, Exec.bind_ok, Exec.require_ok]
  constructor
  · rintro ⟨_, _, w1, h1, h2⟩
    rw [(create_frame h1).1] at h2
    exact ⟨w1, h1, h2⟩
  · rintro ⟨w1, h1, h2⟩
    obtain ⟨e1, e2, e3, e4⟩ := create_frame h1
    refine ⟨(), ?_, w1, h1, by rw [e1]; exact h2⟩
    simp only [addSecretHelper] at h2
    inv_ok at h2
    obtain ⟨_, b, _, _, _, _, _, _, _, _, hb, _⟩ := h2
    rw [e2] at hb
    exact paid_check e4 hb

theorem capsule_parts {d s r k sb} : dispatch c (.nft (.createCapsule d s r k sb)) (.signed a) w = .ok w' ↔
    batch c w [(.signed a, .nft (.createNft d r k sb)), (.signed a, .nft (.toCapsule w.nft.nextNft s))] = .ok w' := by
  rw [two]
  simp only [dispatch, signedCall, call, createCapsule, createNft, toCapsule, Exec.bind_ok, Exec.require_ok]
  constructor
  · rintro ⟨_, _, w1, h1, h2⟩
    rw [(create_frame h1).1] at h2
    exact ⟨w1, h1, h2⟩
  · rintro ⟨w1, h1, h2⟩
    obtain ⟨e1, e2, e3, e4⟩ := create_frame h1
    refine ⟨(), ?_, w1, h1, by rw [e1]; exact h2⟩
    simp only [toCapsuleHelper] at h2
    inv_ok at h2
    obtain ⟨_, b, _, _, _, _, _, _, _, _, hb, _⟩ := h2
    rw [e3] at hb
    exact paid_check e4 hb

theorem coll_parts {d r k sb} : dispatch c (.nft (.createNft d r (some k) sb)) (.signed a) w = .ok w' ↔
    batch c w [(.signed a, .nft (.createNft d r none sb)), (.signed a, .nft (.addToColl w.nft.nextNft k))] = .ok w' := by
  rw [two]
  simp only [dispatch, signedCall, call, createNft, createHelper, pushToColl, nextNftId, addToColl]
  cases hb : w.bal.payFee c.ed a w.nft.fee with
  | error e => simp [bind, Except.bind]
  | ok b =>
    cases hk : w.nft.colls.get k with
    | none =>
      by_cases hn : w.nft.nextNft + 1 ≤ U32MAX <;>
        simp [hn, hk, World.putBal, World.putNft, getOr, require, expectSome, bind, Except.bind, pure, Except.pure]
    | some col =>
      by_cases hn : w.nft.nextNft + 1 ≤ U32MAX <;> by_cases g1 : col.owner = a <;> by_cases g2 : col.closed = false <;>
        by_cases g3 : col.nfts.length < collCap c col <;> by_cases g4 : col.nfts.length < c.collLimit <;>
        simp [hn, hk, g1, g2, g3, g4, World.putBal, World.putNft, getOr, require, expectSome, bind, Except.bind, pure, Except.pure]

theorem limit_parts {d l} : dispatch c (.nft (.createColl d (some l))) (.signed a) w = .ok w' ↔
    batch c w [(.signed a, .nft (.createColl d none)), (.signed a, .nft (.limitColl w.nft.nextColl l))] = .ok w' := by
  rw [two]
  simp only [dispatch, signedCall, call, createColl, limitColl]
  by_cases hn : w.nft.nextColl + 1 ≤ U32MAX
  · by_cases hl : l ≤ c.collLimit
    · simp [hn, hl, getOr, require, expectSome, bind, Except.bind, pure, Except.pure]
    · simp [hn, hl, getOr, require, expectSome, bind, Except.bind, pure, Except.pure]
  · by_cases hl : l ≤ c.collLimit
    · simp [hn, hl, getOr, require, expectSome, bind, Except.bind, pure, Except.pure]
    · simp [hn, hl, getOr, require, expectSome, bind, Except.bind, pure, Except.pure]

theorem hand_parts {n b r} {d : NFTData} (hd : w.nfts.get n = some d) (hs : d.st.soulbound = false) (h1 : a ≠ b) (h2 : b ≠ r)
    (h3 : a ≠ r) : dispatch c (.nft (.transferNft n r)) (.signed a) w = .ok w' ↔
    batch c w [(.signed a, .nft (.transferNft n b)), (.signed b, .nft (.transferNft n r))] = .ok w' := by
  rw [two]
  simp only [dispatch, signedCall, call, transferNft]
  constructor
  · intro h
    inv_ok at h
    obtain ⟨d', hd', rfl, _, g1, g2, g3, g4, g5, g6, g7, rfl⟩ := h
    rw [hd] at hd'; cases hd'
    refine ⟨w.putNft n { d with owner := b }, ?_, ?_⟩
    · eval_ok [hd, h1, g1, g2, g4, g5, g6, g7, hs]
    · eval_ok [World.putNft, h2, g1, g2, g4, g5, g6, g7, hs]
  · rintro ⟨w1, h, h'⟩
    inv_ok at h
    obtain ⟨d', hd', rfl, _, g1, g2, g3, g4, g5, g6, g7, rfl⟩ := h
    rw [hd] at hd'; cases hd'
    inv_ok at h'
    obtain ⟨d', hd', _, _, _, _, _, _, _, _, _, rfl⟩ := h'
    simp only [World.putNft, FMap.get_insert_self, Option.some.injEq] at hd'
    subst hd'
    eval_ok [hd, h3, g1, g2, g4, g5, g6, g7, hs, World.putNft]

end NftM

namespace MktM

theorem hand_parts {m b r} (h1 : a ≠ b) (h2 : b ≠ r) (h3 : a ≠ r) : dispatch c (.mkt (.setOwner m r)) (.signed a) w = .ok w' ↔
    batch c w [(.signed a, .mkt (.setOwner m b)), (.signed b, .mkt (.setOwner m r))] = .ok w' := by
  rw [two]
  simp only [dispatch, signedCall, call, setOwner]
  constructor
  · intro h
    inv_ok at h
    obtain ⟨d, _, hd, rfl, rfl⟩ := h
    refine ⟨{ w with mkt := { w.mkt with mkts := w.mkt.mkts.insert m { d with owner := b } } }, ?_, ?_⟩
    · eval_ok [hd, h1.symm]
    · eval_ok [h2.symm]
  · rintro ⟨w1, h, h'⟩
    inv_ok at h
    obtain ⟨d, _, hd, rfl, rfl⟩ := h
    inv_ok at h'
    obtain ⟨d', _, hd', _, rfl⟩ := h'
    simp only [FMap.get_insert_self, Option.some.injEq] at hd'
    subst hd'
    eval_ok [hd, h3.symm]

theorem apply_then {α : Type} (o : Option α) (x y : ConfigOp α) : apply (apply o x) y = apply o (thenOp x y) := by
  cases y <;> rfl

theorem config_parts {m f f' l l' x x' o o' k k'} : dispatch c
      (.mkt (.setConfig m (thenOp f f') (thenOp l l') (thenOp x x') (thenOp o o') (thenOp k k'))) (.signed a) w = .ok w' ↔
    batch c w [(.signed a, .mkt (.setConfig m f l x o k)), (.signed a, .mkt (.setConfig m f' l' x' o' k'))] = .ok w' := by
  rw [two]
  simp only [dispatch, signedCall, call, setConfig]
  constructor
  · intro h
    inv_ok at h
    obtain ⟨d, hd, rfl, rfl⟩ := h
    refine ⟨{ w with mkt := { w.mkt with mkts := w.mkt.mkts.insert m { d with
      commission := apply d.commission f, listing := apply d.listing l, accounts := apply d.accounts x,
      offchain := apply d.offchain o, colls := apply d.colls k } } }, ?_, ?_⟩
    · eval_ok [hd]
    · eval_ok [apply_then]
  · rintro ⟨w1, h, h'⟩
    inv_ok at h
    obtain ⟨d, hd, rfl, rfl⟩ := h
    inv_ok at h'
    obtain ⟨d', hd', _, rfl⟩ := h'
    simp only [FMap.get_insert_self, Option.some.injEq] at hd'
    subst hd'
    eval_ok [hd, apply_then]

end MktM

namespace TeeM

theorem dropReg_parts {op} (h : w.tee.data.get op = none) : dispatch c (.root (.tee (.removeRegistration op))) .root w = .ok w' ↔
    batch c w [(.signed op, .tee .unregister)] = .ok w' := by
  rw [one]
  simp only [dispatch, signedCall, rootCall, root, call, unregister, h]

theorem dropUpd_parts {op} : dispatch c (.root (.tee (.rejectUpdate op))) .root w = .ok w' ↔
    batch c w [(.signed op, .tee .cancelUpdate)] = .ok w' := by
  rw [one]
  simp only [dispatch, signedCall, rootCall, root, call]

theorem forceRemove_parts {op} (h1 : op ∉ w.tee.unregs) (h2 : w.tee.unregs.length < c.teeList) :
    dispatch c (.root (.tee (.forceRemove op))) .root w = .ok w' ↔
    batch c w [(.signed op, .tee .unregister), (.root, .root (.tee (.approveUnregister op)))] = .ok w' := by
  rw [two]
  have e0 : w.tee.unregs.findIdx? (fun x => decide (x = op)) = none := by
    rw [List.findIdx?_eq_none_iff]; intro x hx; simp; rintro rfl; exact h1 hx
  have e1 : swapRemoveBy (fun x => decide (x = op)) (w.tee.unregs ++ [op]) = w.tee.unregs := by
    have : (w.tee.unregs ++ [op]).findIdx? (fun x => decide (x = op)) = some w.tee.unregs.length := by
      rw [List.findIdx?_append, e0]; simp
    simp [swapRemoveBy, this]
  have e2 : swapRemoveBy (fun x => decide (x = op)) w.tee.unregs = w.tee.unregs := by
    simp [swapRemoveBy, e0]
  simp only [dispatch, signedCall, rootCall, root, call, forceRemove, unassign, approveUnregister, unregister,
    unregisterAssigned, dropRegistration]
  cases hd : w.tee.data.get op with
  | none =>
    cases hg : w.tee.registrations.get op with
    | none => simp [hd, hg, getOr, require, bind, Except.bind, pure, Except.pure]
    | some g => simp [hd, hg, h1, World.putBal, getOr, require, bind, Except.bind, pure, Except.pure]
  | some e =>
    cases hl : w.tee.ledger.get op with
    | none =>
      constructor
      · intro h; inv_ok at h
        obtain ⟨_, _, _, _, _, _, _, _, _, rfl, h, _⟩ := h
        rw [hl] at h; cases h
      · simp [h1, h2, hl, getOr, require, bind, Except.bind, pure, Except.pure]
    | some s =>
      by_cases ha : (w.tee.accOp.get e.addr).isSome = true
      · cases hk : w.tee.opCluster.get op with
        | none => simp [h1, h2, hd, hl, ha, hk, getOr, require, bind, Except.bind, pure, Except.pure]
        | some k =>
          cases hc : w.tee.clusters.get k with
          | none => simp [h1, h2, hd, hl, ha, hk, hc, getOr, require, bind, Except.bind, pure, Except.pure]
          | some cl => simp [h1, h2, hd, hl, ha, hk, hc, e1, e2, getOr, require, bind, Except.bind, pure, Except.pure]
      · simp [h1, h2, hd, hl, ha, getOr, require, bind, Except.bind, pure, Except.pure]

theorem forceAU_parts {op x u} : dispatch c (.root (.tee (.forceUpdate op (some x) (some u)))) .root w = .ok w' ↔
    batch c w [(.root, .root (.tee (.forceUpdate op (some x) none))), (.root, .root (.tee (.forceUpdate op none (some u))))] =
      .ok w' := by
  rw [two]
  simp only [dispatch, rootCall, root, forceUpdate, forceAddr]
  cases hd : w.tee.data.get op with
  | none => simp [getOr, require, bind, Except.bind, pure, Except.pure]
  | some e =>
    by_cases h1 : op = x
    · simp [h1, getOr, require, bind, Except.bind, pure, Except.pure]
    · by_cases h2 : e.addr = x
      · by_cases h3 : u = []
        · simp [h1, h2, h3, getOr, require, bind, Except.bind, pure, Except.pure]
        · simp [h1, h2, h3, getOr, require, bind, Except.bind, pure, Except.pure]
      · cases h4 : w.tee.accOp.get x with
        | none =>
          by_cases h3 : u = []
          · simp [h1, h2, h3, h4, getOr, require, bind, Except.bind, pure, Except.pure]
          · simp [h1, h2, h3, h4, getOr, require, bind, Except.bind, pure, Except.pure]
        | some y => simp [h1, h2, h4, getOr, require, bind, Except.bind, pure, Except.pure]

theorem forceUA_parts {op x u} : dispatch c (.root (.tee (.forceUpdate op (some x) (some u)))) .root w = .ok w' ↔
    batch c w [(.root, .root (.tee (.forceUpdate op none (some u)))), (.root, .root (.tee (.forceUpdate op (some x) none)))] =
      .ok w' := by
  rw [two]
  simp only [dispatch, rootCall, root, forceUpdate, forceAddr]
  cases hd : w.tee.data.get op with
  | none => simp [getOr, require, bind, Except.bind, pure, Except.pure]
  | some e =>
    by_cases h3 : u = [] <;> by_cases h1 : op = x <;> by_cases h2 : e.addr = x <;> cases h4 : w.tee.accOp.get x <;>
      simp [h1, h2, h3, h4, getOr, require, bind, Except.bind, pure, Except.pure]

theorem forceU_parts (ht : TInv c w.tee) {op e u} (hd : w.tee.data.get op = some e) (hu : w.tee.updates.get op = none) :
    dispatch c (.root (.tee (.forceUpdate op none (some u)))) .root w = .ok w' ↔
    batch c w [(.signed op, .tee (.update e.addr u)), (.root, .root (.tee (.approveUpdate op)))] = .ok w' := by
  rw [two]
  have hne := (ht.dataNe op e hd).1.symm
  simp only [dispatch, signedCall, rootCall, root, call, forceUpdate, forceAddr, update, approveUpdate, approveAddr]
  by_cases h3 : u = []
  · simp [h3, hd, getOr, require, bind, Except.bind, pure, Except.pure]
  · have e0 : (w.tee.updates.insert op { addr := e.addr, uri := u }).erase op = w.tee.updates.erase op := by
      simp [FMap.insert, FMap.erase, FMap.del, FMap.del_del]
    simp [h3, hd, hu, hne, e0, getOr, require, bind, Except.bind, pure, Except.pure]

end TeeM

namespace Bal

/-- paying back and paying anew is paying the difference -/
theorem transfer_anew {ed : Balance} (hed : 0 < ed) {b : Bal} {s p : AccountId} {u v : Balance} (hsp : s ≠ p) (hu : ed ≤ u) (huv : u < v)
    (hz : b.frozen p = 0) (hp : u + ed ≤ b.freeOf p ∨ b.freeOf p = u) :
    ∃ b1, b.transfer ed p s u .allowDeath = .ok b1 ∧
      ∀ b2, b1.transfer ed s p v .keepAlive = .ok b2 ↔ b.transfer ed s p (v - u) .keepAlive = .ok b2 := by
  have e1 : ∀ b' : Bal, b'.settle ed p (b.freeOf p - u) = b'.setFree p (b.freeOf p - u) := by
    intro b'; unfold settle
    split
    · have : b.freeOf p - u = 0 := by omega
      rw [this]; rfl
    · rfl
  refine ⟨(b.setFree p (b.freeOf p - u)).setFree s (b.freeOf s + u), ?_, ?_⟩
  · unfold transfer
    rw [if_neg (by simp [hsp.symm]; omega)]
    have h1 : u ≤ b.freeOf p := by omega
    have h2 : canLeave ed b p (b.freeOf p - u) .allowDeath := ⟨by omega, fun h => ⟨rfl, hz⟩⟩
    have h3 : ed ≤ b.freeOf s + u := by omega
    simp [require, h1, h2, h3, e1, bind, Except.bind, pure, Except.pure]
  · intro b2
    have f1 : ((b.setFree p (b.freeOf p - u)).setFree s (b.freeOf s + u)).freeOf s = b.freeOf s + u := by
      rw [freeOf_setFree, if_pos rfl]
    have f2 : ((b.setFree p (b.freeOf p - u)).setFree s (b.freeOf s + u)).freeOf p = b.freeOf p - u := by
      rw [freeOf_setFree, if_neg hsp.symm, freeOf_setFree, if_pos rfl]
    have f3 : ∀ x l, canLeave ed ((b.setFree p (b.freeOf p - u)).setFree s (b.freeOf s + u)) s x l ↔ canLeave ed b s x l :=
      fun _ _ => Iff.rfl
    have f4 : b.freeOf s + u - v = b.freeOf s - (v - u) := by omega
    have f5 : b.freeOf p - u + v = b.freeOf p + (v - u) := by omega
    unfold transfer
    rw [if_neg (by simp [hsp]; omega), if_neg (by simp [hsp]; omega), f1, f2, f4, f5]
    simp only [f3]
    by_cases h1 : v - u ≤ b.freeOf s
    · have h1' : v ≤ b.freeOf s + u := by omega
      by_cases h2 : canLeave ed b s (b.freeOf s - (v - u)) .keepAlive
      · have h4 : ed ≤ b.freeOf s - (v - u) := by
          by_contra hlt
          have := (h2.2 (by omega)).1
          simp at this
        have e2 : ∀ b' : Bal, b'.settle ed s (b.freeOf s - (v - u)) = b'.setFree s (b.freeOf s - (v - u)) := by
          intro b'; unfold settle; rw [if_neg (by omega)]
        have h3 : ed ≤ b.freeOf p + (v - u) := by omega
        have e3 : (((b.setFree p (b.freeOf p - u)).setFree s (b.freeOf s + u)).setFree s (b.freeOf s - (v - u))).setFree p
            (b.freeOf p + (v - u)) = (b.setFree s (b.freeOf s - (v - u))).setFree p (b.freeOf p + (v - u)) := by
          have z2 : b.freeOf s + u ≠ 0 := by omega
          have z3 : b.freeOf s - (v - u) ≠ 0 := by omega
          have z4 : b.freeOf p + (v - u) ≠ 0 := by omega
          unfold setFree
          simp only [if_neg z2, if_neg z3, if_neg z4]
          split <;> simp [FMap.insert, FMap.erase, FMap.del, FMap.del_del, hsp, hsp.symm, FMap.del_comm p s]
        simp only [require, h1, h1', h2, h3, e2, e3, if_true, bind, Except.bind, pure, Except.pure]
      · simp [require, h1, h1', h2, bind, Except.bind]
    · have h1' : ¬ v ≤ b.freeOf s + u := by omega
      simp [require, h1, h1', bind, Except.bind]

end Bal

namespace AucM

theorem removeBid_absent {l : List (AccountId × Balance)} (h : findBid a l = none) : removeBid a l = l := by
  induction l with
  | nil => rfl
  | cons x t ih =>
    obtain ⟨b, u⟩ := x
    simp only [findBid] at h
    split at h
    · simp at h
    · rename_i hb; simp [removeBid, hb, ih h]

theorem beats_of {x : Auction} {v : Balance} (h : ∀ y ∈ x.bids, y.2 < v) (hs : x.startPrice < v) : beats x v = true := by
  unfold beats
  split
  · rename_i top ht
    simpa using h _ (List.mem_of_getLast? ht)
  · simpa using hs

theorem kept_removeBid {l : List (AccountId × Balance)} {y} (h : y ∈ l) (hy : y.1 ≠ a) : y ∈ removeBid a l := by
  induction l with
  | nil => cases h
  | cons x t ih =>
    obtain ⟨b, u⟩ := x
    simp only [removeBid]
    rcases List.mem_cons.mp h with rfl | h
    · rw [if_neg hy]; exact List.mem_cons_self ..
    · split
      · exact h
      · exact List.mem_cons_of_mem _ (ih h)

theorem beats_without {z : Auction} {u v : Balance} (ok : AucOk c w n z) (hm : (a, u) ∈ z.bids) (huv : u < v) :
    beats { z with bids := removeBid a z.bids } v = beats z v := by
  have hsv : z.startPrice < v := by have := (ok.bid _ hm).2.1; dsimp only at this; omega
  rw [Bool.eq_iff_iff]
  constructor
  · intro h
    have h2 := (beats_max h (ok.ladder.sublist removeBid_sublist)
      (fun y hy => (ok.bid y (removeBid_sublist.subset hy)).2.1)).2
    refine beats_of (fun y hy => ?_) hsv
    by_cases e : y.1 = a
    · have : findBid a z.bids = some y.2 := (findBid_iff ok.one).2 (by rw [← e]; exact hy)
      rw [(findBid_iff ok.one).2 hm] at this
      cases this
      omega
    · exact h2 y (kept_removeBid hy e)
  · intro h
    have h2 := (beats_max h ok.ladder (fun y hy => (ok.bid y hy).2.1)).2
    exact beats_of (fun y hy => h2 y (removeBid_sublist.subset hy)) hsv

theorem rebid_parts (hc : c.Ok) (hi : Inv c w) (hp : w.bal.frozen c.aucPot = 0) {n v z u} (hz : w.auc.auctions.get n = some z)
    (hm : (a, u) ∈ z.bids) (huv : u < v) (he : c.ending < z.fin - w.now) (hu : u + c.ed ≤ w.bal.freeOf c.aucPot ∨ w.bal.freeOf c.aucPot = u) :
    dispatch c (.auc (.addBid n v)) (.signed a) w = .ok w' ↔
    batch c w [(.signed a, .auc (.removeBid n)), (.signed a, .auc (.addBid n v))] = .ok w' := by
  rw [two]
  have ok := hi.ok n z hz
  have ha : a ≠ c.aucPot := fun e => (ok.bid _ hm).2.2.2 (by rw [e]; exact Cfg.pot_auc)
  have hf : findBid a z.bids = some u := (findBid_iff ok.one).2 hm
  have hf' : findBid a (removeBid a z.bids) = none := findBid_removeBid ok.one
  have hb := beats_without ok hm huv
  obtain ⟨b1, t1, t2⟩ := Bal.transfer_anew (ed := c.ed) hc.ed ha (u := u) (Nat.le_of_lt (ok.bid _ hm).2.2.1) huv hp hu
  have e1 : dispatch c (.auc (.removeBid n)) (.signed a) w = .ok { (w.putBal b1) with auc := { w.auc with
      auctions := w.auc.auctions.insert n { z with bids := removeBid a z.bids } } } := by
    eval_ok [call, removeBidCall, hz, he, hf, t1, World.putBal]
  rw [e1]
  simp only [Except.ok.injEq, exists_eq_left']
  simp only [dispatch, signedCall, call, addBid, World.putBal, hz, FMap.get_insert_self, getOr, hb, hf, hf',
    removeBid_absent hf', Exec.bind_ok, Exec.require_ok, Option.getD_some, Option.getD_none, Nat.sub_zero, t2, FMap.insert_insert_self]
  simp only [Except.ok.injEq, exists_eq_left', Exec.require_ok, hb, hf, hf', removeBid_absent hf', Option.getD_some,
    Option.getD_none, Nat.sub_zero, t2]
  constructor
  · rintro ⟨g1, g2, g3, g4, h⟩; exact ⟨g1, g2, (), Exec.require_ok.2 g4, h⟩
  · rintro ⟨g1, g2, g3, g4, h⟩; exact ⟨g1, g2, (), Exec.require_ok.1 g4, h⟩

end AucM

theorem mandate_parts {o : Origin} {x : Call} (v : World) : Leads c w [(o, .mandate (.mandate x))] v ↔ Leads c w [(o, .mandate x)] v := by
  unfold Leads
  simp only [one]
  cases o with
  | signed a => simp only [dispatch, signedCall]
  | root =>
    simp only [dispatch]
    cases dispatch c x .root w with
    | ok w1 => simp [mandateResult, World.ev]
    | error e => cases e <;> simp [mandateResult, World.ev]
  | ext =>
    simp only [dispatch]
    cases dispatch c x .root w with
    | ok w1 => simp [mandateResult, World.ev]
    | error e => cases e <;> simp [mandateResult, World.ev]
