import Verif.Proofs.ReasonBase
import Verif.Proofs.AcceptNft
import Verif.Proofs.AcceptRent
/-
Lemmas for C117: errors of the NFT pallet.
-/
variable {c : Cfg} {w w' : World} {a : AccountId} {s : String}
set_option maxRecDepth 10000
open Spec Spec.Why Spec.Accept

/-- no collection has a limit above the one for all -/
def LimInv (c : Cfg) (w : World) : Prop :=
  ∀ k x, w.nft.colls.get k = some x → ∀ l, x.limit = some l → l ≤ c.collLimit

namespace LimInv

theorem of_eq (h : LimInv c w) (e : w'.nft.colls = w.nft.colls) : LimInv c w' := by
  unfold LimInv; rw [e]; exact h

theorem put (h : LimInv c w) {k x} (e : w'.nft.colls = w.nft.colls.insert k x) (hx : ∀ l, x.limit = some l → l ≤ c.collLimit) :
    LimInv c w' := by
  intro k' y hy
  rw [e, FMap.get_insert] at hy
  split at hy
  · exact Option.some.inj hy ▸ hx
  · exact h k' y hy

theorem push (h : LimInv c w) {n k} (h2 : NftM.pushToColl c w a n k = .ok w') : LimInv c w' := by
  cases k <;> simp only [NftM.pushToColl] at h2 <;> inv_ok at h2
  · exact h2 ▸ h
  · obtain ⟨x, hx, _, _, _, _, rfl⟩ := h2
    exact h.put rfl (h _ x hx)

theorem create (h : LimInv c w) {d r k sb} (h2 : NftM.createHelper c w a d r k sb = .ok w') : LimInv c w' := by
  obtain ⟨b, w1, _, h3, _, rfl⟩ := NftM.createHelper_ok h2
  exact (push (w := w.putBal b) h h3).of_eq rfl

theorem nftCall (h : LimInv c w) {x} (h2 : NftM.call c w a x = .ok w') : LimInv c w' := by
  have hs : ∀ {w w' : World} {n data}, NftM.addSecretHelper c w a n data = .ok w' → w'.nft.colls = w.nft.colls := by
    intro w w' n data h
    simp only [NftM.addSecretHelper] at h; frame_auto at h; rfl
  have ht : ∀ {w w' : World} {n data}, NftM.toCapsuleHelper c w a n data = .ok w' → w'.nft.colls = w.nft.colls := by
    intro w w' n data h
    simp only [NftM.toCapsuleHelper] at h; frame_auto at h; rfl
  cases x <;> simp only [NftM.call] at h2
  case createNft => exact h.create h2
  case createSecret =>
    simp only [NftM.createSecret] at h2; inv_ok at h2
    obtain ⟨w1, _, h1, h2⟩ := h2
    exact (h.create h1).of_eq (hs h2)
  case createCapsule =>
    simp only [NftM.createCapsule] at h2; inv_ok at h2
    obtain ⟨w1, _, h1, h2⟩ := h2
    exact (h.create h1).of_eq (ht h2)
  case addSecret => exact h.of_eq (hs h2)
  case toCapsule => exact h.of_eq (ht h2)
  case transferNft => simp only [NftM.transferNft] at h2; frame_auto at h2; exact h
  case delegateNft => simp only [NftM.delegateNft] at h2; frame_auto at h2; exact h
  case setRoyalty => simp only [NftM.setRoyalty] at h2; frame_auto at h2; exact h
  case notifyKey => simp only [NftM.notifyKey] at h2; frame_auto at h2; exact h
  case setCapsuleData => simp only [NftM.setCapsuleData] at h2; frame_auto at h2; exact h
  case addSecretShard => simp only [NftM.addSecretShard] at h2; frame_auto at h2; exact h
  case addCapsuleShard => simp only [NftM.addCapsuleShard] at h2; frame_auto at h2; exact h
  case closeColl =>
    simp only [NftM.closeColl] at h2; inv_ok at h2
    obtain ⟨x, hx, _, rfl⟩ := h2
    exact h.put rfl (h _ x hx)
  case limitColl =>
    simp only [NftM.limitColl] at h2; inv_ok at h2
    obtain ⟨x, hx, _, _, _, _, hl, rfl⟩ := h2
    exact h.put rfl fun l e => Option.some.inj e ▸ hl
  case setCollData =>
    simp only [NftM.setCollData] at h2; inv_ok at h2
    obtain ⟨x, hx, _, rfl⟩ := h2
    exact h.put rfl (h _ x hx)
  case addToColl =>
    simp only [NftM.addToColl] at h2; inv_ok at h2
    obtain ⟨x, _, hx, _, _, _, _, _, _, _, rfl⟩ := h2
    exact h.put rfl (h _ x hx)
  case createColl =>
    simp only [NftM.createColl] at h2; inv_ok at h2
    obtain ⟨_, hl, _, rfl⟩ := h2
    exact h.put rfl fun l e => hl l e
  case burnColl k =>
    simp only [NftM.burnColl] at h2; inv_ok at h2
    obtain ⟨x, hx, _, _, rfl⟩ := h2
    intro k' y hy
    rw [FMap.get_erase] at hy
    split at hy
    · cases hy
    · exact h k' y hy
  case burnNft n =>
    simp only [NftM.burnNft] at h2; inv_ok at h2
    obtain ⟨d, w1, hd, _, _, _, _, _, h5, rfl⟩ := h2
    refine LimInv.of_eq (w := w1) ?_ rfl
    cases hc : d.coll <;> rw [hc] at h5 <;> simp only [NftM.dropFromColl] at h5 <;> inv_ok at h5
    · exact h5 ▸ h
    · obtain ⟨x, hx, _, rfl⟩ := h5
      exact h.put rfl (h _ x hx)

end LimInv

theorem Reach.lim (hc : c.Ok) (hr : Reach c w) : LimInv c w := by
  induction hr with
  | init hg => intro k x hk; rw [hg.nft.2.2.1] at hk; cases hk
  | @step w o hr ho ih =>
    rcases step_core hc hr o ho with ⟨a, x, rfl, ha, h⟩ | ⟨h1, h2⟩
    · exact ih.nftCall h
    · unfold NftSame at h2
      exact ih.of_eq (by rw [h2])

namespace NftM

theorem room_of (hr : LimInv c w) {k x} (hk : w.nft.colls.get k = some x) (h : x.nfts.length < collCap c x) :
    x.nfts.length < c.collLimit := by
  unfold collCap at h
  cases e : x.limit with
  | none => simpa [e] using h
  | some l => rw [e] at h; exact Nat.lt_of_lt_of_le h (hr k x hk l e)

theorem joins_coll {x : Call} {k : CollId} (h : joins x = some k) : collOf x = some k := by
  cases x <;> first | exact h | cases h

theorem joins_opens {x : Call} {k : CollId} (h : joins x = some k) : opens x = some k := by
  cases x <;> first | exact h | cases h

theorem push_reason (hl : LimInv c w) {n k x} (hx : joins x = k) (e : w'.nft = w.nft)
    (h : pushToColl c w' a n k = .error (.e s)) : Why.Nft c w a x s := by
  cases k <;> simp only [pushToColl, e] at h <;> inv_err at h <;> each <;> subst_vars
  case some.inl => exact .noColl (joins_coll hx) (by assumption)
  all_goals first
    | exact .collOwner (joins_coll hx) ⟨_, by assumption, by assumption⟩
    | exact .closed (joins_opens hx) ⟨_, by assumption, by assumption⟩
    | exact .full hx ⟨_, by assumption, Nat.not_lt.1 (by assumption)⟩
    | exact absurd (room_of hl (by assumption) (by assumption)) (by assumption)

theorem create_reason (hl : LimInv c w) {d r k sb x t} (hx : joins x = k) (hd : dues c w a (.nft x) = fee a w.nft.fee :: t)
    (h : createHelper c w a d r k sb = .error (.e s)) : Reason c w a (.nft x) s := by
  simp only [createHelper, nextNftId] at h; inv_err at h
  rcases h with h | ⟨b, hb, h⟩
  · exact .pay (hd ▸ payFee_err h)
  · exact .nft (push_reason (w' := w.putBal b) hl hx rfl h)

theorem shard_reason {cur : Option (List (ClusterId × AccountId))} {p : ClusterId × AccountId} {x : Call}
    (hl : ∀ l, cur = some l → ShardsOk c l) (hx : sharesFor w x = cur) (hp : ensureEnclave w a = some p)
    (h : pushShard c cur p = .error (.e s)) : Why.Nft c w a x s ∨ (c.shards = 0 ∧ s = "NFTHasReceivedAllShards") := by
  have hp : w.tee.accOp.get a = some p.2 ∧ w.tee.opCluster.get p.2 = some p.1 := by
    simp only [ensureEnclave] at hp
    cases e1 : w.tee.accOp.get a with
    | none => simp [e1] at hp
    | some op =>
      cases e2 : w.tee.opCluster.get op with
      | none => simp [e1, e2] at hp
      | some k => simp [e1, e2] at hp; subst hp; exact ⟨rfl, e2⟩
  cases cur with
  | none => simp only [pushShard] at h; inv_err at h; exact .inr ⟨by omega, h.2⟩
  | some l =>
    obtain ⟨h1, h2, ⟨k, hk⟩, h4⟩ := hl l rfl
    simp only [pushShard] at h; inv_err at h
    rcases h with ⟨y, hy, ⟨h, rfl⟩ | ⟨h, ⟨h3, rfl⟩ | ⟨_, h3, rfl⟩⟩⟩
    · refine .inl (.cluster hx hp.1 hp.2 (by rintro rfl; cases hy) fun z hz e => h ?_)
      rw [← e, hk z hz, hk y (List.mem_of_head? hy)]
    · exact absurd h2 h3
    · exact .inl (.again hx hp.1 hp.2 h3)

theorem shard_full {x : Call} (h : Why.Nft c w a x "NFTHasReceivedAllShards") : c.shards = 0 := by
  generalize e : "NFTHasReceivedAllShards" = s at h
  cases h <;> first | assumption | exact absurd e (by decide)

theorem enclave_none (hr : Reach c w) (h : ensureEnclave w a = none) {op e} (hd : w.tee.data.get op = some e) :
    e.addr ≠ a := by
  rintro rfl
  have hi := hr.tinv
  have h1 := hi.addr op e hd
  cases h2 : w.tee.opCluster.get op with
  | none => rw [(hi.clu op).1 h2] at hd; cases hd
  | some k => simp [ensureEnclave, h1, h2] at h

theorem stale_none (h : ensureEnclave w a = none) (op : AccountId) (ho : w.tee.accOp.get a = some op) :
    w.tee.opCluster.get op = none := by
  cases e : w.tee.opCluster.get op with
  | none => rfl
  | some k => simp [ensureEnclave, ho, e] at h

theorem reason {x : Call} (hc : c.Ok) (hr : Reach c w) (h : call c w a x = .error (.e s)) : Reason c w a (.nft x) s := by
  have hl := hr.lim hc
  cases x <;> simp only [call] at h
  case createNft => exact create_reason hl rfl rfl h
  case createSecret d r k sb =>
    simp only [createSecret] at h; inv_err at h
    rcases h with ⟨h, rfl⟩ | ⟨_, h | ⟨w1, h1, h2⟩⟩
    · exact .nft (.secretFees fun hh => h ((RentM.check_iff _ _ _).2 hh))
    · exact create_reason hl rfl rfl h
    · obtain ⟨e, b, hn, ho, hst, hb, e1, e2, _⟩ := create_new h1
      simp only [addSecretHelper, hn] at h2
      inv_err at h2
      simp only [Option.some.injEq, exists_eq_left', ho, hst, not_true, false_and, false_or, true_and, reduceCtorEq] at h2
      rw [e1, e2] at h2
      exact .pay (payFee_next hb (payFee_err h2))
  case createCapsule d r k sb =>
    simp only [createCapsule] at h; inv_err at h
    rcases h with ⟨h, rfl⟩ | ⟨_, h | ⟨w1, h1, h2⟩⟩
    · exact .nft (.capsuleFees fun hh => h ((RentM.check_iff _ _ _).2 hh))
    · exact create_reason hl rfl rfl h
    · obtain ⟨e, b, hn, ho, hst, hb, e1, _, e2⟩ := create_new h1
      simp only [toCapsuleHelper, hn] at h2
      inv_err at h2
      simp only [Option.some.injEq, exists_eq_left', ho, hst, not_true, false_and, false_or, true_and, reduceCtorEq] at h2
      rw [e1, e2] at h2
      exact .pay (payFee_next hb (payFee_err h2))
  case burnNft n =>
    simp only [burnNft] at h; inv_err at h; each <;> subst_vars <;> try why
    rename_i d hd _ _ _ _ h
    have hcoll := hr.coll hc
    cases e : d.coll with
    | none => rw [e] at h; simp only [dropFromColl] at h; inv_err at h
    | some k =>
      rw [e] at h
      simp only [dropFromColl] at h; inv_err at h
      rcases h with ⟨h, _⟩ | ⟨col, hk, h, _⟩
      · exact absurd h (hcoll.ex n d k hd e)
      · exact absurd ((hcoll.mem k col hk n).2 ⟨d, hd, e⟩) h
  case addSecretShard n =>
    simp only [addSecretShard] at h; inv_err at h; each <;> subst_vars <;> try why
    · exact .nft (.enclave (.inl rfl) (fun op e hd => enclave_none hr (by assumption) hd) (stale_none (by assumption)))
    · rcases shard_reason (x := .addSecretShard n) (fun l e => ((C11_shards hc hr).1 e).1) rfl (by assumption) (by assumption)
        with h | ⟨h, rfl⟩
      · exact .nft h
      · exact .nft (.noShares1 h)
  case addCapsuleShard n =>
    simp only [addCapsuleShard] at h; inv_err at h; each <;> subst_vars <;> try why
    · exact .nft (.enclave (.inr rfl) (fun op e hd => enclave_none hr (by assumption) hd) (stale_none (by assumption)))
    · rename_i p hp d hd h1 h2 e he
      rcases shard_reason (x := .addCapsuleShard n) (fun l e => ((C11_shards hc hr).2 e).1) rfl hp he with h | ⟨h, rfl⟩
      · split
        · rename_i e2; exact .nft (.noShares2 (by rw [e2] at h; exact shard_full h))
        · exact .nft h
      · exact .nft (.noShares2 h)
  case createColl d l =>
    simp only [createColl] at h; inv_err at h
    obtain ⟨h, rfl⟩ := h
    cases l with
    | none => simp at h
    | some l => exact .nft (.newLimit (by simpa using h))
  all_goals simp only [transferNft, delegateNft, setRoyalty, burnColl, closeColl, limitColl, addToColl, addSecret,
    addSecretHelper, toCapsule, toCapsuleHelper, setCapsuleData, notifyKey, setCollData] at h
  all_goals inv_err at h
  all_goals each
  all_goals subst_vars
  all_goals first
    | why
    | exact .pay (payFee_err (by assumption))
    | exact .bound rfl (by constructor) ⟨_, by assumption, by assumption, by assumption⟩
    | exact .nft (.noColl rfl (by assumption))
    | exact .nft (.collOwner rfl ⟨_, by assumption, by assumption⟩)
    | exact .nft (.closed rfl ⟨_, by assumption, by assumption⟩)
    | exact .nft (.full rfl ⟨_, by assumption, Nat.not_lt.1 (by assumption)⟩)
    | exact .nft (.creator ⟨_, by assumption, by assumption⟩)
    | exact .nft .toSelf
    | exact .nft (.notEmpty ⟨_, by assumption, by assumption⟩)
    | exact .nft (.limited ⟨_, by assumption, by assumption⟩)
    | exact .nft (.tooMany ⟨_, by assumption, Nat.not_le.1 (by assumption)⟩)
    | exact .nft (.overLimit (Nat.not_le.1 (by assumption)))
    | exact .nft (.inColl ⟨_, by assumption, by assumption⟩)
    | exact absurd (room_of hl (by assumption) (by assumption)) (by assumption)
end NftM
