import Verif.Proofs.AcceptBase
import Verif.Props.Supply
/-
Lemmas for C115: calls of the NFT pallet.
-/
variable {c : Cfg} {w w' : World} {a : AccountId}
set_option maxRecDepth 10000
open Spec Spec.Accept

namespace NftM

theorem next_iff {n : Nat} {k : Nat} {s : String} :
    expectSome (if n + 1 ≤ U32MAX then some (n + 1) else none) s = .ok k ↔ n < 2 ^ 32 - 1 ∧ k = n + 1 := by
  rw [Exec.expect_ok]
  unfold U32MAX
  split
  · simp [eq_comm]; omega
  · simp; omega

theorem push_iff {n : NFTId} {k : Option CollId} : (∃ w', pushToColl c w a n k = .ok w') ↔
    ∀ x, k = some x → OwnsColl w a x ∧ Refuse.HasRoom c w x := by
  cases k with
  | none => simp [pushToColl, Exec.pure_ok]
  | some k =>
    simp only [pushToColl, Exec.bind_ok, Exec.getOr_ok, Exec.require_ok, Exec.pure_ok, Exec.exists_unit,
      Option.some.injEq, forall_eq', OwnsColl, Refuse.HasRoom]
    constructor
    · rintro ⟨_, x, h1, h2, h3, h4, h5, _⟩
      exact ⟨⟨x, h1, h2⟩, x, h1, h3, h5, fun l e => by simpa [collCap, e] using h4⟩
    · rintro ⟨⟨x, h1, h2⟩, y, g1, h3, h5, h4⟩
      obtain rfl : x = y := by rw [h1] at g1; exact Option.some.inj g1
      refine ⟨_, x, h1, h2, h3, ?_, h5, rfl⟩
      unfold collCap
      cases e : x.limit with
      | none => simpa using h5
      | some l => simpa using h4 l e

/-- what is needed for minting, and what it does to the record of NFTs -/
theorem create_ok {d r k sb} : (∃ w', createHelper c w a d r k sb = .ok w') ↔
    (∀ x, k = some x → OwnsColl w a x ∧ Refuse.HasRoom c w x) ∧ w.nft.nextNft < 2 ^ 32 - 1 ∧
      CanPayAll c.ed (purse w.bal) [fee a w.nft.fee] := by
  rw [← payFee_one]
  constructor
  · rintro ⟨w', h⟩
    simp only [createHelper, nextNftId] at h
    simp only [Exec.bind_ok, next_iff, Exec.pure_ok] at h
    obtain ⟨b, hb, w1, h1, y, ⟨n, ⟨hn, rfl⟩, rfl⟩, rfl⟩ := h
    have : w1.nft.nextNft = w.nft.nextNft := by
      cases k <;> simp only [pushToColl] at h1 <;> inv_ok at h1
      · subst h1; rfl
      · obtain ⟨_, _, _, _, _, _, rfl⟩ := h1; rfl
    exact ⟨(push_iff (w := w.putBal b)).1 ⟨w1, h1⟩, this ▸ hn, b, hb⟩
  · rintro ⟨h1, hn, b, hb⟩
    obtain ⟨w1, h1⟩ := (push_iff (c := c) (w := w.putBal b) (a := a) (n := w.nft.nextNft) (k := k)).2 h1
    have : w1.nft.nextNft = w.nft.nextNft := by
      cases k <;> simp only [pushToColl] at h1 <;> inv_ok at h1
      · subst h1; rfl
      · obtain ⟨_, _, _, _, _, _, rfl⟩ := h1; rfl
    have h1' : pushToColl c (w.putBal b) a (w.putBal b).nft.nextNft k = .ok w1 := h1
    simp only [createHelper, nextNftId, Exec.bind_ok, next_iff, Exec.pure_ok]
    exact ⟨_, b, hb, w1, h1', _, ⟨_, ⟨this ▸ hn, rfl⟩, rfl⟩, rfl⟩

/-- the new NFT has no flags but soulbound -/
theorem create_new {d r k sb} (h : createHelper c w a d r k sb = .ok w') :
    ∃ e b, w'.nfts.get (w'.nft.nextNft - 1) = some e ∧ e.owner = a ∧ e.st = { soulbound := sb } ∧
      w.bal.payFee c.ed a w.nft.fee = .ok b ∧ w'.bal = b ∧ w'.nft.secretFee = w.nft.secretFee ∧
      w'.nft.capsuleFee = w.nft.capsuleFee := by
  simp only [createHelper, nextNftId] at h
  simp only [Exec.bind_ok, next_iff, Exec.pure_ok] at h
  obtain ⟨b, hb, w1, h1, y, ⟨n, ⟨hn, rfl⟩, rfl⟩, rfl⟩ := h
  cases k <;> simp only [pushToColl] at h1 <;> inv_ok at h1
  · subst h1; exact ⟨_, b, by simp [World.putNft]; rfl, rfl, rfl, hb, rfl, rfl, rfl⟩
  · obtain ⟨_, _, _, _, _, _, rfl⟩ := h1
    exact ⟨_, b, by simp [World.putNft]; rfl, rfl, rfl, hb, rfl, rfl, rfl⟩

/-- paying two fees leaves room for the sum that is checked first -/
theorem check_two {f g : Balance} {b : Bal} (h : CanPayAll c.ed (purse b) [fee a f, fee a g]) :
    b.balanceCheck a ((f + g) % (U128MAX + 1)) := by
  have hm : (f + g) % (U128MAX + 1) ≤ f + g := Nat.mod_le _ _
  obtain ⟨h1, h2, _⟩ := h
  have h1 : f = 0 ∨ (f + Spec.locked b a ≤ b.freeOf a ∧ f + c.ed ≤ b.freeOf a) := fee_can.1 h1
  unfold Bal.balanceCheck Bal.ensureCanWithdraw
  rw [← Spec.locked_eq]
  by_cases hf : f = 0
  · have e : Due.after c.ed (purse b) (fee a f) = purse b := by simp [Due.after, Due.Idle, fee, hf]
    rw [e] at h2
    have h2 : g = 0 ∨ (g + Spec.locked b a ≤ b.freeOf a ∧ g + c.ed ≤ b.freeOf a) := fee_can.1 h2
    omega
  · have e : (Due.after c.ed (purse b) (fee a f)).free a = b.freeOf a - f := by
      have : ¬ b.freeOf a - f < c.ed := by omega
      simp [Due.after, Due.Idle, fee, hf, purse, this]
    have e2 : (Due.after c.ed (purse b) (fee a f)).locked a = Spec.locked b a := by
      simp [Due.after, Due.Idle, fee, hf, purse]
    rw [fee_can, e, e2] at h2
    omega

theorem two_fees {f g : Balance} {b b' : Bal} (hb : b.payFee c.ed a f = .ok b') :
    (∃ b2, b'.payFee c.ed a g = .ok b2) ↔ CanPayAll c.ed (purse b) [fee a f, fee a g] := by
  rw [payFee_one, payFee_after hb]
  have := payFee_can.1 ⟨b', hb⟩
  simp only [CanPayAll, this, true_and]

theorem accept_fwd {x : Call} (h : call c w a x = .ok w') :
    Room c w a (.nft x) ∧ CanPayAll c.ed (purse w.bal) (dues c w a (.nft x)) := by
  cases x <;> simp only [call] at h <;> simp only [Room, dues]
  case createNft =>
    exact (create_ok.1 ⟨_, h⟩).2
  case createSecret d s r k sb =>
    simp only [createSecret] at h; inv_ok at h
    obtain ⟨_, w1, h1, h2⟩ := h
    obtain ⟨e, b, _, _, _, hb, e1, e2, _⟩ := create_new h1
    refine ⟨(create_ok.1 ⟨_, h1⟩).2.1, (two_fees hb).1 ?_⟩
    simp only [addSecretHelper] at h2; inv_ok at h2
    obtain ⟨_, b2, _, _, _, _, _, _, _, _, h2, _⟩ := h2
    rw [e1, e2] at h2
    exact ⟨b2, h2⟩
  case createCapsule d s r k sb =>
    simp only [createCapsule] at h; inv_ok at h
    obtain ⟨_, w1, h1, h2⟩ := h
    obtain ⟨e, b, _, _, _, hb, e1, _, e2⟩ := create_new h1
    refine ⟨(create_ok.1 ⟨_, h1⟩).2.1, (two_fees hb).1 ?_⟩
    simp only [toCapsuleHelper] at h2; inv_ok at h2
    obtain ⟨_, b2, _, _, _, _, _, _, _, _, h2, _⟩ := h2
    rw [e1, e2] at h2
    exact ⟨b2, h2⟩
  case createColl =>
    simp only [createColl] at h
    simp only [Exec.bind_ok, next_iff] at h
    obtain ⟨_, _, _, ⟨h, _⟩, _⟩ := h
    exact ⟨h, by simp [CanPayAll]⟩
  case addSecret n s =>
    simp only [addSecret, addSecretHelper] at h; inv_ok at h
    obtain ⟨_, b2, _, _, _, _, _, _, _, _, h2, _⟩ := h
    exact ⟨trivial, payFee_one.1 ⟨_, h2⟩⟩
  case toCapsule n s =>
    simp only [toCapsule, toCapsuleHelper] at h; inv_ok at h
    obtain ⟨_, b2, _, _, _, _, _, _, _, _, h2, _⟩ := h
    exact ⟨trivial, payFee_one.1 ⟨_, h2⟩⟩
  all_goals exact ⟨trivial, trivial⟩

theorem shard_ok {cur : Option (List (ClusterId × AccountId))} {s : ClusterId × AccountId} (hs : 0 < c.shards)
    (hc : ∀ l, cur = some l → l ≠ []) (h : Refuse.TakesShare c (cur.getD []) s) : ∃ l, pushShard c cur s = .ok l := by
  cases cur with
  | none => exact ⟨_, by simp [pushShard, Exec.bind_ok, Exec.require_ok, hs]; rfl⟩
  | some l =>
    obtain ⟨h1, h2, h3⟩ := h
    simp only [Option.getD_some] at h1 h2 h3
    cases l with
    | nil => exact absurd rfl (hc _ rfl)
    | cons y t =>
      have h3 := h3 y rfl
      simp only [pushShard, Exec.bind_ok, Exec.expect_ok, Exec.require_ok, Exec.exists_unit, Exec.pure_ok]
      exact ⟨_, y, rfl, h3.symm, h1, h2, rfl⟩

theorem enclave_ok {op k} (h1 : w.tee.accOp.get a = some op) (h2 : w.tee.opCluster.get op = some k) :
    ensureEnclave w a = some (k, op) := by
  simp [ensureEnclave, h1, h2]

theorem accept_bwd (hc : c.Ok) (hr : Reach c w) {x : Call} (he : Entitled w a (.nft x)) (hf : Refuse.Fit c w a (.nft x))
    (hm : Room c w a (.nft x)) (hp : CanPayAll c.ed (purse w.bal) (dues c w a (.nft x))) :
    ∃ w', call c w a x = .ok w' := by
  cases x <;> simp only [call] <;> simp only [Entitled, Refuse.Fit, Room, dues] at he hf hm hp
  case createNft d r k sb =>
    exact create_ok.2 ⟨fun x e => ⟨he x e, hf x e⟩, hm, hp⟩
  case createSecret d s r k sb =>
    have hp1 : CanPayAll c.ed (purse w.bal) [fee a w.nft.fee] := ⟨hp.1, trivial⟩
    obtain ⟨w1, h1⟩ := (create_ok (d := d) (r := r) (k := k) (sb := sb)).2 ⟨fun x e => ⟨he x e, hf x e⟩, hm, hp1⟩
    obtain ⟨e, b, hn, ho, hst, hb, e1, e2, _⟩ := create_new h1
    obtain ⟨b2, h2⟩ := (two_fees hb).2 hp
    have h2' : w1.bal.payFee c.ed a w1.nft.secretFee = .ok b2 := by rw [e1, e2]; exact h2
    simp only [createSecret, addSecretHelper, Exec.bind_ok, Exec.require_ok, Exec.exists_unit, Exec.getOr_ok, Exec.pure_ok]
    exact ⟨_, check_two hp, w1, h1, e, hn, ho, by simp [hst], by simp [hst], by simp [hst], by simp [hst], by simp [hst],
      by simp [hst], b2, h2', rfl⟩
  case createCapsule d s r k sb =>
    have hp1 : CanPayAll c.ed (purse w.bal) [fee a w.nft.fee] := ⟨hp.1, trivial⟩
    obtain ⟨w1, h1⟩ := (create_ok (d := d) (r := r) (k := k) (sb := sb)).2 ⟨fun x e => ⟨he x e, hf x e⟩, hm, hp1⟩
    obtain ⟨e, b, hn, ho, hst, hb, e1, _, e2⟩ := create_new h1
    obtain ⟨b2, h2⟩ := (two_fees hb).2 hp
    have h2' : w1.bal.payFee c.ed a w1.nft.capsuleFee = .ok b2 := by rw [e1, e2]; exact h2
    simp only [createCapsule, toCapsuleHelper, Exec.bind_ok, Exec.require_ok, Exec.exists_unit, Exec.getOr_ok, Exec.pure_ok]
    exact ⟨_, check_two hp, w1, h1, e, hn, ho, by simp [hst], by simp [hst], by simp [hst], by simp [hst], by simp [hst],
      by simp [hst], b2, h2', rfl⟩
  case burnNft n =>
    obtain ⟨d, hd, ho⟩ := he
    obtain ⟨d', hd', h1, h2, h3, h4⟩ := hf
    obtain rfl : d = d' := by rw [hd] at hd'; exact Option.some.inj hd'
    have hcoll := hr.coll hc
    have : ∃ w1, dropFromColl w n d.coll = .ok w1 := by
      cases e : d.coll with
      | none => exact ⟨w, by simp [dropFromColl]; rfl⟩
      | some k =>
        cases e2 : w.nft.colls.get k with
        | none => exact absurd e2 (hcoll.ex n d k hd e)
        | some col =>
          simp only [dropFromColl, Exec.bind_ok, Exec.require_ok, Exec.exists_unit, Exec.getOr_ok, Exec.pure_ok]
          exact ⟨_, col, e2, (hcoll.mem k col e2 n).2 ⟨d, hd, e⟩, rfl⟩
    obtain ⟨w1, hw⟩ := this
    simp only [burnNft, Exec.bind_ok, Exec.require_ok, Exec.exists_unit, Exec.getOr_ok, Exec.pure_ok]
    exact ⟨_, d, hd, ho, h1, h2, h3, h4, w1, hw, rfl⟩
  case transferNft n r =>
    obtain ⟨d, hd, rfl⟩ := he
    obtain ⟨hne, d', hd', ⟨h1, h2, h3, h4⟩, ⟨h5, h6⟩, h7⟩ := hf
    obtain rfl : d = d' := by rw [hd] at hd'; exact Option.some.inj hd'
    simp only [transferNft, Exec.bind_ok, Exec.require_ok, Exec.exists_unit, Exec.getOr_ok, Exec.pure_ok]
    exact ⟨_, d, hd, rfl, Ne.symm hne, h1, h2, fun e => e.2 (h7 e.1), h5, h3, h6, h4, rfl⟩
  case delegateNft n r =>
    obtain ⟨d, hd, ho⟩ := he
    obtain ⟨d', hd', h1, h3, h4, h5, h6⟩ := hf
    obtain rfl : d = d' := by rw [hd] at hd'; exact Option.some.inj hd'
    simp only [delegateNft, Exec.bind_ok, Exec.require_ok, Exec.exists_unit, Exec.getOr_ok, Exec.pure_ok]
    exact ⟨_, d, hd, ho, h1, h3, h5, h6, h4, rfl⟩
  case setRoyalty n r =>
    obtain ⟨d, hd, ho, hcr⟩ := he
    obtain ⟨d', hd', ⟨h1, h2, h3, h4⟩, h5, h6⟩ := hf
    obtain rfl : d = d' := by rw [hd] at hd'; exact Option.some.inj hd'
    simp only [setRoyalty, Exec.bind_ok, Exec.require_ok, Exec.exists_unit, Exec.getOr_ok, Exec.pure_ok]
    exact ⟨_, d, hd, ho, hcr, h1, h2, h3, h5, h6, h4, rfl⟩
  case createColl d l =>
    simp only [createColl, Exec.bind_ok, next_iff, Exec.require_ok, Exec.exists_unit, Exec.pure_ok]
    exact ⟨_, fun x e => hf x e, _, ⟨hm, rfl⟩, rfl⟩
  case burnColl k =>
    obtain ⟨d, hd, ho⟩ := he
    obtain ⟨d', hd', h1⟩ := hf
    obtain rfl : d = d' := by rw [hd] at hd'; exact Option.some.inj hd'
    simp only [burnColl, Exec.bind_ok, Exec.require_ok, Exec.exists_unit, Exec.getOr_ok, Exec.pure_ok]
    exact ⟨_, d, hd, ho, h1, rfl⟩
  case closeColl k =>
    obtain ⟨d, hd, ho⟩ := he
    simp only [closeColl, Exec.bind_ok, Exec.require_ok, Exec.exists_unit, Exec.getOr_ok, Exec.pure_ok]
    exact ⟨_, d, hd, ho, rfl⟩
  case limitColl k l =>
    obtain ⟨d, hd, ho⟩ := he
    obtain ⟨d', hd', h1, h2, h3, h4⟩ := hf
    obtain rfl : d = d' := by rw [hd] at hd'; exact Option.some.inj hd'
    simp only [limitColl, Exec.bind_ok, Exec.require_ok, Exec.exists_unit, Exec.getOr_ok, Exec.pure_ok]
    exact ⟨_, d, hd, ho, h1, h2, h3, h4, rfl⟩
  case addToColl n k =>
    obtain ⟨⟨d, hd, ho⟩, col, hk, hko⟩ := he
    obtain ⟨⟨col', hk', h1, h2, h3⟩, d', hd', h4⟩ := hf
    obtain rfl : d = d' := by rw [hd] at hd'; exact Option.some.inj hd'
    obtain rfl : col = col' := by rw [hk] at hk'; exact Option.some.inj hk'
    simp only [addToColl, Exec.bind_ok, Exec.require_ok, Exec.exists_unit, Exec.getOr_ok, Exec.pure_ok]
    refine ⟨_, col, hk, hko, h1, ?_, d, hd, ho, h4, h2, rfl⟩
    unfold collCap
    cases e : col.limit with
    | none => simpa using h2
    | some l => simpa using h3 l e
  case addSecret n s =>
    obtain ⟨d, hd, ho⟩ := he
    obtain ⟨d', hd', ⟨h1, h2, h3, h4⟩, h5, h6⟩ := hf
    obtain rfl : d = d' := by rw [hd] at hd'; exact Option.some.inj hd'
    obtain ⟨b, hb⟩ := payFee_one.2 hp
    simp only [addSecret, addSecretHelper, Exec.bind_ok, Exec.require_ok, Exec.exists_unit, Exec.getOr_ok, Exec.pure_ok]
    exact ⟨_, d, hd, ho, h1, h5, h3, h2, h6, h4, b, hb, rfl⟩
  case toCapsule n s =>
    obtain ⟨d, hd, ho⟩ := he
    obtain ⟨d', hd', ⟨h1, h2, h3, h4⟩, h5, h6⟩ := hf
    obtain rfl : d = d' := by rw [hd] at hd'; exact Option.some.inj hd'
    obtain ⟨b, hb⟩ := payFee_one.2 hp
    simp only [toCapsule, toCapsuleHelper, Exec.bind_ok, Exec.require_ok, Exec.exists_unit, Exec.getOr_ok, Exec.pure_ok]
    exact ⟨_, d, hd, ho, h1, h5, h3, h2, h6, h4, b, hb, rfl⟩
  case addSecretShard n =>
    obtain ⟨⟨d, hd, h1, h2⟩, op, k, h3, h4, h5⟩ := hf
    obtain ⟨l, hl⟩ := shard_ok (Nat.zero_lt_of_lt h5.1) (fun l e e2 => ((someShards hc hr) n).1 (e2 ▸ e)) h5
    simp only [addSecretShard, Exec.bind_ok, Exec.require_ok, Exec.exists_unit, Exec.getOr_ok, Exec.pure_ok]
    exact ⟨_, _, enclave_ok h3 h4, d, hd, h1, h2, l, hl, rfl⟩
  case addCapsuleShard n =>
    obtain ⟨⟨d, hd, h1, h2⟩, op, k, h3, h4, h5⟩ := hf
    obtain ⟨l, hl⟩ := shard_ok (Nat.zero_lt_of_lt h5.1) (fun l e e2 => ((someShards hc hr) n).2 (e2 ▸ e)) h5
    simp only [addCapsuleShard, Exec.mapErr_ok, Exec.bind_ok, Exec.require_ok, Exec.exists_unit, Exec.getOr_ok, Exec.pure_ok]
    exact ⟨_, _, enclave_ok h3 h4, d, hd, h1, h2, l, hl, rfl⟩
  case setCapsuleData n s =>
    obtain ⟨d, hd, ho⟩ := he
    obtain ⟨d', hd', h1, h2, h3, h4, h5, h6⟩ := hf
    obtain rfl : d = d' := by rw [hd] at hd'; exact Option.some.inj hd'
    simp only [setCapsuleData, Exec.bind_ok, Exec.require_ok, Exec.exists_unit, Exec.getOr_ok, Exec.pure_ok]
    exact ⟨_, d, hd, ho, h1, h2, h3, h4, h5, h6, rfl⟩
  case notifyKey n =>
    obtain ⟨d, hd, ho⟩ := he
    obtain ⟨d', hd', h0, ⟨h1, h2, h3, h4⟩, h5, h6⟩ := hf
    obtain rfl : d = d' := by rw [hd] at hd'; exact Option.some.inj hd'
    simp only [notifyKey, Exec.bind_ok, Exec.require_ok, Exec.exists_unit, Exec.getOr_ok, Exec.pure_ok]
    exact ⟨_, d, hd, ho, h0, h1, h3, h2, h5, h6, h4, rfl⟩
  case setCollData k s =>
    obtain ⟨d, hd, ho⟩ := he
    simp only [setCollData, Exec.bind_ok, Exec.require_ok, Exec.exists_unit, Exec.getOr_ok, Exec.pure_ok]
    exact ⟨_, d, hd, ho, rfl⟩

end NftM
