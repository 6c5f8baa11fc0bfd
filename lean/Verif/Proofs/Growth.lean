import Verif.Props.GrowthSpec
import Verif.Proofs.Lift
import Verif.Proofs.AucInv
import Verif.Proofs.RentStep
import Verif.Proofs.RentActs
import Verif.Proofs.TeeStake
/-
How much calls and hooks add to the stored state.
-/
open Spec

variable {c : Cfg} {w w' : World} {a : AccountId}

namespace Grow
variable {K V : Type} [DecidableEq K] {f : V → Nat} {m : FMap K V} {k : K} {v x : V}

theorem ins_some (h : m.get k = some x) : slots f (m.insert k v) + f x = slots f m + f v := by
  unfold slots
  have := FMap.sumBy_split (fun _ v => 1 + f v) m k
  rw [h] at this
  rw [FMap.sumBy_insert]
  simp only at this ⊢
  omega

theorem ins_le : slots f (m.insert k v) ≤ slots f m + (1 + f v) := by
  unfold slots
  have := FMap.sumBy_split (fun _ v => 1 + f v) m k
  rw [FMap.sumBy_insert]
  omega

theorem ins_same (h : m.get k = some x) (e : f v = f x) : slots f (m.insert k v) = slots f m := by
  have := ins_some (f := f) (v := v) h
  omega

theorem era_some (h : m.get k = some x) : slots f (m.erase k) + (1 + f x) = slots f m := by
  unfold slots
  have := FMap.sumBy_split (fun _ v => 1 + f v) m k
  rw [h] at this
  simp only at this ⊢
  omega

theorem era_le : slots f (m.erase k) ≤ slots f m := by
  unfold slots
  have := FMap.sumBy_split (fun _ v => 1 + f v) m k
  omega

theorem filt_le (p : K → Bool) : slots f (m.filterKeys p) ≤ slots f m := by
  unfold slots FMap.sumBy FMap.filterKeys
  dsimp only
  induction m.l with
  | nil => simp
  | cons x t ih =>
    rw [List.filter_cons]
    split <;> simp only [List.map_cons, List.sum_cons] <;> omega

theorem set_le {o : Option V} : slots f (m.set k o) ≤ slots f m + (o.map fun v => 1 + f v).getD 0 := by
  cases o with
  | none => exact era_le
  | some v => exact ins_le

/-- overwrite an entry by one of the same size -/
macro "same " h:term : tactic => `(tactic| (rw [ins_same $h]; swap; · rfl))

end Grow
open Grow

namespace NftM

theorem pushToColl_grow {id : NFTId} {o : Option CollId} (h : pushToColl c w a id o = .ok w') :
    stored w' ≤ stored w + o.toList.length ∧ w'.nfts = w.nfts := by
  cases o with
  | none => simp only [pushToColl] at h; inv_ok at h; subst h; exact ⟨Nat.le_refl _, rfl⟩
  | some k =>
    simp only [pushToColl] at h
    inv_ok at h
    obtain ⟨col, hk, h1, h2, h3, h4, rfl⟩ := h
    have := ins_some (f := collLen) (v := { col with nfts := col.nfts ++ [id] }) hk
    simp only [collLen, List.length_append, List.length_singleton] at this
    simp only [stored, Option.toList_some, List.length_singleton]
    constructor
    · omega
    · trivial

theorem createHelper_grow {data : Data} {roy : Permill} {coll : Option CollId} {sb : Bool}
    (h : createHelper c w a data roy coll sb = .ok w') :
    stored w' ≤ stored w + (1 + data.length + coll.toList.length) := by
  obtain ⟨b, w1, _, h2, _, rfl⟩ := createHelper_ok h
  have h1 := (pushToColl_grow h2).1
  have h3 := ins_le (f := nftLen) (m := w1.nfts) (k := w.nft.nextNft)
    (v := { owner := a, creator := a, offchain := data, coll := coll, royalty := roy, st := { soulbound := sb } })
  simp only [nftLen] at h3
  simp only [stored, World.putNft, World.putBal] at *
  omega

theorem addSecret_grow {n : NFTId} {data : Data} (h : addSecretHelper c w a n data = .ok w') :
    stored w' ≤ stored w + (1 + data.length) := by
  simp only [addSecretHelper] at h
  inv_ok at h
  obtain ⟨d, b, hd, _, _, _, _, _, _, _, _, rfl⟩ := h
  have := ins_le (f := List.length) (m := w.nft.secretData) (k := n) (v := data)
  simp only [stored, World.putNft, World.putBal]
  same hd
  omega

theorem toCapsule_grow {n : NFTId} {data : Data} (h : toCapsuleHelper c w a n data = .ok w') :
    stored w' ≤ stored w + (1 + data.length) := by
  simp only [toCapsuleHelper] at h
  inv_ok at h
  obtain ⟨d, b, hd, _, _, _, _, _, _, _, _, rfl⟩ := h
  have := ins_le (f := List.length) (m := w.nft.capsuleData) (k := n) (v := data)
  simp only [stored, World.putNft, World.putBal]
  same hd
  omega

theorem pushShard_len {cur : Option (List (ClusterId × AccountId))} {s : ClusterId × AccountId} {l : List (ClusterId × AccountId)}
    (h : pushShard c cur s = .ok (some l)) : l.length = (cur.getD []).length + 1 := by
  cases cur with
  | none =>
    simp only [pushShard] at h; inv_ok at h
    obtain ⟨_, h⟩ := h
    split at h
    · cases h
    · cases h; rfl
  | some t =>
    simp only [pushShard] at h; inv_ok at h
    obtain ⟨_, _, _, _, _, h⟩ := h
    split at h
    · cases h
    · cases h; simp

theorem shards_le {m : FMap NFTId (List (ClusterId × AccountId))} {n : NFTId} {s : ClusterId × AccountId}
    {o : Option (List (ClusterId × AccountId))} (h : pushShard c (m.get n) s = .ok o) :
    slots List.length (m.set n o) ≤ slots List.length m + 2 := by
  cases o with
  | none => exact Nat.le_trans era_le (by omega)
  | some l =>
    have hl := pushShard_len h
    show slots List.length (m.insert n l) ≤ _
    cases hg : m.get n with
    | none =>
      have := ins_le (f := List.length) (m := m) (k := n) (v := l)
      rw [hg] at hl
      simp only [Option.getD_none, List.length_nil] at hl
      omega
    | some t =>
      have := ins_some (f := List.length) (v := l) hg
      rw [hg] at hl
      simp only [Option.getD_some] at hl
      omega

theorem swapRemove_len (l : List NFTId) (n : NFTId) : (swapRemove l n).length ≤ l.length := by
  unfold swapRemove
  split
  · exact Nat.le_refl _
  · split <;> simp

theorem dropFromColl_grow {n : NFTId} {o : Option CollId} (h : dropFromColl w n o = .ok w') : stored w' ≤ stored w := by
  cases o with
  | none => simp only [dropFromColl] at h; inv_ok at h; subst h; exact Nat.le_refl _
  | some k =>
    simp only [dropFromColl] at h
    inv_ok at h
    obtain ⟨col, hk, _, rfl⟩ := h
    have := ins_some (f := collLen) (v := { col with nfts := swapRemove col.nfts n }) hk
    have := swapRemove_len col.nfts n
    simp only [collLen] at *
    simp only [stored]
    omega

/-- only the NFT itself is overwritten -/
macro "own_nft " d:term : tactic =>
  `(tactic| (simp only [stored, World.putNft, World.putBal, World.ev, nftAdds]; same $d))

theorem call_grow {x : Call} (h : call c w a x = .ok w') : stored w' ≤ stored w + nftAdds x := by
  cases x with
  | createNft => exact createHelper_grow h
  | addSecret => exact addSecret_grow h
  | toCapsule => exact toCapsule_grow h
  | createSecret =>
    simp only [call, createSecret] at h
    inv_ok at h
    obtain ⟨w1, _, h1, h2⟩ := h
    have := createHelper_grow h1
    have := addSecret_grow h2
    simp only [nftAdds]
    omega
  | createCapsule =>
    simp only [call, createCapsule] at h
    inv_ok at h
    obtain ⟨w1, _, h1, h2⟩ := h
    have := createHelper_grow h1
    have := toCapsule_grow h2
    simp only [nftAdds]
    omega
  | burnNft n =>
    simp only [call, burnNft] at h
    inv_ok at h
    obtain ⟨d, w1, hd, _, _, _, _, _, h2, rfl⟩ := h
    have h0 := dropFromColl_grow h2
    have e1 := era_le (f := nftLen) (m := w1.nfts) (k := n)
    have e2 : slots List.length (if d.st.secret then w1.nft.secretData.erase n else w1.nft.secretData) ≤
      slots List.length w1.nft.secretData := by split <;> [exact era_le; exact Nat.le_refl _]
    have e3 : slots List.length (if d.st.secret ∧ d.st.syncSecret then w1.nft.secretShards.erase n else w1.nft.secretShards) ≤
      slots List.length w1.nft.secretShards := by split <;> [exact era_le; exact Nat.le_refl _]
    have e4 : slots List.length (if d.st.capsule then w1.nft.capsuleData.erase n else w1.nft.capsuleData) ≤
      slots List.length w1.nft.capsuleData := by split <;> [exact era_le; exact Nat.le_refl _]
    have e5 : slots List.length (if d.st.capsule ∧ d.st.syncCapsule then w1.nft.capsuleShards.erase n else w1.nft.capsuleShards) ≤
      slots List.length w1.nft.capsuleShards := by split <;> [exact era_le; exact Nat.le_refl _]
    simp only [stored] at *
    omega
  | transferNft n r =>
    simp only [call, transferNft] at h; frame_auto at h
    own_nft ‹w.nfts.get n = some _›
    exact Nat.le_refl _
  | setRoyalty n r =>
    simp only [call, setRoyalty] at h; frame_auto at h
    own_nft ‹w.nfts.get n = some _›
    exact Nat.le_refl _
  | notifyKey n =>
    simp only [call, notifyKey] at h; frame_auto at h
    own_nft ‹w.nfts.get n = some _›
    exact Nat.le_refl _
  | delegateNft n r =>
    simp only [call, delegateNft] at h; frame_auto at h
    own_nft ‹w.nfts.get n = some _›
    have := set_le (f := noLen) (m := w.nft.deleg) (k := n) (o := if r.getD a ≠ a then some (r.getD a) else none)
    have : ((if r.getD a ≠ a then some (r.getD a) else none).map fun v => 1 + noLen v).getD 0 ≤ 1 := by
      split <;> simp [noLen]
    omega
  | createColl data limit =>
    simp only [call, createColl] at h; frame_auto at h
    have := ins_le (f := collLen) (m := w.nft.colls) (k := w.nft.nextColl)
      (v := { owner := a, offchain := data, nfts := [], limit := limit, closed := false })
    simp only [collLen, List.length_nil] at this
    simp only [stored, nftAdds]
    omega
  | burnColl k =>
    simp only [call, burnColl] at h; frame_auto at h
    have := era_le (f := collLen) (m := w.nft.colls) (k := k)
    simp only [stored, nftAdds]
    omega
  | closeColl k =>
    simp only [call, closeColl] at h; frame_auto at h
    simp only [stored, nftAdds]
    same ‹w.nft.colls.get k = some _›
    exact Nat.le_refl _
  | limitColl k l =>
    simp only [call, limitColl] at h; frame_auto at h
    simp only [stored, nftAdds]
    same ‹w.nft.colls.get k = some _›
    exact Nat.le_refl _
  | addToColl n k =>
    simp only [call, addToColl] at h; inv_ok at h
    obtain ⟨col, d, hk, _, _, _, hd, _, _, _, rfl⟩ := h
    own_nft hd
    have := ins_some (f := collLen) (v := { col with nfts := col.nfts ++ [n] }) hk
    simp only [collLen, List.length_append, List.length_singleton] at this
    omega
  | addSecretShard n =>
    simp only [call, addSecretShard] at h; inv_ok at h
    obtain ⟨s, d, l, _, hd, _, _, hl, rfl⟩ := h
    own_nft hd
    have := shards_le hl
    omega
  | addCapsuleShard n =>
    simp only [call, addCapsuleShard] at h; inv_ok at h
    obtain ⟨s, d, l, _, hd, _, _, hl, rfl⟩ := h
    own_nft hd
    have := shards_le hl
    omega
  | setCapsuleData n data =>
    simp only [call, setCapsuleData] at h; frame_auto at h
    have := ins_le (f := List.length) (m := w.nft.capsuleData) (k := n) (v := data)
    simp only [stored, nftAdds]
    omega
  | setCollData k data =>
    simp only [call, setCollData] at h; inv_ok at h
    obtain ⟨col, hk, _, rfl⟩ := h
    have := ins_some (f := collLen) (v := { col with offchain := data }) hk
    simp only [collLen] at this
    simp only [stored, nftAdds]
    omega

end NftM

namespace MktM

theorem apply_len {α : Type} (o : Option (List α)) (x : ConfigOp (List α)) :
    ((apply o x).getD []).length ≤ (o.getD []).length + setLen x := by
  cases x <;> simp [apply, setLen]

theorem call_grow {x : Call} (h : call c w a x = .ok w') : stored w' ≤ stored w + mktAdds x := by
  cases x with
  | create k =>
    simp only [call, create] at h; frame_auto at h
    have := ins_le (f := mktLen) (m := w.mkt.mkts) (k := w.mkt.next)
      (v := { owner := a, kind := k, commission := none, listing := none, accounts := none, offchain := none, colls := none })
    simp only [mktLen, Option.getD_none, List.length_nil] at this
    simp only [stored, World.putBal, mktAdds]
    omega
  | setOwner m r =>
    simp only [call, setOwner] at h; frame_auto at h
    simp only [stored, mktAdds]
    same ‹w.mkt.mkts.get m = some _›
    exact Nat.le_refl _
  | setKind m r =>
    simp only [call, setKind] at h; frame_auto at h
    simp only [stored, mktAdds]
    same ‹w.mkt.mkts.get m = some _›
    exact Nat.le_refl _
  | setConfig m f l ac o k =>
    simp only [call, setConfig] at h; inv_ok at h
    obtain ⟨d, hd, _, rfl⟩ := h
    have := ins_some (f := mktLen) (v := { d with
      commission := apply d.commission f, listing := apply d.listing l, accounts := apply d.accounts ac,
      offchain := apply d.offchain o, colls := apply d.colls k }) hd
    have := apply_len d.accounts ac
    have := apply_len d.offchain o
    have := apply_len d.colls k
    simp only [mktLen] at *
    simp only [stored, mktAdds]
    omega
  | list n m p =>
    simp only [call, list] at h; inv_ok at h
    obtain ⟨d, k, b, hd, h⟩ := h
    repeat' (first | (obtain ⟨_, h⟩ := h))
    simp only [stored, World.putBal, World.putNft, mktAdds]
    same hd
    have := ins_le (f := noLen) (m := w.mkt.sales) (k := n) (v := { seller := a, mkt := m, price := p, commission := k.commission })
    simp only [noLen] at this
    omega
  | unlist n =>
    simp only [call, unlist] at h; frame_auto at h
    simp only [stored, World.putNft, mktAdds]
    same ‹w.nfts.get n = some _›
    have := era_le (f := noLen) (m := w.mkt.sales) (k := n)
    omega
  | buy n p =>
    simp only [call, buy] at h; frame_auto at h
    simp only [stored, World.putNft, World.putBal, mktAdds]
    same ‹w.nfts.get n = some _›
    have := era_le (f := noLen) (m := w.mkt.sales) (k := n)
    omega

end MktM

namespace AucM

theorem claim_le {m : FMap AccountId Balance} {r : AccountId} {v : Balance} : slots noLen (addClaim m r v) ≤ slots noLen m + 1 :=
  ins_le

theorem claims_le (l : List (AccountId × Balance)) (m : FMap AccountId Balance) :
    slots noLen (addClaims m l) ≤ slots noLen m + l.length := by
  induction l generalizing m with
  | nil => exact Nat.le_refl _
  | cons x t ih =>
    have h1 := ih (addClaim m x.1 x.2)
    have h2 := claim_le (m := m) (r := x.1) (v := x.2)
    simp only [List.length_cons]
    exact Nat.le_trans h1 (by omega)

theorem update_len {q q' : Queue} {n : NFTId} {o : Option Block} (h : updateDeadline c q n o = .ok q') :
    q'.length = q.length := by
  cases o with
  | none => simp only [updateDeadline] at h; inv_ok at h; rw [h]
  | some b =>
    rcases Queue.update_ok h with ⟨_, rfl⟩ | ⟨hm, rfl⟩
    · rfl
    · have := Queue.length_remove hm
      rw [Queue.length_ins]; exact this

theorem call_grow {x : Call} (h : call c w a x = .ok w') : stored w' ≤ stored w + aucAdds x := by
  cases call_act h with
  | @create n m s e p bi d k q h1 h2 h3 h4 h5 h6 hd hown hl hk hal hcov hq =>
    obtain ⟨_, rfl⟩ := Queue.insert_some hq
    have e1 := ins_le (f := aucLen) (m := w.auc.auctions) (k := n) (v := { creator := a, start := s, fin := e, startPrice := p, buyIt := bi, bids := [], mkt := m, extended := false })
    have e2 := ins_le (f := noLen) (m := w.auc.comm) (k := n) (v := k.commission)
    simp only [aucLen, noLen, List.length_nil] at e1 e2
    simp only [stored, aucAdds, Queue.length_ins]
    same hd
    omega
  | @cancel n d x hd hx =>
    have e1 := era_some (f := aucLen) hx
    have e2 := claims_le x.bids w.auc.claims
    have e3 := Queue.length_remove_le (n := n) (q := w.auc.deadlines)
    simp only [aucLen] at e1
    simp only [stored, aucAdds]
    same hd
    omega
  | @end_ n d x top b hd hx _ _ ht =>
    have e1 := era_some (f := aucLen) hx
    have e2 := claims_le x.bids.dropLast w.auc.claims
    have e3 := Queue.length_remove_le (n := n) (q := w.auc.deadlines)
    simp only [aucLen, List.length_dropLast] at e1 e2
    simp only [stored, aucAdds]
    same hd
    omega
  | @addBid n v x b dr l q hx h1 h2 h3 h4 h5 h6 h7 =>
    have e0 := update_len h7
    have hl : (extend c { x with bids := l } w.now).1.bids = l := by rw [extend]; dsimp only; split <;> rfl
    have e1 := ins_some (f := aucLen) (v := (extend c { x with bids := l } w.now).1) hx
    simp only [aucLen, hl] at e1
    have e2 : slots noLen (addClaimOpt w.auc.claims dr) + l.length ≤ slots noLen w.auc.claims + x.bids.length + 1 := by
      have := (removeBid_sublist (a := a) (l := x.bids)).length_le
      rcases insertBid_ok h6 with ⟨rfl, rfl, _⟩ | ⟨y, t, rfl, e, rfl, _⟩
      · simp only [addClaimOpt, List.length_append, List.length_singleton]; omega
      · have e3 := claim_le (m := w.auc.claims) (r := y.1) (v := y.2)
        rw [e] at this
        simp only [List.length_cons] at this
        simp only [addClaimOpt, List.length_append, List.length_singleton]; omega
    simp only [stored, aucAdds]
    omega
  | @removeBid n x v b hx =>
    have e1 := ins_some (f := aucLen) (v := { x with bids := AucM.removeBid a x.bids }) hx
    have := (removeBid_sublist (a := a) (l := x.bids)).length_le
    simp only [aucLen] at e1
    simp only [stored, aucAdds]
    omega
  | @buyItNow n p d x b hd hx =>
    have e1 := era_some (f := aucLen) hx
    have e2 := claims_le x.bids w.auc.claims
    have e3 := Queue.length_remove_le (n := n) (q := w.auc.deadlines)
    simp only [aucLen] at e1
    simp only [stored, aucAdds]
    same hd
    omega
  | claim =>
    have := era_le (f := noLen) (m := w.auc.claims) (k := a)
    simp only [stored, aucAdds]
    omega

theorem pop_grow (h : Pop c w w') : stored w' ≤ stored w := by
  cases h with
  | @won n e t x d top b hq _ hx hd =>
    have e1 := era_some (f := aucLen) hx
    have e2 := claims_le x.bids.dropLast w.auc.claims
    simp only [aucLen, List.length_dropLast] at e1 e2
    simp only [stored, hq, List.length_cons]
    same hd
    omega
  | @noBid n e t x d hq _ hx hd =>
    have e1 := era_le (f := aucLen) (m := w.auc.auctions) (k := n)
    simp only [stored, hq, List.length_cons]
    same hd
    omega
  | missed hq => simp only [stored, hq, List.length_cons]; omega
  | stray hq => simp only [stored, hq, List.length_cons]; omega

theorem hook_grow (w : World) : stored (hook c w) ≤ stored w := by
  have : ∀ w', Relation.ReflTransGen (Pop c) w w' → stored w' ≤ stored w := by
    intro w' h
    induction h with
    | refl => exact Nat.le_refl _
    | tail _ h ih => exact Nat.le_trans (pop_grow h) ih
  exact this _ (hook_pops w)

end AucM

namespace RentM

theorem cho_size (f : FMap NFTId NFTData) (m : Option NFTId) (x : AccountId) : slots nftLen (cho f m x) = slots nftLen f := by
  unfold cho
  split
  · rfl
  · split
    · rfl
    · rename_i h
      rw [ins_same h]; rfl

theorem cho_len {f : FMap NFTId NFTData} {m : Option NFTId} {x : AccountId} {n : NFTId} {d : NFTData}
    (h : f.get n = some d) : ∃ d', (cho f m x).get n = some d' ∧ nftLen d' = nftLen d := by
  rw [get_cho, h]
  split
  · exact ⟨_, rfl, rfl⟩
  · exact ⟨_, rfl, rfl⟩

theorem insertKind_len {r r' : RentSt} {d : Duration} {n : NFTId} {b : Block} (h : insertKind c r d n b = some r') :
    r'.fixedQ.length + r'.subQ.length = r.fixedQ.length + r.subQ.length + 1 := by
  unfold insertKind at h
  split at h <;> simp only [Option.map_eq_some_iff] at h <;> obtain ⟨q, hq, rfl⟩ := h <;>
    obtain ⟨_, rfl⟩ := Queue.insert_some hq <;> simp only [Queue.length_ins] <;> omega

theorem refund_size {n : NFTId} {k : Contract} {b : Bal} {f : FMap NFTId NFTData} (h : Refund c w n k b f) :
    slots nftLen f = slots nftLen w.nfts := by
  obtain ⟨d, b1, hd, _, _, rfl⟩ := h
  obtain ⟨d1, h1, e1⟩ := cho_len (m := feeNft k.renterFee) (x := k.renter) hd
  obtain ⟨d2, h2, e2⟩ := cho_len (m := renteeNft k) (x := k.rentee.getD 0) h1
  rw [ins_same h2, cho_size, cho_size]
  rw [e2, e1]; rfl

theorem removeKind_len (r : RentSt) (d : Duration) (n : NFTId) :
    (removeKind r d n).fixedQ.length + (removeKind r d n).subQ.length + (removeKind r d n).availQ.length ≤
      r.fixedQ.length + r.subQ.length + r.availQ.length ∧ (removeKind r d n).offers = r.offers := by
  have h1 := Queue.length_remove_le (n := n) (q := r.fixedQ)
  have h2 := Queue.length_remove_le (n := n) (q := r.subQ)
  unfold removeKind
  split <;> dsimp only <;> exact ⟨by omega, rfl⟩

theorem call_grow (hi : RInv c w) {x : Call} (h : call c w a x = .ok w') : stored w' ≤ stored w + rentAdds x := by
  cases call_did h with
  | @create n dur acc rv rf f1 f2 _ h =>
    simp only [RentM.create] at h
    inv_ok at h
    obtain ⟨d, b, w1, q, _, hd, h⟩ := h
    obtain ⟨_, _, _, _, _, _, _, _, _, _, _, _, _, _, hw, hq, rfl⟩ := h
    obtain ⟨_, rfl⟩ := Queue.insert_some hq
    obtain ⟨m, x, e1⟩ : ∃ m x, w1 = { w.putBal b with nfts := cho w.nfts m x } := by
      cases e : feeNft f1 with
      | none => rw [e] at hw; simp only [depositRenterNft] at hw; inv_ok at hw; exact ⟨none, 0, by rw [← hw]; rfl⟩
      | some id =>
        rw [e] at hw; simp only [depositRenterNft] at hw; inv_ok at hw
        obtain ⟨x, hx, _, _, rfl⟩ := hw
        exact ⟨some id, c.rentPot, by simp only [World.putNft, cho]; simp only [World.putBal] at hx ⊢; rw [hx]⟩
    subst e1
    obtain ⟨d1, h1, e1⟩ := cho_len (m := m) (x := x) hd
    have e2 := ins_le (f := rentLen) (m := w.rent.contracts) (k := n)
      (v := { start := none, renter := a, rentee := none, duration := toDuration c.rentMaxDur dur, acceptance := acc,
              renterCanRevoke := rv, rentFee := rf, renterFee := f1, renteeFee := f2, creation := w.now })
    simp only [rentLen] at e2
    simp only [stored, World.putBal, World.putNft, World.ev, rentAdds, Queue.length_ins]
    rw [ins_same h1, cho_size]
    · omega
    · rw [e1]; rfl
  | @cancel n k b f hk _ _ hf =>
    have e1 := era_le (f := rentLen) (m := w.rent.contracts) (k := n)
    have e2 := era_le (f := List.length) (m := w.rent.offers) (k := n)
    have e3 := Queue.length_remove_le (n := n) (q := w.rent.availQ)
    simp only [stored, rentAdds, refund_size hf]
    omega
  | @revoke n _ h =>
    obtain ⟨k, r, d, b0, b1, b2, hk, _, _, _, hd, _, _, _, _, rfl⟩ := revoke_ok h
    have e1 := era_le (f := rentLen) (m := w.rent.contracts) (k := n)
    obtain ⟨e2, e3⟩ := removeKind_len w.rent k.duration n
    simp only [stored, rentAdds, e3]
    same hd
    rw [cho_size, cho_size]
    omega
  | @start n k r x _ hk hs h =>
    obtain ⟨b1, b2, q, _, _, _, _, hq, rfl⟩ := h.out
    have hn : k.rentee = none := by
      rcases hs with ⟨_, _, h, _⟩ | ⟨_, _, l, hl, _⟩
      · exact h
      · by_contra hne
        rw [hi.q.offers n k hk hne] at hl
        cases hl
    have e0 := Queue.length_remove (hi.q.memA n k hk hn)
    have e1 := insertKind_len hq
    have e2 := insertKind_ok hq
    have e3 : q.availQ = w.rent.availQ.remove n := by rw [e2]
    have e4 := era_le (f := List.length) (m := w.rent.offers) (k := n)
    have e5 : rentAdds x = 0 := by rcases hs with ⟨rfl, _⟩ | ⟨rfl, _⟩ <;> rfl
    simp only [stored, e3, e5, cho_size]
    same hk
    simp only at e1
    omega
  | @makeOffer n k =>
    simp only [stored, rentAdds]
    cases hg : w.rent.offers.get n with
    | none =>
      have := ins_le (f := List.length) (m := w.rent.offers) (k := n) (v := [a])
      simp only [Option.getD_none, List.nil_append, List.length_singleton] at *
      omega
    | some l =>
      have := ins_some (f := List.length) (v := l ++ [a]) hg
      simp only [Option.getD_some, List.length_append, List.length_singleton] at *
      omega
  | @retractOffer n l hl =>
    have := ins_some (f := List.length) (v := l.erase a) hl
    have := List.length_erase_le (a := a) (l := l)
    simp only [stored, rentAdds]
    omega
  | @changeTerms n k s fee per md ch hk =>
    have : slots List.length (if k.rentee.isSome then w.rent.offers else w.rent.offers.erase n) ≤
      slots List.length w.rent.offers := by split <;> [exact Nat.le_refl _; exact era_le]
    simp only [stored, rentAdds]
    same hk
    omega
  | @acceptTerms n k s fee per md ch hk =>
    simp only [stored, rentAdds]
    same hk
    exact Nat.le_refl _

theorem act_grow (h : RentAct c w w') : stored w' ≤ stored w := by
  cases h with
  | @finish n b k w1 _ _ _ _ hk hf =>
    obtain ⟨k, d, b1, b2, hk, hd, _, _, rfl⟩ := finished_ok hf
    obtain ⟨d1, h1, e1⟩ := cho_len (m := feeNft k.renterFee) (x := k.renter) hd
    obtain ⟨d2, h2, e2⟩ := cho_len (m := renteeNft k) (x := k.rentee.getD 0) h1
    have e0 := era_le (f := rentLen) (m := w.rent.contracts) (k := n)
    have q1 := Queue.length_remove_le (n := n) (q := w.rent.availQ)
    have q2 := Queue.length_remove_le (n := n) (q := w.rent.fixedQ)
    have q3 := Queue.length_remove_le (n := n) (q := w.rent.subQ)
    simp only [stored, drop]
    rw [ins_same h2, cho_size, cho_size]
    · omega
    · rw [e2, e1]; rfl
  | @renew n b k r fee bal _ _ hm =>
    have := Queue.length_remove (Queue.mem_ids.2 ⟨b, hm⟩)
    simp only [stored, Queue.length_ins]
    omega

theorem hook_grow (hi : RInv c w) (hb : BalInv c w.bal) : stored (hook c w) ≤ stored w := by
  have : ∀ w', RentActs c w w' → stored w' ≤ stored w := by
    intro w' h
    induction h with
    | refl => exact Nat.le_refl _
    | tail _ h ih => exact Nat.le_trans (act_grow h) ih
  exact this _ (hi.hook_acts hb)

end RentM

namespace TrM

theorem enqueue_len {q q' : Queue} {n : NFTId} {o : Option Block} (h : enqueue c q n o = .ok q') : q'.length ≤ q.length + 1 := by
  cases o with
  | none => simp only [enqueue] at h; inv_ok at h; subst h; omega
  | some b =>
    simp only [enqueue] at h; inv_ok at h
    obtain ⟨_, h⟩ := h
    obtain ⟨_, rfl⟩ := Queue.insert_some h
    rw [Queue.length_ins]; exact Nat.le_refl _

theorem transmit_grow {n : NFTId} (h : transmit w n = .ok w') : stored w' ≤ stored w ∧ w'.tr.queue = w.tr.queue := by
  simp only [transmit] at h; inv_ok at h
  obtain ⟨t, d, ht, hd, rfl⟩ := h
  have := era_le (f := trLen) (m := w.tr.trans) (k := n)
  simp only [stored, World.putNft]
  same hd
  exact ⟨by omega, trivial⟩

theorem erase_grow (n : NFTId) : stored { w with tr := { w.tr with consents := w.tr.consents.erase n } } ≤ stored w := by
  have := era_le (f := List.length) (m := w.tr.consents) (k := n)
  simp only [stored]
  omega

theorem ev_grow (e : Ev) : stored (w.ev e) = stored w := rfl

theorem cleanup_grow (t : TrSt) (n : NFTId) (k : ProtocolKind) :
    slots List.length (cleanup t n k).consents + (cleanup t n k).queue.length ≤ slots List.length t.consents + t.queue.length ∧
      (cleanup t n k).trans = t.trans := by
  have h1 := era_le (f := List.length) (m := t.consents) (k := n)
  have h2 := Queue.length_remove_le (n := n) (q := t.queue)
  cases k <;> simp only [cleanup] <;> exact ⟨by omega, trivial⟩

theorem effect_grow {n : NFTId} {p : Protocol} {t : Nat} {l : List AccountId}
    (hl : l.length = ((w.tr.consents.get n).getD []).length + 1) (h : consentEffect c w n p t l a = .ok w') :
    stored w' ≤ stored w + 2 := by
  unfold consentEffect at h
  split at h
  · inv_ok at h; subst h
    rw [ev_grow]
    simp only [stored]
    cases hg : w.tr.consents.get n with
    | none =>
      have := ins_le (f := List.length) (m := w.tr.consents) (k := n) (v := l)
      simp only [hg, Option.getD_none, List.length_nil] at *
      omega
    | some x =>
      have := ins_some (f := List.length) (v := l) hg
      simp only [hg, Option.getD_some] at *
      omega
  · have e := erase_grow (w := w) n
    split at h
    · split at h
      · inv_ok at h
        obtain ⟨w1, h1, rfl⟩ := h
        exact Nat.le_trans (Nat.le_trans (transmit_grow h1).1 e) (Nat.le_add_right _ _)
      · inv_ok at h
        obtain ⟨q, hq, rfl⟩ := h
        have := enqueue_len hq
        rw [ev_grow]
        simp only [stored] at e ⊢
        omega
    · inv_ok at h
      obtain ⟨w1, h1, rfl⟩ := h
      exact Nat.le_trans (Nat.le_trans (transmit_grow h1).1 e) (Nat.le_add_right _ _)

theorem call_grow {x : Call} (h : call c w a x = .ok w') : stored w' ≤ stored w + trAdds x := by
  cases x with
  | set n r p k =>
    simp only [call, set] at h; inv_ok at h
    obtain ⟨d, q, b, _, hd, _, _, _, _, _, _, _, _, _, _, _, _, _, _, _, _, hq, _, rfl⟩ := h
    have e1 := enqueue_len hq
    have e2 := ins_le (f := trLen) (m := w.tr.trans) (k := n) (v := { recipient := r, protocol := p, cancellation := k })
    simp only [trLen] at e2
    simp only [stored, World.putBal, World.putNft, World.ev, trAdds]
    same hd
    omega
  | remove n =>
    simp only [call, remove] at h; inv_ok at h
    obtain ⟨d, t, hd, _, _, ht, _, rfl⟩ := h
    obtain ⟨e1, e2⟩ := cleanup_grow w.tr n (kind t.protocol)
    have e3 := era_le (f := trLen) (m := w.tr.trans) (k := n)
    simp only [stored, World.putNft, trAdds, e2]
    same hd
    omega
  | resetTimer n b =>
    simp only [call, resetTimer] at h; inv_ok at h
    obtain ⟨d, t, q, hd, _, _, ht, _, _, _, hq, rfl⟩ := h
    have e0 := ins_some (f := trLen) (v := { t with protocol := .atBlockWithReset b }) ht
    have e1 : q.length = w.tr.queue.length := by
      rcases Queue.update_ok hq with ⟨_, rfl⟩ | ⟨hm, rfl⟩
      · rfl
      · have := Queue.length_remove hm
        rw [Queue.length_ins]; exact this
    simp only [trLen, protoLen] at e0
    simp only [stored, trAdds]
    omega
  | addConsent n =>
    simp only [call, addConsent] at h; inv_ok at h
    repeat' (first | (obtain ⟨_, h⟩ := h))
    exact effect_grow (by simp) h

theorem one_grow (n : NFTId) : stored (hookOne w n).1 ≤ stored w ∧ (hookOne w n).1.tr.queue = w.tr.queue := by
  unfold hookOne
  split
  · rename_i h
    have := transmit_grow h
    exact ⟨this.1, this.2⟩
  · exact ⟨Nat.le_refl _, rfl⟩

theorem loop_grow (q : Queue) (w : World) (k : Nat) : stored (hookLoop c w q k).1 ≤ stored w ∧
    (hookLoop c w q k).1.tr.queue = w.tr.queue ∧ (hookLoop c w q k).2.1.length ≤ q.length := by
  induction q generalizing w k with
  | nil => exact ⟨Nat.le_refl _, rfl, Nat.le_refl _⟩
  | cons x t ih =>
    obtain ⟨n, b⟩ := x
    unfold hookLoop
    split
    · obtain ⟨e1, e2⟩ := one_grow (w := w) n
      dsimp only
      generalize (if (hookOne w n).2 = true then k + 1 else k) = k'
      split
      · exact ⟨e1, e2, by simp⟩
      · obtain ⟨h1, h2, h3⟩ := ih (hookOne w n).1 k'
        exact ⟨Nat.le_trans h1 e1, h2.trans e2, by simp only [List.length_cons]; omega⟩
    · exact ⟨Nat.le_refl _, rfl, Nat.le_refl _⟩

theorem hook_grow (w : World) : stored (hook c w) ≤ stored w := by
  obtain ⟨h1, h2, h3⟩ := loop_grow (c := c) w.tr.queue w 0
  unfold hook
  dsimp only
  split
  · simp only [stored] at h1 ⊢
    rw [h2] at h1
    omega
  · exact h1

end TrM

namespace TeeM

theorem unassign_grow {op : AccountId} (h : unassign w op = .ok w') : stored w' ≤ stored w ∧ w'.tee.ledger = w.tee.ledger := by
  simp only [unassign] at h; inv_ok at h
  obtain ⟨e, k, cl, he, _, _, hc, rfl⟩ := h
  have e1 := era_le (f := encLen) (m := w.tee.updates) (k := op)
  have e2 := ins_some (f := clusterLen) (v := { cl with enclaves := swapRemoveBy (fun x => decide (x.1 = op)) cl.enclaves }) hc
  have e3 := era_le (f := noLen) (m := w.tee.opCluster) (k := op)
  have e4 := era_le (f := noLen) (m := w.tee.assignedEra) (k := op)
  have e5 := era_le (f := noLen) (m := w.tee.accOp) (k := e.addr)
  have e6 := era_le (f := encLen) (m := w.tee.data) (k := op)
  have e7 := swapRemoveBy_length (fun x => decide (x = op)) w.tee.unregs
  have e8 := swapRemoveBy_length (fun x => decide (x.1 = op)) cl.enclaves
  simp only [clusterLen] at e2
  simp only [stored]
  exact ⟨by omega, trivial⟩

theorem dropReg_grow {op : AccountId} (h : dropRegistration w op = .ok w') : stored w' ≤ stored w := by
  simp only [dropRegistration] at h; inv_ok at h
  obtain ⟨e, _, rfl⟩ := h
  have e1 := era_le (f := encLen) (m := w.tee.registrations) (k := op)
  have e2 := era_le (f := noLen) (m := w.tee.ledger) (k := op)
  simp only [stored, World.putBal]
  omega

theorem dropUpd_grow {op : AccountId} (h : dropUpdate w op = .ok w') : stored w' ≤ stored w := by
  simp only [dropUpdate] at h; inv_ok at h
  obtain ⟨e, _, rfl⟩ := h
  have e1 := era_le (f := encLen) (m := w.tee.updates) (k := op)
  simp only [stored]
  omega

theorem putReport_len {r : Report} {l l' : List Report} (h : putReport r l = some l') : l'.length = l.length := by
  induction l generalizing l' with
  | nil => cases h
  | cons x t ih =>
    unfold putReport at h
    split at h
    · cases h; rfl
    · simp only [Option.map_eq_some_iff] at h
      obtain ⟨y, hy, rfl⟩ := h
      simp only [List.length_cons, ih hy]

theorem addReport_len {r : Report} {l l' : List Report} (h : addReport c l r = .ok l') : l'.length ≤ l.length + 1 := by
  unfold addReport at h
  split at h
  · inv_ok at h; subst h
    rw [putReport_len ‹_›]; omega
  · inv_ok at h
    obtain ⟨_, rfl⟩ := h
    simp

theorem setKind_len (b : AccountId) (t : ClusterType) (l : List MetricsServer) : (setKind b t l).length = l.length := by
  induction l with
  | nil => rfl
  | cons x r ih => unfold setKind; split <;> simp only [List.length_cons, ih]

theorem call_grow {x : Call} (h : call c w a x = .ok w') : stored w' ≤ stored w + teeAdds x := by
  cases x with
  | register addr uri =>
    simp only [call, register] at h; inv_ok at h
    repeat' (first | (obtain ⟨_, h⟩ := h))
    have e1 := ins_le (f := noLen) (m := w.tee.ledger) (k := a)
      (v := { operator := a, staked := w.tee.stakingAmount, unlocking := false, unbondedAt := 0 })
    have e2 := ins_le (f := encLen) (m := w.tee.registrations) (k := a) (v := { addr := addr, uri := uri })
    simp only [noLen, encLen] at e1 e2
    simp only [stored, World.putBal, teeAdds]
    omega
  | unregister =>
    simp only [call, unregister] at h
    split at h
    · simp only [unregisterAssigned] at h; inv_ok at h
      obtain ⟨s, _, _, hs, rfl⟩ := h
      simp only [stored, teeAdds, List.length_append, List.length_singleton]
      same hs
      omega
    · exact Nat.le_trans (dropReg_grow h) (Nat.le_add_right _ _)
  | update addr uri =>
    simp only [call, update] at h; inv_ok at h
    obtain ⟨e, h⟩ := h
    repeat' (first | (obtain ⟨_, h⟩ := h))
    have e2 := ins_le (f := encLen) (m := w.tee.updates) (k := a) (v := { addr := addr, uri := uri })
    simp only [encLen] at e2
    simp only [stored, teeAdds]
    omega
  | cancelUpdate => exact Nat.le_trans (dropUpd_grow h) (Nat.le_add_right _ _)
  | withdraw =>
    simp only [call, withdraw] at h; inv_ok at h
    obtain ⟨s, hs, _, _, rfl⟩ := h
    have e2 := era_le (f := noLen) (m := w.tee.ledger) (k := a)
    simp only [stored, World.putBal, teeAdds]
    omega
  | submitReport op r =>
    simp only [call, submitReport] at h; inv_ok at h
    obtain ⟨s, e, act, l, _, _, _, _, hl, rfl⟩ := h
    have e0 := addReport_len hl
    simp only [stored, World.ev, teeAdds]
    cases hg : w.tee.reports.get (act - 1, op) with
    | none =>
      have := ins_le (f := List.length) (m := w.tee.reports) (k := (act - 1, op)) (v := l)
      simp only [hg, Option.getD_none, List.length_nil] at *
      omega
    | some y =>
      have := ins_some (f := List.length) (v := l) hg
      simp only [hg, Option.getD_some] at *
      omega
  | claim era =>
    simp only [call, claim] at h; inv_ok at h
    repeat' (first | (obtain ⟨_, h⟩ := h))
    have e2 := ins_le (f := noLen) (m := w.tee.claimed) (k := (era, a)) (v := reward w.tee era a)
    simp only [noLen] at e2
    simp only [stored, World.putBal, World.ev, teeAdds]
    omega
  | bondExtra =>
    simp only [call, bondExtra] at h; inv_ok at h
    obtain ⟨s, hs, _, _, _, rfl⟩ := h
    simp only [stored, World.putBal, teeAdds]
    same hs
    omega
  | refundExcess =>
    simp only [call, refundExcess] at h; inv_ok at h
    obtain ⟨s, hs, _, rfl⟩ := h
    simp only [stored, World.putBal, teeAdds]
    same hs
    omega

theorem root_grow (ht : TInv c w.tee) {x : RootCall} (h : root c w x = .ok w') : stored w' ≤ stored w + teeRootAdds x := by
  cases x with
  | assign op k slot =>
    simp only [root, assign] at h; inv_ok at h
    obtain ⟨r, cl, era, hr, hk, _, _, _, _, rfl⟩ := h
    have e1 := ins_le (f := noLen) (m := w.tee.accOp) (k := r.addr) (v := op)
    have e2 := ins_le (f := encLen) (m := w.tee.data) (k := op) (v := r)
    have e3 := ins_le (f := noLen) (m := w.tee.opCluster) (k := op) (v := k)
    have e4 := ins_le (f := noLen) (m := w.tee.assignedEra) (k := op) (v := era)
    have e5 := ins_some (f := clusterLen) (v := { cl with enclaves := cl.enclaves ++ [(op, slot)] }) hk
    have e6 := era_some (f := encLen) hr
    simp only [noLen, encLen, clusterLen, List.length_append, List.length_singleton] at e1 e2 e3 e4 e5 e6
    simp only [stored, teeRootAdds] at *
    omega
  | removeRegistration op => exact Nat.le_trans (dropReg_grow h) (Nat.le_add_right _ _)
  | rejectUpdate op => exact Nat.le_trans (dropUpd_grow h) (Nat.le_add_right _ _)
  | approveUnregister op =>
    simp only [root, approveUnregister] at h; inv_ok at h
    exact Nat.le_trans (unassign_grow h.2).1 (Nat.le_add_right _ _)
  | forceRemove op =>
    simp only [root, forceRemove] at h; inv_ok at h
    obtain ⟨w1, s, h1, hs, rfl⟩ := h
    have := (unassign_grow h1).1
    simp only [stored, teeRootAdds] at this ⊢
    same hs
    omega
  | approveUpdate op =>
    simp only [root, approveUpdate] at h; inv_ok at h
    obtain ⟨u, e, w1, hu, _, _, he, hw, rfl⟩ := h
    have e1 := era_some (f := encLen) hu
    have e2 := ins_some (f := encLen) (v := { addr := u.addr, uri := u.uri }) he
    simp only [encLen] at e1 e2
    unfold approveAddr at hw
    split at hw
    · inv_ok at hw; subst hw
      simp only [stored, teeRootAdds, encLen] at *
      omega
    · inv_ok at hw
      obtain ⟨_, rfl⟩ := hw
      have e3 := ins_le (f := noLen) (m := w.tee.accOp) (k := u.addr) (v := op)
      simp only [stored, teeRootAdds, encLen, noLen] at *
      omega
  | forceUpdate op addr uri =>
    simp only [root, forceUpdate] at h; inv_ok at h
    obtain ⟨e, ⟨w1, e1⟩, _, he, hw, _, rfl⟩ := h
    have e2 := ins_some (f := encLen) (v := { e1 with uri := uri.getD e1.uri }) he
    have e3 := era_le (f := encLen) (m := w.tee.updates) (k := op)
    have e4 : (uri.getD e.uri).length ≤ e.uri.length + (uri.getD []).length := by
      cases uri <;> simp
    simp only [encLen] at e2
    cases addr with
    | none =>
      simp only [forceAddr] at hw; inv_ok at hw
      obtain ⟨rfl, rfl⟩ := hw
      simp only [stored, teeRootAdds]
      omega
    | some b =>
      simp only [forceAddr] at hw; inv_ok at hw
      obtain ⟨_, _, rfl, rfl⟩ := hw
      have e5 := era_some (f := noLen) (ht.addr op e he)
      have e6 := ins_le (f := noLen) (m := w.tee.accOp.erase e.addr) (k := b) (v := op)
      simp only [noLen] at e5 e6
      dsimp only at e2
      by_cases hb : e.addr = b
      · simp only [if_pos hb, stored, teeRootAdds]
        omega
      · simp only [if_neg hb, stored, teeRootAdds]
        omega
  | createCluster t =>
    simp only [root, createCluster] at h; inv_ok at h
    obtain ⟨_, _, rfl⟩ := h
    have e1 := ins_le (f := clusterLen) (m := w.tee.clusters) (k := w.tee.nextCluster) (v := { enclaves := [], kind := t })
    simp only [clusterLen, List.length_nil] at e1
    simp only [stored, teeRootAdds, clusterLen] at *
    omega
  | updateCluster k t =>
    simp only [root, updateCluster] at h; inv_ok at h
    obtain ⟨cl, hk, rfl⟩ := h
    simp only [stored, teeRootAdds]
    same hk
    omega
  | removeCluster k =>
    simp only [root, removeCluster] at h; inv_ok at h
    obtain ⟨cl, hk, _, rfl⟩ := h
    have e1 := era_le (f := clusterLen) (m := w.tee.clusters) (k := k)
    simp only [stored, teeRootAdds]
    omega
  | registerServer s =>
    simp only [root, registerServer] at h; inv_ok at h
    obtain ⟨_, _, rfl⟩ := h
    simp only [stored, teeRootAdds, List.length_append, List.length_singleton]
    omega
  | unregisterServer b =>
    simp only [root, unregisterServer] at h; inv_ok at h
    obtain ⟨_, _, _, rfl⟩ := h
    have := swapRemoveBy_length (fun x => decide (x.addr = b)) w.tee.servers
    simp only [stored, teeRootAdds]
    omega
  | setServerType b t =>
    simp only [root, setServerType] at h; inv_ok at h
    obtain ⟨_, _, _, rfl⟩ := h
    simp only [stored, teeRootAdds, setKind_len]
    omega
  | setWeights p => cases h; exact Nat.le_refl _
  | setStakingAmount x => cases h; exact Nat.le_refl _
  | setPool x => cases h; exact Nat.le_refl _
  | setAssignedEra op e =>
    simp only [root, setAssignedEra] at h; inv_ok at h
    obtain ⟨_, hk, rfl⟩ := h
    simp only [stored, teeRootAdds]
    same hk
    omega

theorem hook_grow (w : World) : stored (hook c w) ≤ stored w := by
  unfold hook
  split
  · exact Nat.le_refl _
  · split
    · rename_i e _ _
      have e1 := filt_le (f := noLen) (m := w.tee.claimed) (fun x => decide (x.1 ≠ e - c.history))
      have e2 := filt_le (f := List.length) (m := w.tee.reports) (fun x => decide (x.1 ≠ e - c.history))
      simp only [stored, clearEra]
      omega
    · exact Nat.le_refl _

end TeeM

namespace BrM

theorem vote_len {o : Option Proposal} {x : Proposal × Bool} (h : vote c w a o = .ok x) :
    propLen x.1 = ((o.map propLen).getD 0) + 1 := by
  cases o with
  | none =>
    simp only [vote] at h; inv_ok at h
    obtain ⟨_, rfl⟩ := h
    unfold complete; split <;> rfl
  | some p =>
    simp only [vote] at h; inv_ok at h
    obtain ⟨_, _, _, _, rfl⟩ := h
    unfold complete; split <;> simp [propLen]

theorem call_grow {x : Call} (h : call c w a x = .ok w') : stored w' ≤ stored w + adds (.br x) := by
  cases x with
  | vote k t =>
    simp only [call, voteFor] at h; inv_ok at h
    obtain ⟨⟨p, o⟩, _, _, hv, rfl⟩ := h
    have e0 := vote_len hv
    have e1 : slots propLen (w.br.votes.insert (k, t) p) ≤ slots propLen w.br.votes + 2 := by
      cases hg : w.br.votes.get (k, t) with
      | none =>
        have := ins_le (f := propLen) (m := w.br.votes) (k := (k, t)) (v := p)
        simp only [hg, Option.map_none, Option.getD_none] at *
        omega
      | some y =>
        have := ins_some (f := propLen) (v := p) hg
        simp only [hg, Option.map_some, Option.getD_some] at *
        omega
    have e2 : ∀ w0, stored (payout c w0 k t o) = stored w0 := by intro w0; cases o <;> rfl
    rw [e2]
    simp only [stored, World.ev, adds]
    omega
  | deposit v r k =>
    simp only [call, deposit] at h; inv_ok at h
    obtain ⟨b, b', hk, h⟩ := h
    repeat' (first | (obtain ⟨_, h⟩ := h))
    obtain ⟨x, hx⟩ := Option.isSome_iff_exists.1 hk
    simp only [stored, World.putBal, World.ev, adds]
    same hx
    omega

theorem ext_grow {x : ExtCall} (h : ext c w x = .ok w') : stored w' ≤ stored w + adds (.ext x) := by
  cases x with
  | setThreshold t => simp only [ext, setThreshold] at h; frame_auto at h; exact Nat.le_refl _
  | addChain k =>
    simp only [ext, addChain] at h; inv_ok at h
    obtain ⟨_, _, rfl⟩ := h
    have := ins_le (f := noLen) (m := w.br.nonces) (k := k) (v := 0)
    simp only [noLen] at this
    simp only [stored, adds]
    omega
  | setRelayers l =>
    cases h
    simp only [stored, setRelayers, adds]
    omega
  | setNonce k n =>
    simp only [ext, setNonce] at h; inv_ok at h
    obtain ⟨_, hk, _, _, rfl⟩ := h
    simp only [stored, adds]
    same hk
    omega
  | setFee x => cases h; exact Nat.le_refl _
  | setExtra x => cases h; exact Nat.le_refl _

end BrM

theorem signed_grow (hc : c.Ok) (hr : Reach c w) {x : Call} (h : signedCall c w a x = .ok w') :
    stored w' ≤ stored w + adds x := by
  cases x with
  | nft x => exact NftM.call_grow h
  | mkt x => exact MktM.call_grow h
  | auc x => exact AucM.call_grow h
  | rent x => exact RentM.call_grow (hr.inv hc).rent h
  | tr x => exact TrM.call_grow h
  | tee x => exact TeeM.call_grow h
  | br x => exact BrM.call_grow h
  | bal dst v l =>
    simp only [signedCall] at h
    cases e : w.bal.transfer c.ed a dst v l with
    | error _ => rw [e] at h; cases h
    | ok b => rw [e] at h; cases h; exact Nat.le_refl _
  | root x => cases h
  | ext x => cases h
  | mandate x => cases h

theorem root_grow (hr : Reach c w) {x : RootCall} (h : rootCall c w x = .ok w') : stored w' ≤ stored w + adds (.root x) := by
  cases x with
  | tee r => exact TeeM.root_grow hr.tinv h
  | trFee k x => cases h; cases k <;> exact Nat.le_refl _
  | _ => cases h; exact Nat.le_refl _

theorem dispatch_grow (hc : c.Ok) (hr : Reach c w) (x : Call) (o : Origin) {w' : World} (h : dispatch c x o w = .ok w') :
    stored w' ≤ stored w + adds x := by
  induction x generalizing o w' with
  | mandate x ih =>
    cases o with
    | signed a => cases h
    | root =>
      simp only [dispatch] at h
      cases e : dispatch c x .root w with
      | ok w1 => rw [e] at h; cases h; rw [TrM.ev_grow]; exact ih .root e
      | error y => rw [e] at h; cases y <;> cases h; exact Nat.le_add_right _ _
    | ext =>
      simp only [dispatch] at h
      cases e : dispatch c x .root w with
      | ok w1 => rw [e] at h; cases h; rw [TrM.ev_grow]; exact ih .root e
      | error y => rw [e] at h; cases y <;> cases h; exact Nat.le_add_right _ _
  | root x =>
    cases o with
    | root => exact root_grow hr h
    | _ => cases h
  | ext x =>
    cases o with
    | signed a => cases h
    | _ => exact BrM.ext_grow h
  | _ =>
    cases o with
    | signed a => exact signed_grow hc hr h
    | _ => cases h

theorem step_grow (hc : c.Ok) (hr : Reach c w) (o : Op) : stored (step c w o) ≤ stored w + opAdds o := by
  cases o with
  | call o x =>
    simp only [step, opAdds]
    cases e : dispatch c x o w with
    | ok w1 => exact dispatch_grow hc hr x o e
    | error _ => exact Nat.le_add_right _ _
  | hookAuc => exact AucM.hook_grow w
  | hookRent => exact RentM.hook_grow (hr.inv hc).rent hr.micro.balInv
  | hookTr => exact TrM.hook_grow w
  | hookTee => exact TeeM.hook_grow w
  | era e => simp only [step, opAdds]; split <;> exact Nat.le_refl _
  | txFee p f t b =>
    simp only [step, opAdds]
    cases e : RewM.txFee c w p f t b with
    | ok w1 => simp only [RewM.txFee] at e; frame_auto at e; exact Nat.le_refl _
    | error _ => exact Nat.le_refl _
  | _ => exact Nat.le_refl _

theorem run_grow (hc : c.Ok) (hr : Reach c w) (l : List Op) (hl : ∀ o ∈ l, o.Ok c) :
    stored (run c w l) ≤ stored w + (l.map opAdds).sum := by
  induction l generalizing w with
  | nil => exact Nat.le_refl _
  | cons o t ih =>
    have h1 := step_grow hc hr o
    have h2 := ih (hr.step o (hl o (by simp))) fun x hx => hl x (by simp [hx])
    simp only [run, List.map_cons, List.sum_cons]
    omega
