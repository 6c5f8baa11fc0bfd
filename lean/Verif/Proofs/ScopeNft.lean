import Verif.Proofs.ScopeBase
/-
C102 and C103 for the calls of the NFT pallet and the marketplace pallet.
-/
open Spec

/-- use agreement on an item, and on clock and settings, to make both runs read the same -/
macro "reads " h:term ", " hn:term : tactic =>
  `(tactic| (have e := Rel.on $h _ $hn
             simp only [same] at e
             try simp only [e]
             all_goals clear e))

/-- use agreement on clock and settings -/
macro "sets " h:term : tactic =>
  `(tactic| (have e := Rel.set $h
             simp only [Settings] at e
             try simp only [e]
             all_goals clear e))

/-- step over equal actions -/
macro "same_steps" : tactic => `(tactic| repeat refine Out.bindEq fun _ _ => ?_)

namespace NftM
variable {c : Cfg} {S : List Item} {w1 w2 : World}

theorem pushToColl_rel (h : Rel S w1 w2) (who : AccountId) (id : NFTId) (k : Option CollId)
    (hk : ∀ x, k = some x → Item.coll x ∈ S) :
    Out (Rel S) (pushToColl c w1 who id k) (pushToColl c w2 who id k) := by
  cases k with
  | none => exact h
  | some k =>
    unfold pushToColl
    reads h, hk k rfl
    same_steps
    exact .pure (by rel_upd h)

theorem createHelper_rel (h : Rel S w1 w2) (who : AccountId) (data : Data) (r : Permill) (k : Option CollId)
    (s : Bool) (ha : Item.account who ∈ S) (hi : Item.newNft ∈ S) (hk : ∀ x, k = some x → Item.coll x ∈ S) :
    Out (Rel S) (createHelper c w1 who data r k s) (createHelper c w2 who data r k s) := by
  unfold createHelper
  sets h
  refine .bind (h.bal.payFee ha ..) fun b1 b2 _ hb => ?_
  have h := h.putBal hb
  reads h, hi
  refine .bind (pushToColl_rel h _ _ _ hk) fun v1 v2 _ h => ?_
  · unfold nextNftId
    have e : v1.nft.nextNft = v2.nft.nextNft := h.on _ hi
    rw [e]
    simp only [bind_assoc, pure_bind]
    same_steps
    refine .pure ?_
    refine Rel.putNft ?_ _ _
    rel_upd h

theorem addSecretHelper_rel (h : Rel S w1 w2) (who : AccountId) (n : NFTId) (data : Data)
    (ha : Item.account who ∈ S) (hn : Item.nft n ∈ S) :
    Out (Rel S) (addSecretHelper c w1 who n data) (addSecretHelper c w2 who n data) := by
  unfold addSecretHelper
  reads h, hn
  sets h
  same_steps
  refine .bind (h.bal.payFee ha ..) fun b1 b2 _ hb => ?_
  have h := h.putBal hb
  refine .pure ?_
  rel_upd h

theorem toCapsuleHelper_rel (h : Rel S w1 w2) (who : AccountId) (n : NFTId) (data : Data)
    (ha : Item.account who ∈ S) (hn : Item.nft n ∈ S) :
    Out (Rel S) (toCapsuleHelper c w1 who n data) (toCapsuleHelper c w2 who n data) := by
  unfold toCapsuleHelper
  reads h, hn
  sets h
  same_steps
  refine .bind (h.bal.payFee ha ..) fun b1 b2 _ hb => ?_
  have h := h.putBal hb
  refine .pure ?_
  rel_upd h

theorem pushToColl_next {w w' : World} {who : AccountId} {id : NFTId} {k : Option CollId}
    (h : pushToColl c w who id k = .ok w') : w'.nft.nextNft = w.nft.nextNft := by
  cases k with
  | none => cases h; rfl
  | some k =>
    unfold pushToColl at h
    inv_ok at h
    obtain ⟨_, -, -, -, -, -, rfl⟩ := h
    rfl

theorem createHelper_next {w w' : World} {who : AccountId} {data : Data} {r : Permill} {k : Option CollId} {s : Bool}
    (h : createHelper c w who data r k s = .ok w') : w'.nft.nextNft = w.nft.nextNft + 1 := by
  unfold createHelper nextNftId at h
  inv_ok at h
  obtain ⟨b, v, _, x, hb, hv, hx, rfl, rfl⟩ := h
  have := pushToColl_next hv
  split at hx
  · cases hx; simpa [World.putNft, World.putBal] using this
  · simp at hx

theorem call_rel (h : Rel S w1 w2) (who : AccountId) (x : Call) (hu : uses c w1 who (.nft x) ⊆ S) :
    Out (Rel S) (call c w1 who x) (call c w2 who x) := by
  simp only [List.subset_def] at hu
  cases x with
  | createNft data r k s =>
    exact createHelper_rel h who data r k s (hu (by simp [uses])) (hu (by simp [uses]))
      fun x hx => hu (by simp [uses, hx])
  | createSecret data d r k s =>
    refine .req (h.bal.balanceCheck ?_ _ |>.trans ?_) fun _ => .bind (createHelper_rel h who data r k s ?_ ?_ ?_) fun v1 v2 hv h => ?_
    · exact hu (by simp [uses])
    · sets h
    · exact hu (by simp [uses])
    · exact hu (by simp [uses])
    · exact fun x hx => hu (by simp [uses, hx])
    · have e := createHelper_next hv
      have e2 : v1.nft.nextNft = v2.nft.nextNft := h.on .newNft (hu (by simp [uses]))
      rw [← e2, e]
      exact addSecretHelper_rel h _ _ _ (hu (by simp [uses])) (hu (by simp [uses]))
  | createCapsule data d r k s =>
    refine .req (h.bal.balanceCheck ?_ _ |>.trans ?_) fun _ => .bind (createHelper_rel h who data r k s ?_ ?_ ?_) fun v1 v2 hv h => ?_
    · exact hu (by simp [uses])
    · sets h
    · exact hu (by simp [uses])
    · exact hu (by simp [uses])
    · exact fun x hx => hu (by simp [uses, hx])
    · have e := createHelper_next hv
      have e2 : v1.nft.nextNft = v2.nft.nextNft := h.on .newNft (hu (by simp [uses]))
      rw [← e2, e]
      exact toCapsuleHelper_rel h _ _ _ (hu (by simp [uses])) (hu (by simp [uses]))
  | addSecret n d => exact addSecretHelper_rel h _ _ _ (hu (by simp [uses])) (hu (by simp [uses]))
  | toCapsule n d => exact toCapsuleHelper_rel h _ _ _ (hu (by simp [uses])) (hu (by simp [uses]))
  | burnNft n =>
    have hn : Item.nft n ∈ S := hu (by simp [uses])
    simp only [call, burnNft]
    have hc : ∀ d, w1.nfts.get n = some d → ∀ k, d.coll = some k → Item.coll k ∈ S := fun d hd k hk =>
      hu (by simp [uses, collOf, hd, hk])
    have e1 : w1.nfts.get n = w2.nfts.get n := (h.on _ hn).1
    rw [← e1]
    refine .bindEq fun d hd => ?_
    rw [Exec.getOr_ok] at hd
    same_steps
    refine .bind (R := Rel S) ?_ fun v1 v2 _ h => .pure ?_
    · cases hk : d.coll with
      | none => exact h
      | some k =>
        unfold dropFromColl
        reads h, hc d hd k hk
        same_steps
        exact .pure (by rel_upd h)
    · refine Rel.mk (by have h0 := h.set; simpa [Settings] using h0) (fun i hi => ?_)
      have h0 := h.on i hi
      cases i with
      | nft m =>
        simp only [same] at h0 ⊢
        obtain ⟨a1, a2, a3, a4, a5, a6, a7, a8, a9, b1, b2, b3, b4⟩ := h0
        refine ⟨by simp [FMap.get_erase, a1], a2, ?_, ?_, ?_, ?_, a7, a8, a9, b1, b2, b3, b4⟩ <;>
          (split <;> simp [FMap.get_erase, *])
      | _ => simp_all [same]
  | createColl d l =>
    have hn : Item.newColl ∈ S := hu (by simp [uses])
    simp only [call, createColl]
    have e : w1.nft.nextColl = w2.nft.nextColl := h.on _ hn
    rw [e]
    same_steps
    exact .pure (by rel_upd h)
  | addToColl n k =>
    have hn : Item.nft n ∈ S := hu (by simp [uses])
    have hk : Item.coll k ∈ S := hu (by simp [uses])
    simp only [call, addToColl]
    reads h, hn
    reads h, hk
    same_steps
    exact .pure (by rel_upd h)
  | addSecretShard n =>
    have hn : Item.nft n ∈ S := hu (by simp [uses])
    have hk : Item.tee ∈ S := hu (by simp [uses])
    simp only [call, addSecretShard, ensureEnclave]
    reads h, hn
    reads h, hk
    same_steps
    exact .pure (by rel_upd h)
  | addCapsuleShard n =>
    have hn : Item.nft n ∈ S := hu (by simp [uses])
    have hk : Item.tee ∈ S := hu (by simp [uses])
    simp only [call, addCapsuleShard, ensureEnclave]
    reads h, hn
    reads h, hk
    same_steps
    exact .pure (by rel_upd h)
  | delegateNft n r =>
    have hn : Item.nft n ∈ S := hu (by simp [uses])
    simp only [call, delegateNft]
    reads h, hn
    same_steps
    exact .pure (by rel_upd h)
  | setCapsuleData n d =>
    have hn : Item.nft n ∈ S := hu (by simp [uses])
    simp only [call, setCapsuleData]
    reads h, hn
    same_steps
    exact .pure (by rel_upd h)
  | transferNft n d =>
    have hn : Item.nft n ∈ S := hu (by simp [uses])
    simp only [call, transferNft]
    reads h, hn
    same_steps
    exact .pure (h.putNft n _)
  | setRoyalty n d =>
    have hn : Item.nft n ∈ S := hu (by simp [uses])
    simp only [call, setRoyalty]
    reads h, hn
    same_steps
    exact .pure (h.putNft n _)
  | notifyKey n =>
    have hn : Item.nft n ∈ S := hu (by simp [uses])
    simp only [call, notifyKey]
    reads h, hn
    same_steps
    exact .pure (h.putNft n _)
  | burnColl k =>
    have hk : Item.coll k ∈ S := hu (by simp [uses])
    simp only [call, burnColl]
    reads h, hk
    same_steps
    exact .pure (by rel_upd h)
  | closeColl k =>
    have hk : Item.coll k ∈ S := hu (by simp [uses])
    simp only [call, closeColl]
    reads h, hk
    same_steps
    exact .pure (by rel_upd h)
  | limitColl k l =>
    have hk : Item.coll k ∈ S := hu (by simp [uses])
    simp only [call, limitColl]
    reads h, hk
    same_steps
    exact .pure (by rel_upd h)
  | setCollData k l =>
    have hk : Item.coll k ∈ S := hu (by simp [uses])
    simp only [call, setCollData]
    reads h, hk
    same_steps
    exact .pure (by rel_upd h)

variable {T : List Item} {w w' : World}

theorem pushToColl_off {who : AccountId} {id : NFTId} {k : Option CollId}
    (h : pushToColl c w who id k = .ok w') (hk : ∀ x, k = some x → Item.coll x ∈ T) : Off T w w' := by
  cases k with
  | none => cases h; exact .refl _
  | some k =>
    unfold pushToColl at h
    inv_ok at h
    obtain ⟨_, -, -, -, -, -, rfl⟩ := h
    have := hk k rfl
    off_upd

theorem createHelper_off {who : AccountId} {data : Data} {r : Permill} {k : Option CollId}
    {s : Bool} (h : createHelper c w who data r k s = .ok w') (ht : Item.supply ∈ T) (ha : Item.account who ∈ T)
    (hi : Item.newNft ∈ T) (hn : Item.nft w.nft.nextNft ∈ T)
    (hk : ∀ x, k = some x → Item.coll x ∈ T) : Off T w w' := by
  unfold createHelper nextNftId at h
  inv_ok at h
  obtain ⟨b, v, _, x, hb, hv, hx, rfl, rfl⟩ := h
  have e := pushToColl_next hv
  refine (Off.putBal ht (.payFee ha hb)).trans ((pushToColl_off hv hk).trans ?_)
  have hn : Item.nft v.nft.nextNft ∈ T := by rw [e]; exact hn
  off_upd

theorem addSecretHelper_off {who : AccountId} {n : NFTId} {data : Data}
    (h : addSecretHelper c w who n data = .ok w') (ht : Item.supply ∈ T) (ha : Item.account who ∈ T)
    (hn : Item.nft n ∈ T) : Off T w w' := by
  unfold addSecretHelper at h
  inv_ok at h
  obtain ⟨d, b, -, -, -, -, -, -, -, -, hb, rfl⟩ := h
  refine (Off.putBal ht (.payFee ha hb)).trans ?_
  off_upd

theorem toCapsuleHelper_off {who : AccountId} {n : NFTId} {data : Data}
    (h : toCapsuleHelper c w who n data = .ok w') (ht : Item.supply ∈ T) (ha : Item.account who ∈ T)
    (hn : Item.nft n ∈ T) : Off T w w' := by
  unfold toCapsuleHelper at h
  inv_ok at h
  obtain ⟨d, b, -, -, -, -, -, -, -, -, hb, rfl⟩ := h
  refine (Off.putBal ht (.payFee ha hb)).trans ?_
  off_upd

theorem call_off {who : AccountId} {x : Call} (h : call c w who x = .ok w')
    (hu : touches c w who (.nft x) ⊆ T) : Off T w w' := by
  simp only [List.subset_def, touches] at hu
  have ht : Item.supply ∈ T := hu (by simp)
  cases x with
  | createNft data r k s =>
    exact createHelper_off h ht (hu (by simp [uses, looksAt])) (hu (by simp [uses, looksAt]))
      (hu (by simp [uses, looksAt])) fun x hx => hu (by simp [uses, looksAt, hx])
  | createSecret data d r k s =>
    simp only [call, createSecret] at h
    inv_ok at h
    obtain ⟨v, -, hv, h⟩ := h
    have e := createHelper_next hv
    refine (createHelper_off hv ht (hu (by simp [uses, looksAt])) (hu (by simp [uses, looksAt]))
      (hu (by simp [uses, looksAt])) fun x hx => hu (by simp [uses, looksAt, hx])).trans ?_
    rw [e] at h
    exact addSecretHelper_off h ht (hu (by simp [uses, looksAt])) (hu (by simp [uses, looksAt]))
  | createCapsule data d r k s =>
    simp only [call, createCapsule] at h
    inv_ok at h
    obtain ⟨v, -, hv, h⟩ := h
    have e := createHelper_next hv
    refine (createHelper_off hv ht (hu (by simp [uses, looksAt])) (hu (by simp [uses, looksAt]))
      (hu (by simp [uses, looksAt])) fun x hx => hu (by simp [uses, looksAt, hx])).trans ?_
    rw [e] at h
    exact toCapsuleHelper_off h ht (hu (by simp [uses, looksAt])) (hu (by simp [uses, looksAt]))
  | addSecret n d => exact addSecretHelper_off h ht (hu (by simp [uses, looksAt])) (hu (by simp [uses, looksAt]))
  | toCapsule n d => exact toCapsuleHelper_off h ht (hu (by simp [uses, looksAt])) (hu (by simp [uses, looksAt]))
  | burnNft n =>
    have hn : Item.nft n ∈ T := hu (by simp [uses, looksAt])
    simp only [call, burnNft] at h
    inv_ok at h
    obtain ⟨d, v, hd, -, -, -, -, -, hv, rfl⟩ := h
    have hc : ∀ k, d.coll = some k → Item.coll k ∈ T := fun k hk => hu (by simp [uses, looksAt, collOf, hd, hk])
    refine Off.trans (w' := v) ?_ ?_
    · cases hk : d.coll with
      | none => rw [hk] at hv; cases hv; exact .refl _
      | some k =>
        have := hc k hk
        rw [hk] at hv
        unfold dropFromColl at hv
        inv_ok at hv
        obtain ⟨_, -, -, rfl⟩ := hv
        off_upd
    · refine ⟨by simp [Settings], fun i hi => ?_⟩
      cases i with
      | nft m =>
        have : m ≠ n := by rintro rfl; exact hi hn
        simp only [same]
        refine ⟨by simp [FMap.get_erase, this], trivial, ?_, ?_, ?_, ?_, by simp⟩ <;>
          (split <;> simp [FMap.get_erase, this])
      | _ => simp [same]
  | createColl d l =>
    have h1 : Item.newColl ∈ T := hu (by simp [uses, looksAt])
    have h2 : Item.coll w.nft.nextColl ∈ T := hu (by simp [uses, looksAt])
    simp only [call, createColl] at h
    inv_ok at h
    obtain ⟨_, -, -, rfl⟩ := h
    off_upd
  | addToColl n k =>
    have hn : Item.nft n ∈ T := hu (by simp [uses, looksAt])
    have hk : Item.coll k ∈ T := hu (by simp [uses, looksAt])
    simp only [call, addToColl] at h
    inv_ok at h
    obtain ⟨_, _, -, -, -, -, -, -, -, -, rfl⟩ := h
    off_upd
  | addSecretShard n =>
    have hn : Item.nft n ∈ T := hu (by simp [uses, looksAt])
    simp only [call, addSecretShard] at h
    inv_ok at h
    obtain ⟨_, _, _, -, -, -, -, -, rfl⟩ := h
    off_upd
  | addCapsuleShard n =>
    have hn : Item.nft n ∈ T := hu (by simp [uses, looksAt])
    simp only [call, addCapsuleShard] at h
    inv_ok at h
    obtain ⟨_, _, _, -, -, -, -, -, rfl⟩ := h
    off_upd
  | delegateNft n r =>
    have hn : Item.nft n ∈ T := hu (by simp [uses, looksAt])
    simp only [call, delegateNft] at h
    inv_ok at h
    obtain ⟨_, -, -, -, -, -, -, -, rfl⟩ := h
    off_upd
  | setCapsuleData n d =>
    have hn : Item.nft n ∈ T := hu (by simp [uses, looksAt])
    simp only [call, setCapsuleData] at h
    inv_ok at h
    obtain ⟨_, -, -, -, -, -, -, -, -, rfl⟩ := h
    off_upd
  | transferNft n d =>
    have hn : Item.nft n ∈ T := hu (by simp [uses, looksAt])
    simp only [call, transferNft] at h
    inv_ok at h
    obtain ⟨_, -, -, -, -, -, -, -, -, -, -, rfl⟩ := h
    off_upd
  | setRoyalty n d =>
    have hn : Item.nft n ∈ T := hu (by simp [uses, looksAt])
    simp only [call, setRoyalty] at h
    inv_ok at h
    obtain ⟨_, -, -, -, -, -, -, -, -, -, rfl⟩ := h
    off_upd
  | notifyKey n =>
    have hn : Item.nft n ∈ T := hu (by simp [uses, looksAt])
    simp only [call, notifyKey] at h
    inv_ok at h
    obtain ⟨_, -, -, -, -, -, -, -, -, -, rfl⟩ := h
    off_upd
  | burnColl k =>
    have hk : Item.coll k ∈ T := hu (by simp [uses, looksAt])
    simp only [call, burnColl] at h
    inv_ok at h
    obtain ⟨_, -, -, -, rfl⟩ := h
    off_upd
  | closeColl k =>
    have hk : Item.coll k ∈ T := hu (by simp [uses, looksAt])
    simp only [call, closeColl] at h
    inv_ok at h
    obtain ⟨_, -, -, rfl⟩ := h
    off_upd
  | limitColl k l =>
    have hk : Item.coll k ∈ T := hu (by simp [uses, looksAt])
    simp only [call, limitColl] at h
    inv_ok at h
    obtain ⟨_, -, -, -, -, -, -, rfl⟩ := h
    off_upd
  | setCollData k l =>
    have hk : Item.coll k ∈ T := hu (by simp [uses, looksAt])
    simp only [call, setCollData] at h
    inv_ok at h
    obtain ⟨_, -, -, rfl⟩ := h
    off_upd

end NftM

namespace MktM
variable {c : Cfg} {S T : List Item} {w w' w1 w2 : World}

theorem call_rel (h : Rel S w1 w2) (who : AccountId) (x : Call) (hu : uses c w1 who (.mkt x) ⊆ S) :
    Out (Rel S) (call c w1 who x) (call c w2 who x) := by
  simp only [List.subset_def] at hu
  cases x with
  | create k =>
    have ha : Item.account who ∈ S := hu (by simp [uses])
    have hm : Item.newMarket ∈ S := hu (by simp [uses])
    simp only [call, create]
    sets h
    reads h, hm
    refine .bind (h.bal.payFee ha ..) fun b1 b2 _ hb => ?_
    have h := h.putBal hb
    same_steps
    have e : w1.mkt.next = w2.mkt.next := h.on .newMarket hm
    exact .pure (by rel_upd h)
  | setOwner m r =>
    have hm : Item.market m ∈ S := hu (by simp [uses])
    simp only [call, setOwner]
    reads h, hm
    same_steps
    exact .pure (by rel_upd h)
  | setKind m r =>
    have hm : Item.market m ∈ S := hu (by simp [uses])
    simp only [call, setKind]
    reads h, hm
    same_steps
    exact .pure (by rel_upd h)
  | setConfig m _ _ _ _ _ =>
    have hm : Item.market m ∈ S := hu (by simp [uses])
    simp only [call, setConfig]
    reads h, hm
    same_steps
    exact .pure (by rel_upd h)
  | list n m p =>
    have hn : Item.nft n ∈ S := hu (by simp [uses])
    have ha : Item.account who ∈ S := hu (by simp [uses])
    have hm : Item.market m ∈ S := hu (by simp [uses, marketAndOwner]; split <;> simp)
    have ho : ∀ k, w1.mkt.mkts.get m = some k → Item.account k.owner ∈ S := fun k hk =>
      hu (by simp [uses, marketAndOwner, hk])
    have e : w1.mkt.mkts.get m = w2.mkt.mkts.get m := h.on _ hm
    simp only [call, list]
    reads h, hn
    rw [← e]
    iterate 9 refine .bindEq fun _ _ => ?_
    refine .bindEq fun k hk => ?_
    rw [Exec.getOr_ok] at hk
    same_steps
    refine .bind (h.bal.transfer ha (ho k hk) ..) fun b1 b2 _ hb => ?_
    have h := h.putBal hb
    exact .pure (by rel_upd h)
  | unlist n =>
    have hn : Item.nft n ∈ S := hu (by simp [uses])
    simp only [call, unlist]
    reads h, hn
    same_steps
    exact .pure (by rel_upd h)
  | buy n p =>
    have hn : Item.nft n ∈ S := hu (by simp [uses])
    have ha : Item.account who ∈ S := hu (by simp [uses])
    simp only [call, buy]
    have e1 : w1.nfts.get n = w2.nfts.get n := (h.on _ hn).1
    have e2 : w1.mkt.sales.get n = w2.mkt.sales.get n := by have := h.on _ hn; simp only [same] at this; simp [this]
    rw [← e1, ← e2, ← h.bal.freeOf ha]
    refine .bindEq fun d hd => .bindEq fun s hs => ?_
    rw [Exec.getOr_ok] at hd hs
    have hm : Item.market s.mkt ∈ S := hu (by simp [uses, salePayees, hs, marketAndOwner]; split <;> simp)
    have e3 : w1.mkt.mkts.get s.mkt = w2.mkt.mkts.get s.mkt := h.on _ hm
    rw [← e3]
    refine .bindEq fun k hk => ?_
    rw [Exec.getOr_ok] at hk
    have h1 : Item.account k.owner ∈ S := hu (by simp [uses, salePayees, hs, marketAndOwner, hk])
    have h2 : Item.account d.creator ∈ S := hu (by simp [uses, salePayees, hs, creatorOf, hd])
    have h3 : Item.account s.seller ∈ S := hu (by simp [uses, salePayees, hs])
    same_steps
    refine .bind (h.bal.transfer ha h1 ..) fun b1 b2 _ hb => .bindEq fun _ _ => ?_
    refine .bind (hb.transfer ha h2 ..) fun b1 b2 _ hb => .bindEq fun _ _ => ?_
    refine .bind (hb.transfer ha h3 ..) fun b1 b2 _ hb => ?_
    have h := h.putBal hb
    exact .pure (by rel_upd h)

theorem call_off {who : AccountId} {x : Call} (h : call c w who x = .ok w')
    (hu : touches c w who (.mkt x) ⊆ T) : Off T w w' := by
  simp only [List.subset_def, touches] at hu
  have ht : Item.supply ∈ T := hu (by simp)
  cases x with
  | create k =>
    have ha : Item.account who ∈ T := hu (by simp [uses, looksAt])
    have h1 : Item.newMarket ∈ T := hu (by simp [uses, looksAt])
    have h2 : Item.market w.mkt.next ∈ T := hu (by simp [uses, looksAt])
    simp only [call, create] at h
    inv_ok at h
    obtain ⟨b, _, hb, -, rfl⟩ := h
    refine (Off.putBal ht (.payFee ha hb)).trans ?_
    off_upd
  | setOwner m r =>
    have hm : Item.market m ∈ T := hu (by simp [uses, looksAt])
    simp only [call, setOwner] at h
    inv_ok at h
    obtain ⟨_, -, -, -, rfl⟩ := h
    off_upd
  | setKind m r =>
    have hm : Item.market m ∈ T := hu (by simp [uses, looksAt])
    simp only [call, setKind] at h
    inv_ok at h
    obtain ⟨_, -, -, rfl⟩ := h
    off_upd
  | setConfig m _ _ _ _ _ =>
    have hm : Item.market m ∈ T := hu (by simp [uses, looksAt])
    simp only [call, setConfig] at h
    inv_ok at h
    obtain ⟨_, -, -, rfl⟩ := h
    off_upd
  | list n m p =>
    have hn : Item.nft n ∈ T := hu (by simp [uses, looksAt])
    have ha : Item.account who ∈ T := hu (by simp [uses, looksAt])
    simp only [call, list] at h
    inv_ok at h
    obtain ⟨_, k, b, -, -, -, -, -, -, -, -, -, hk, -, -, hb, rfl⟩ := h
    have ho : Item.account k.owner ∈ T := hu (by simp [uses, looksAt, marketAndOwner, hk])
    refine (Off.putBal ht (.transfer ha ho hb)).trans ?_
    off_upd
  | unlist n =>
    have hn : Item.nft n ∈ T := hu (by simp [uses, looksAt])
    simp only [call, unlist] at h
    inv_ok at h
    obtain ⟨_, _, -, -, -, rfl⟩ := h
    off_upd
  | buy n p =>
    have hn : Item.nft n ∈ T := hu (by simp [uses, looksAt])
    have ha : Item.account who ∈ T := hu (by simp [uses, looksAt])
    simp only [call, buy] at h
    inv_ok at h
    obtain ⟨d, s, k, b1, b2, b3, hd, hs, hk, -, -, -, hb1, -, hb2, -, hb3, rfl⟩ := h
    have h1 : Item.account k.owner ∈ T := hu (by simp [uses, looksAt, salePayees, hs, marketAndOwner, hk])
    have h2 : Item.account d.creator ∈ T := hu (by simp [uses, looksAt, salePayees, hs, creatorOf, hd])
    have h3 : Item.account s.seller ∈ T := hu (by simp [uses, looksAt, salePayees, hs])
    refine (Off.putBal ht (((BalOff.transfer ha h1 hb1).trans (.transfer ha h2 hb2)).trans
      (.transfer ha h3 hb3))).trans ?_
    off_upd

end MktM
