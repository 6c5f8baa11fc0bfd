import Verif.Proofs.ScopeNft
/-
C102 and C103 for the calls of the auction pallet.
-/
open Spec
namespace AucM
variable {c : Cfg} {S T : List Item} {w w' w1 w2 : World}

theorem addClaims_congr {m1 m2 : FMap AccountId Balance} {r : AccountId} (l : List (AccountId × Balance))
    (h : m1.get r = m2.get r) : (addClaims m1 l).get r = (addClaims m2 l).get r := by
  unfold addClaims
  induction l generalizing m1 m2 with
  | nil => exact h
  | cons x t ih =>
    refine ih ?_
    simp only [addClaim, FMap.get_insert]
    split
    · next e => subst e; rw [h]
    · exact h

theorem addClaims_other {m : FMap AccountId Balance} {r : AccountId} {l : List (AccountId × Balance)}
    (h : ∀ x ∈ l, x.1 ≠ r) : (addClaims m l).get r = m.get r := by
  unfold addClaims
  induction l generalizing m with
  | nil => rfl
  | cons x t ih =>
    simp only [List.foldl_cons]
    rw [ih fun y hy => h y (by simp [hy])]
    have := h x (by simp)
    simp [addClaim, FMap.get_insert, Ne.symm this]

theorem relClaims (h : Rel S w1 w2) {m1 m2 : FMap AccountId Balance}
    (hm : ∀ r, Item.refund r ∈ S → m1.get r = m2.get r) :
    Rel S { w1 with auc := { w1.auc with claims := m1 } } { w2 with auc := { w2.auc with claims := m2 } } := by
  refine ⟨h.set, fun i hi => ?_⟩
  have h0 := h.on i hi
  cases i with
  | refund r => exact hm r hi
  | _ => exact h0

theorem offClaims {m : FMap AccountId Balance} (hm : ∀ r, Item.refund r ∉ T → m.get r = w.auc.claims.get r) :
    Off T w { w with auc := { w.auc with claims := m } } := by
  refine ⟨.rfl' w, fun i hi => ?_⟩
  cases i with
  | refund r => exact (hm r hi).symm
  | _ => simp [same]

theorem paySeq_rel {b1 b2 : Bal} (h : BalRel S b1 b2) {src : AccountId} (hs : Item.account src ∈ S) (l : Live)
    (p : List (AccountId × Balance)) (hp : ∀ x ∈ p, Item.account x.1 ∈ S) :
    BalRel S (paySeq c b1 src l p).1 (paySeq c b2 src l p).1 ∧ (paySeq c b1 src l p).2 = (paySeq c b2 src l p).2 := by
  induction p generalizing b1 b2 with
  | nil => exact ⟨h, rfl⟩
  | cons x t ih =>
    obtain ⟨d, v⟩ := x
    have h0 := h.transfer hs (hp (d, v) (by simp)) c.ed v l
    simp only [paySeq]
    revert h0
    rcases b1.transfer c.ed src d v l with e | b1' <;> rcases b2.transfer c.ed src d v l with f | b2' <;>
      intro h0 <;> simp only [Out] at h0
    · exact ⟨h, by rw [h0]⟩
    · exact ih h0 fun x hx => hp x (by simp [hx])

theorem payForNftExt_rel (h : Rel S w1 w2) {n : NFTId} {src : AccountId} {v : Balance} {d : NFTData} {a : Auction}
    (hs : Item.account src ∈ S) (hn : Item.nft n ∈ S) (hm : Item.market a.mkt ∈ S)
    (ho : ∀ m, w1.mkt.mkts.get a.mkt = some m → Item.account m.owner ∈ S)
    (hd : Item.account d.creator ∈ S) (ha : Item.account a.creator ∈ S) :
    Out (BalRel S) (payForNftExt c w1 n src v d a) (payForNftExt c w2 n src v d a) := by
  unfold payForNftExt payForNft
  have e1 : w1.mkt.mkts.get a.mkt = w2.mkt.mkts.get a.mkt := h.on _ hm
  have e2 : w1.auc.comm.get n = w2.auc.comm.get n := by have := h.on _ hn; simp only [same] at this; simp [this]
  rw [← e1, ← e2]
  cases hk : w1.mkt.mkts.get a.mkt with
  | none => rfl
  | some m =>
    cases w1.auc.comm.get n with
    | none => rfl
    | some k =>
      have h0 := paySeq_rel (c := c) h.bal hs (if src = c.aucPot then .allowDeath else .keepAlive)
        [(m.owner, (cuts v k d.royalty).1), (d.creator, (cuts v k d.royalty).2.1),
          (a.creator, (cuts v k d.royalty).2.2)] (by simp [ho m hk, hd, ha])
      dsimp only
      generalize paySeq c w1.bal _ _ _ = x at *
      generalize paySeq c w2.bal _ _ _ = y at *
      obtain ⟨b1, r1⟩ := x
      obtain ⟨b2, r2⟩ := y
      obtain ⟨h1, rfl⟩ := h0
      cases r1 with
      | ok u => exact h1
      | error e => rfl

theorem paySeq_off {b : Bal} {src : AccountId} (hs : Item.account src ∈ T) (l : Live)
    (p : List (AccountId × Balance)) (hp : ∀ x ∈ p, Item.account x.1 ∈ T) : BalOff T b (paySeq c b src l p).1 := by
  induction p generalizing b with
  | nil => exact .refl b
  | cons x t ih =>
    obtain ⟨d, v⟩ := x
    simp only [paySeq]
    cases hx : b.transfer c.ed src d v l with
    | error e => exact .refl b
    | ok b' => exact (BalOff.transfer hs (hp (d, v) (by simp)) hx).trans (ih fun x hx => hp x (by simp [hx]))

theorem payForNftExt_off {n : NFTId} {src : AccountId} {v : Balance} {d : NFTData} {a : Auction} {b : Bal}
    (h : payForNftExt c w n src v d a = .ok b)
    (hs : Item.account src ∈ T) (ho : ∀ m, w.mkt.mkts.get a.mkt = some m → Item.account m.owner ∈ T)
    (hd : Item.account d.creator ∈ T) (ha : Item.account a.creator ∈ T) : BalOff T w.bal b := by
  unfold payForNftExt payForNft at h
  cases hk : w.mkt.mkts.get a.mkt with
  | none => simp [hk] at h
  | some m =>
    cases hc : w.auc.comm.get n with
    | none => simp [hk, hc] at h
    | some k =>
      have h0 := paySeq_off (c := c) (b := w.bal) hs (if src = c.aucPot then .allowDeath else .keepAlive)
        [(m.owner, (cuts v k d.royalty).1), (d.creator, (cuts v k d.royalty).2.1),
          (a.creator, (cuts v k d.royalty).2.2)] (by simp [ho m hk, hd, ha])
      simp only [hk, hc] at h
      generalize paySeq c w.bal _ _ _ = x at *
      obtain ⟨b1, r1⟩ := x
      cases r1 with
      | ok u => cases h; exact h0
      | error e => simp at h

theorem mem_removeBid_scope {x : AccountId × Balance} {who : AccountId} {l : List (AccountId × Balance)}
    (h : x ∈ removeBid who l) : x ∈ l := by
  induction l with
  | nil => exact h
  | cons y t ih =>
    obtain ⟨a, v⟩ := y
    unfold removeBid at h
    split at h
    · simp [h]
    · rcases List.mem_cons.1 h with h | h
      · simp [h]
      · simp [ih h]

theorem insertBid_dropped {l l' : List (AccountId × Balance)} {who : AccountId} {v : Balance}
    {x : AccountId × Balance} (h : insertBid c l who v = .ok (some x, l')) : x ∈ l := by
  unfold insertBid at h
  split at h
  · split at h
    · cases h
    · cases h; simp
  · simp at h

theorem call_rel (h : Rel S w1 w2) (who : AccountId) (x : Call) (hu : uses c w1 who (.auc x) ⊆ S) :
    Out (Rel S) (call c w1 who x) (call c w2 who x) := by
  simp only [List.subset_def] at hu
  cases x with
  | create n m s e p b =>
    have hn : Item.nft n ∈ S := hu (by simp [uses])
    have hm : Item.market m ∈ S := hu (by simp [uses])
    have hq : Item.auctions ∈ S := hu (by simp [uses])
    simp only [call, create]
    sets h
    reads h, hn
    reads h, hm
    reads h, hq
    same_steps
    exact .pure (by rel_upd h)
  | cancel n =>
    have hn : Item.nft n ∈ S := hu (by simp [uses])
    have hq : Item.auctions ∈ S := hu (by simp [uses])
    simp only [call, cancel]
    sets h
    reads h, hn
    refine .bindEq fun d _ => .bindEq fun a _ => ?_
    same_steps
    have h := relClaims h fun r hr => addClaims_congr a.bids (h.on (.refund r) hr)
    exact .pure (by rel_upd h)
  | end_ n =>
    have hn : Item.nft n ∈ S := hu (by simp [uses])
    have hq : Item.auctions ∈ S := hu (by simp [uses])
    have hp : Item.account c.aucPot ∈ S := hu (by simp [uses])
    simp only [call, end_]
    have e1 : w1.nfts.get n = w2.nfts.get n := (h.on _ hn).1
    have e2 : w1.auc.auctions.get n = w2.auc.auctions.get n := by have := h.on _ hn; simp only [same] at this; simp [this]
    rw [← e1, ← e2]
    refine .bindEq fun d hd => .bindEq fun a ha => ?_
    rw [Exec.getOr_ok] at hd ha
    same_steps
    refine .bind (payForNftExt_rel h hp hn ?_ ?_ ?_ ?_) fun b1 b2 _ hb => ?_
    · exact hu (by simp [uses, auctionPayees, ha, marketAndOwner]; split <;> simp)
    · exact fun m hm => hu (by simp [uses, auctionPayees, ha, marketAndOwner, hm])
    · exact hu (by simp [uses, auctionPayees, ha, creatorOf, hd])
    · exact hu (by simp [uses, auctionPayees, ha])
    · have h := h.putBal hb
      have h := relClaims h fun r hr => addClaims_congr a.bids.dropLast (h.on (.refund r) hr)
      exact .pure (by rel_upd h)
  | addBid n v =>
    have hn : Item.nft n ∈ S := hu (by simp [uses])
    have hq : Item.auctions ∈ S := hu (by simp [uses])
    have ha : Item.account who ∈ S := hu (by simp [uses])
    have hp : Item.account c.aucPot ∈ S := hu (by simp [uses])
    simp only [call, addBid]
    sets h
    reads h, hn
    reads h, hq
    same_steps
    refine .bind (h.bal.transfer ha hp ..) fun b1 b2 _ hb => ?_
    refine .bindEq fun x _ => ?_
    same_steps
    have h := h.putBal hb
    have h := relClaims (m1 := addClaimOpt w1.auc.claims x.1) (m2 := addClaimOpt w2.auc.claims x.1) h fun r hr => by
      have h0 := h.on (.refund r) hr
      cases x.1 with
      | none => exact h0
      | some y => exact addClaims_congr [y] h0
    exact .pure (by rel_upd h)
  | removeBid n =>
    have hn : Item.nft n ∈ S := hu (by simp [uses])
    have ha : Item.account who ∈ S := hu (by simp [uses])
    have hp : Item.account c.aucPot ∈ S := hu (by simp [uses])
    simp only [call, removeBidCall]
    sets h
    reads h, hn
    same_steps
    refine .bind (h.bal.transfer hp ha ..) fun b1 b2 _ hb => ?_
    have h := h.putBal hb
    exact .pure (by rel_upd h)
  | buyItNow n p =>
    have hn : Item.nft n ∈ S := hu (by simp [uses])
    have hq : Item.auctions ∈ S := hu (by simp [uses])
    have hw : Item.account who ∈ S := hu (by simp [uses])
    simp only [call, buyItNow]
    have e1 : w1.nfts.get n = w2.nfts.get n := (h.on _ hn).1
    have e2 : w1.auc.auctions.get n = w2.auc.auctions.get n := by have := h.on _ hn; simp only [same] at this; simp [this]
    rw [← e1, ← e2, ← h.set.1]
    refine .bindEq fun d hd => .bindEq fun a ha => ?_
    rw [Exec.getOr_ok] at hd ha
    same_steps
    refine .bind (payForNftExt_rel h hw hn ?_ ?_ ?_ ?_) fun b1 b2 _ hb => ?_
    · exact hu (by simp [uses, auctionPayees, ha, marketAndOwner]; split <;> simp)
    · exact fun m hm => hu (by simp [uses, auctionPayees, ha, marketAndOwner, hm])
    · exact hu (by simp [uses, auctionPayees, ha, creatorOf, hd])
    · exact hu (by simp [uses, auctionPayees, ha])
    · have h := h.putBal hb
      have h := relClaims h fun r hr => addClaims_congr a.bids (h.on (.refund r) hr)
      exact .pure (by rel_upd h)
  | claim =>
    have ha : Item.account who ∈ S := hu (by simp [uses])
    have hr : Item.refund who ∈ S := hu (by simp [uses])
    have hp : Item.account c.aucPot ∈ S := hu (by simp [uses])
    simp only [call, claim]
    reads h, hr
    same_steps
    refine .bind (h.bal.transfer hp ha ..) fun b1 b2 _ hb => ?_
    have h := h.putBal hb
    exact .pure (by rel_upd h)

theorem call_off {who : AccountId} {x : Call} (h : call c w who x = .ok w')
    (hu : touches c w who (.auc x) ⊆ T) : Off T w w' := by
  simp only [List.subset_def, touches] at hu
  have ht : Item.supply ∈ T := hu (by simp)
  cases x with
  | create n m s e p b =>
    have hn : Item.nft n ∈ T := hu (by simp [uses, looksAt])
    have hq : Item.auctions ∈ T := hu (by simp [uses, looksAt])
    simp only [call, create] at h
    inv_ok at h
    obtain ⟨_, _, _, -, -, -, -, -, -, -, -, -, -, -, -, -, -, -, -, -, -, -, rfl⟩ := h
    off_upd
  | cancel n =>
    have hn : Item.nft n ∈ T := hu (by simp [uses, looksAt])
    have hq : Item.auctions ∈ T := hu (by simp [uses, looksAt])
    simp only [call, cancel] at h
    inv_ok at h
    obtain ⟨d, a, -, ha, -, -, rfl⟩ := h
    refine (offClaims (m := addClaims w.auc.claims a.bids) fun r hr => addClaims_other fun y hy e => hr (hu ?_)).trans ?_
    · simp only [uses, looksAt, refunds, ha]; simp; exact ⟨y.2, by rw [← e]; exact hy⟩
    · off_upd
  | end_ n =>
    have hn : Item.nft n ∈ T := hu (by simp [uses, looksAt])
    have hq : Item.auctions ∈ T := hu (by simp [uses, looksAt])
    have hp : Item.account c.aucPot ∈ T := hu (by simp [uses, looksAt])
    simp only [call, end_] at h
    inv_ok at h
    obtain ⟨d, a, t, b, hd, ha, -, -, -, hb, rfl⟩ := h
    refine (Off.putBal ht (payForNftExt_off hb hp ?_ ?_ ?_)).trans ?_
    · exact fun m hm => hu (by simp [uses, looksAt, auctionPayees, ha, marketAndOwner, hm])
    · exact hu (by simp [uses, looksAt, auctionPayees, ha, creatorOf, hd])
    · exact hu (by simp [uses, looksAt, auctionPayees, ha])
    refine (offClaims (w := w.putBal b) (m := addClaims w.auc.claims a.bids.dropLast) fun r hr => addClaims_other fun y hy e => hr (hu ?_)).trans ?_
    · simp only [uses, looksAt, refunds, ha]; simp; exact .inr ⟨y.2, by rw [← e]; exact (List.dropLast_sublist _).subset hy⟩
    · off_upd
  | addBid n v =>
    have hn : Item.nft n ∈ T := hu (by simp [uses, looksAt])
    have hq : Item.auctions ∈ T := hu (by simp [uses, looksAt])
    have ha : Item.account who ∈ T := hu (by simp [uses, looksAt])
    have hp : Item.account c.aucPot ∈ T := hu (by simp [uses, looksAt])
    simp only [call, addBid] at h
    inv_ok at h
    obtain ⟨a, b, x, q, hx, -, -, -, -, hb, hi, -, rfl⟩ := h
    refine (Off.putBal ht (.transfer ha hp hb)).trans ?_
    refine (offClaims (m := addClaimOpt w.auc.claims x.1) fun r hr => ?_).trans ?_
    · obtain ⟨o, l⟩ := x
      cases o with
      | none => rfl
      | some y =>
        refine addClaims_other (l := [y]) fun z hz e => hr (hu ?_)
        have := mem_removeBid_scope (insertBid_dropped hi)
        simp at hz
        simp only [uses, looksAt, refunds, hx]; simp; exact ⟨y.2, by rw [← e, hz]; exact this⟩
    · off_upd
  | removeBid n =>
    have hn : Item.nft n ∈ T := hu (by simp [uses, looksAt])
    have ha : Item.account who ∈ T := hu (by simp [uses, looksAt])
    have hp : Item.account c.aucPot ∈ T := hu (by simp [uses, looksAt])
    simp only [call, removeBidCall] at h
    inv_ok at h
    obtain ⟨a, v, b, hx, -, -, hb, rfl⟩ := h
    refine (Off.putBal ht (.transfer hp ha hb)).trans ?_
    off_upd
  | buyItNow n p =>
    have hn : Item.nft n ∈ T := hu (by simp [uses, looksAt])
    have hq : Item.auctions ∈ T := hu (by simp [uses, looksAt])
    have hp : Item.account who ∈ T := hu (by simp [uses, looksAt])
    simp only [call, buyItNow] at h
    inv_ok at h
    obtain ⟨d, a, t, b, hd, ha, -, -, -, -, -, hb, rfl⟩ := h
    refine (Off.putBal ht (payForNftExt_off hb hp ?_ ?_ ?_)).trans ?_
    · exact fun m hm => hu (by simp [uses, looksAt, auctionPayees, ha, marketAndOwner, hm])
    · exact hu (by simp [uses, looksAt, auctionPayees, ha, creatorOf, hd])
    · exact hu (by simp [uses, looksAt, auctionPayees, ha])
    refine (offClaims (w := w.putBal b) (m := addClaims w.auc.claims a.bids) fun r hr => addClaims_other fun y hy e => hr (hu ?_)).trans ?_
    · simp only [uses, looksAt, refunds, ha]; simp; exact .inr ⟨y.2, by rw [← e]; exact hy⟩
    · off_upd
  | claim =>
    have ha : Item.account who ∈ T := hu (by simp [uses, looksAt])
    have hr : Item.refund who ∈ T := hu (by simp [uses, looksAt])
    have hp : Item.account c.aucPot ∈ T := hu (by simp [uses, looksAt])
    simp only [call, claim] at h
    inv_ok at h
    obtain ⟨v, b, -, hb, rfl⟩ := h
    refine (Off.putBal ht (.transfer hp ha hb)).trans ?_
    off_upd

end AucM
