import Verif.Proofs.Scope
import Verif.Proofs.RentLive
import Verif.Props.HookSpec
/-
C109: what the hooks depend on and change.
-/
open Spec

theorem mem_dueBy {now : Block} {q : List (NFTId × Block)} {n : NFTId} : n ∈ dueBy now q ↔ ∃ b, (n, b) ∈ q ∧ b ≤ now := by
  simp [dueBy]

namespace AucM
variable {c : Cfg} {S T : List Item} {w w' w1 w2 : World}

/-- `S` contains all that the settlement of the auction of `n` may change -/
def In (S : List Item) (w : World) (n : NFTId) : Prop :=
  Item.nft n ∈ S ∧ ∀ a, w.auc.auctions.get n = some a → Item.account a.creator ∈ S ∧
    (∀ m, w.mkt.mkts.get a.mkt = some m → Item.account m.owner ∈ S) ∧
    (∀ d, w.nfts.get n = some d → Item.account d.creator ∈ S) ∧ ∀ b ∈ a.bids, Item.refund b.1 ∈ S

theorem settleOne_keeps (w : World) (m n : NFTId) :
    (settleOne c w m).1.mkt = w.mkt ∧ (settleOne c w m).1.now = w.now ∧
    (∀ a, (settleOne c w m).1.auc.auctions.get n = some a → w.auc.auctions.get n = some a) ∧
    ∀ d, (settleOne c w m).1.nfts.get n = some d → ∃ d', w.nfts.get n = some d' ∧ d'.creator = d.creator := by
  have key : ∀ {d d' : NFTData} {x}, w.nfts.get m = some d → (w.nfts.insert m d').get n = some x →
      d'.creator = d.creator → ∃ y, w.nfts.get n = some y ∧ y.creator = x.creator := by
    intro d d' x hd h hc
    rw [FMap.get_insert] at h
    split at h
    · next e => subst e; cases h; exact ⟨d, hd, hc.symm⟩
    · exact ⟨x, h, rfl⟩
  have ker : ∀ {x}, (w.auc.auctions.erase m).get n = some x → w.auc.auctions.get n = some x := by
    intro x h
    rw [FMap.get_erase] at h
    split at h
    · cases h
    · exact h
  unfold settleOne
  cases ha : w.auc.auctions.get m with
  | none => exact ⟨rfl, rfl, fun _ h => h, fun d h => ⟨d, h, rfl⟩⟩
  | some a =>
    cases hd : w.nfts.get m with
    | none => exact ⟨rfl, rfl, fun _ h => h, fun d h => ⟨d, h, rfl⟩⟩
    | some d =>
      dsimp only
      cases hb : a.bids.getLast? with
      | none => dsimp only; exact ⟨rfl, rfl, fun _ h => ker h, fun _ h => key hd h rfl⟩
      | some top =>
        dsimp only
        rcases hp : payForNft c w m c.aucPot top.2 d a with ⟨b, r⟩
        cases r with
        | error e => exact ⟨rfl, rfl, fun _ h => h, fun d h => ⟨d, h, rfl⟩⟩
        | ok u => dsimp only; exact ⟨rfl, rfl, fun _ h => ker h, fun _ h => key hd h rfl⟩

theorem In.settleOne {n : NFTId} (h : In S w n) (m : NFTId) : In S (settleOne c w m).1 n := by
  obtain ⟨k1, -, k2, k3⟩ := settleOne_keeps (c := c) w m n
  refine ⟨h.1, fun a ha => ?_⟩
  obtain ⟨h1, h2, h3, h4⟩ := h.2 a (k2 a ha)
  refine ⟨h1, by rw [k1]; exact h2, fun d hd => ?_, h4⟩
  obtain ⟨d', e1, e2⟩ := k3 d hd
  rw [← e2]; exact h3 d' e1

theorem payForNft_rel (h : Rel S w1 w2) {n : NFTId} {src : AccountId} {v : Balance} {d : NFTData} {a : Auction}
    (hs : Item.account src ∈ S) (hn : Item.nft n ∈ S) (hm : Item.market a.mkt ∈ S)
    (ho : ∀ m, w1.mkt.mkts.get a.mkt = some m → Item.account m.owner ∈ S)
    (hd : Item.account d.creator ∈ S) (ha : Item.account a.creator ∈ S) :
    BalRel S (payForNft c w1 n src v d a).1 (payForNft c w2 n src v d a).1 ∧
      (payForNft c w1 n src v d a).2 = (payForNft c w2 n src v d a).2 := by
  unfold payForNft
  have e1 : w1.mkt.mkts.get a.mkt = w2.mkt.mkts.get a.mkt := h.on _ hm
  have e2 : w1.auc.comm.get n = w2.auc.comm.get n := by have := h.on _ hn; simp only [same] at this; simp [this]
  rw [← e1, ← e2]
  cases hk : w1.mkt.mkts.get a.mkt with
  | none => exact ⟨h.bal, rfl⟩
  | some m =>
    cases w1.auc.comm.get n with
    | none => exact ⟨h.bal, rfl⟩
    | some k => exact paySeq_rel h.bal hs _ _ (by simp [ho m hk, hd, ha])

theorem settleOne_rel (h : Rel S w1 w2) {n : NFTId} (hp : Item.account c.aucPot ∈ S) (hi : In S w1 n)
    (hm : ∀ a, w1.auc.auctions.get n = some a → Item.market a.mkt ∈ S) :
    Rel S (settleOne c w1 n).1 (settleOne c w2 n).1 ∧ (settleOne c w1 n).2 = (settleOne c w2 n).2 := by
  have hn := hi.1
  have e1 : w1.nfts.get n = w2.nfts.get n := (h.on _ hn).1
  have e2 : w1.auc.auctions.get n = w2.auc.auctions.get n := by have := h.on _ hn; simp only [same] at this; simp [this]
  unfold settleOne
  rw [← e1, ← e2]
  cases ha : w1.auc.auctions.get n with
  | none => exact ⟨h, rfl⟩
  | some a =>
    obtain ⟨i1, i2, i3, i4⟩ := hi.2 a ha
    cases hd : w1.nfts.get n with
    | none => exact ⟨h, rfl⟩
    | some d =>
      dsimp only
      cases hb : a.bids.getLast? with
      | none => exact ⟨by dsimp only; rel_upd h, rfl⟩
      | some top =>
        dsimp only
        have h0 := payForNft_rel (c := c) (v := top.2) h hp hn (hm a ha) i2 (i3 d hd) i1
        rcases hx : payForNft c w1 n c.aucPot top.2 d a with ⟨b1, r1⟩
        rcases hy : payForNft c w2 n c.aucPot top.2 d a with ⟨b2, r2⟩
        rw [hx, hy] at h0
        obtain ⟨h1, h2⟩ := h0
        dsimp only at h1 h2
        subst h2
        cases r1 with
        | error e => exact ⟨h.putBal h1, rfl⟩
        | ok u =>
          refine ⟨?_, rfl⟩
          have h := h.putBal h1
          have h := relClaims h fun r hr => addClaims_congr a.bids.dropLast (h.on (.refund r) hr)
          dsimp only; rel_upd h

theorem settleOne_off (ht : Item.supply ∈ T) {n : NFTId} (hp : Item.account c.aucPot ∈ T) (hi : In T w n) :
    Off T w (settleOne c w n).1 := by
  have hn := hi.1
  unfold settleOne
  cases ha : w.auc.auctions.get n with
  | none => exact .refl w
  | some a =>
    obtain ⟨i1, i2, i3, i4⟩ := hi.2 a ha
    cases hd : w.nfts.get n with
    | none => exact .refl w
    | some d =>
      dsimp only
      cases hb : a.bids.getLast? with
      | none => dsimp only; off_upd
      | some top =>
        dsimp only
        have h0 : BalOff T w.bal (payForNft c w n c.aucPot top.2 d a).1 := by
          unfold payForNft
          cases hk : w.mkt.mkts.get a.mkt with
          | none => exact .refl _
          | some m =>
            cases w.auc.comm.get n with
            | none => exact .refl _
            | some k => exact paySeq_off hp _ _ (by simp [i2 m hk, i3 d hd, i1])
        rcases hx : payForNft c w n c.aucPot top.2 d a with ⟨b, r⟩
        rw [hx] at h0
        have h1 := Off.putBal (w := w) ht h0
        cases r with
        | error e => exact h1
        | ok u =>
          refine h1.trans ?_
          refine (offClaims (w := w.putBal b) (m := addClaims w.auc.claims a.bids.dropLast) fun r hr =>
            addClaims_other fun y hy e => hr ?_).trans ?_
          · rw [← e]; exact i4 y ((List.dropLast_sublist _).subset hy)
          · dsimp only; off_upd

theorem hookLoop_rel (hp : Item.account c.aucPot ∈ S) : ∀ (q : Queue) (k : Nat) {w1 w2 : World}, Rel S w1 w2 →
    (∀ n b, (n, b) ∈ q → b ≤ w1.now → In S w1 n ∧ ∀ a, w1.auc.auctions.get n = some a → Item.market a.mkt ∈ S) →
    Rel S (hookLoop c w1 q k).1 (hookLoop c w2 q k).1 ∧ (hookLoop c w1 q k).2 = (hookLoop c w2 q k).2 := by
  intro q
  induction q with
  | nil => intro k w1 w2 h _; exact ⟨h, rfl⟩
  | cons x t ih =>
    obtain ⟨n, b⟩ := x
    intro k w1 w2 h hi
    simp only [hookLoop, ← h.set.1]
    split
    · rename_i hb
      obtain ⟨h1, h2⟩ := hi n b (by simp) hb
      obtain ⟨r1, r2⟩ := settleOne_rel h hp h1 h2
      have hi' : ∀ m b', (m, b') ∈ t → b' ≤ (settleOne c w1 n).1.now → In S (settleOne c w1 n).1 m ∧
          ∀ a, (settleOne c w1 n).1.auc.auctions.get m = some a → Item.market a.mkt ∈ S := by
        intro m b' hm hb'
        obtain ⟨k1, k2, k3, k4⟩ := settleOne_keeps (c := c) w1 n m
        rw [k2] at hb'
        obtain ⟨h1, h2⟩ := hi m b' (by simp [hm]) hb'
        exact ⟨h1.settleOne n, fun a ha => h2 a (k3 a ha)⟩
      rw [← r2]
      split
      · split
        · exact ⟨r1, rfl⟩
        · exact ih _ r1 hi'
      · exact ih _ r1 hi'
    · exact ⟨h, rfl⟩

theorem hookLoop_off (ht : Item.supply ∈ T) (hp : Item.account c.aucPot ∈ T) : ∀ (q : Queue) (k : Nat) {w : World},
    (∀ n b, (n, b) ∈ q → b ≤ w.now → In T w n) → Off T w (hookLoop c w q k).1 := by
  intro q
  induction q with
  | nil => intro k w _; exact .refl w
  | cons x t ih =>
    obtain ⟨n, b⟩ := x
    intro k w hi
    simp only [hookLoop]
    split
    · rename_i hb
      have r1 := settleOne_off ht hp (hi n b (by simp) hb)
      have hi' : ∀ m b', (m, b') ∈ t → b' ≤ (settleOne c w n).1.now → In T (settleOne c w n).1 m := by
        intro m b' hm hb'
        rw [(settleOne_keeps (c := c) w n m).2.1] at hb'
        exact (hi m b' (by simp [hm]) hb').settleOne n
      split
      · split
        · exact r1
        · exact r1.trans (ih _ hi')
      · exact r1.trans (ih _ hi')
    · exact .refl w

theorem hook_rel (h : Rel S w1 w2) (hu : hookUses c w1 .auction ⊆ S) : Rel S (hook c w1) (hook c w2) := by
  simp only [List.subset_def] at hu
  have hq : Item.auctions ∈ S := hu (by simp [hookUses])
  have hp : Item.account c.aucPot ∈ S := hu (by simp [hookUses])
  have e : w1.auc.deadlines = w2.auc.deadlines := h.on _ hq
  obtain ⟨r1, r2⟩ := hookLoop_rel hp w1.auc.deadlines 0 h (by
    intro n b hm hb
    have hd : n ∈ dueBy w1.now w1.auc.deadlines := mem_dueBy.2 ⟨b, hm, hb⟩
    have hx : ∀ i, i ∈ Item.nft n :: auctionPayees w1 n ++ refunds w1 n → i ∈ S := fun i hi => hu (by
      simp only [hookUses, List.mem_append, List.mem_flatMap]; exact .inr ⟨n, hd, by simpa [or_assoc] using hi⟩)
    refine ⟨⟨hx _ (by simp), fun a ha => ⟨hx _ ?_, fun m hm => hx _ ?_, fun d hd => hx _ ?_, fun x hb => hx _ ?_⟩⟩,
      fun a ha => hx _ ?_⟩
    · simp [auctionPayees, ha]
    · simp [auctionPayees, ha, marketAndOwner, hm]
    · simp [auctionPayees, ha, creatorOf, hd]
    · simp [refunds, ha]; exact .inr ⟨x.2, hb⟩
    · simp [auctionPayees, ha, marketAndOwner]; split <;> simp)
  unfold hook
  rw [← e]
  dsimp only
  rw [← r2]
  rel_upd r1

theorem hook_off (hu : hookTouches c w .auction ⊆ T) : Off T w (hook c w) := by
  simp only [List.subset_def, hookTouches] at hu
  have ht : Item.supply ∈ T := hu (by simp)
  have hq : Item.auctions ∈ T := hu (by simp [hookUses])
  have hp : Item.account c.aucPot ∈ T := hu (by simp [hookUses])
  have r1 := hookLoop_off ht hp w.auc.deadlines 0 (w := w) (by
    intro n b hm hb
    have hd : n ∈ dueBy w.now w.auc.deadlines := mem_dueBy.2 ⟨b, hm, hb⟩
    have hx : ∀ i, i ∈ Item.nft n :: auctionPayees w n ++ refunds w n → (match i with | .market _ => false | _ => true) = true →
        i ∈ T := fun i hi hk => hu (by
      simp only [List.mem_cons, List.mem_filter, hookUses, List.mem_append, List.mem_flatMap]
      exact .inr ⟨.inr ⟨n, hd, by simpa [or_assoc] using hi⟩, hk⟩)
    refine ⟨hx _ (by simp) rfl, fun a ha => ⟨hx _ ?_ rfl, fun m hm => hx _ ?_ rfl, fun d hd => hx _ ?_ rfl, fun x hb => hx _ ?_ rfl⟩⟩
    · simp [auctionPayees, ha]
    · simp [auctionPayees, ha, marketAndOwner, hm]
    · simp [auctionPayees, ha, creatorOf, hd]
    · simp [refunds, ha]; exact .inr ⟨x.2, hb⟩)
  unfold hook
  refine r1.trans ?_
  dsimp only
  off_upd

end AucM

namespace RentM
variable {c : Cfg} {S T : List Item} {w w' w1 w2 : World}

/-- `S` contains all that the end or renewal of the rental of `n` may change -/
def In (S : List Item) (w : World) (n : NFTId) : Prop :=
  Item.nft n ∈ S ∧ ∀ k, w.rent.contracts.get n = some k → Item.account k.renter ∈ S ∧
    (∀ r, k.rentee = some r → Item.account r ∈ S) ∧ (∀ m, feeNft k.renterFee = some m → Item.nft m ∈ S) ∧
    ∀ r, k.rentee = some r → ∀ m, feeNft k.renteeFee = some m → Item.nft m ∈ S

theorem In.le {n : NFTId} (h : In S w n) (hl : ∀ k, w'.rent.contracts.get n = some k → w.rent.contracts.get n = some k) :
    In S w' n := ⟨h.1, fun k hk => h.2 k (hl k hk)⟩

theorem handleSub_rel (h : Rel S w1 w2) {n : NFTId} (hi : In S w1 n) :
    Rel S (handleSub c w1 n).1 (handleSub c w2 n).1 ∧ (handleSub c w1 n).2 = (handleSub c w2 n).2 := by
  have e : w1.rent.contracts.get n = w2.rent.contracts.get n := by
    have := h.on _ hi.1; simp only [same] at this; simp [this]
  unfold handleSub
  rw [← e, ← h.set.1]
  cases hk : w1.rent.contracts.get n with
  | none => exact ⟨h, rfl⟩
  | some k =>
    obtain ⟨k1, k2, -, -⟩ := hi.2 k hk
    dsimp only
    cases hr : k.rentee with
    | none => exact ⟨h, rfl⟩
    | some r =>
      cases hf : k.rentFee with
      | nft m => exact ⟨h, rfl⟩
      | tokens fee =>
        dsimp only
        split
        · exact ⟨h, rfl⟩
        · have h0 := h.bal.transfer (k2 r hr) k1 c.ed fee .keepAlive
          revert h0
          rcases w1.bal.transfer c.ed r k.renter fee .keepAlive with e | b1 <;>
            rcases w2.bal.transfer c.ed r k.renter fee .keepAlive with f | b2 <;>
            intro h0 <;> simp only [Out] at h0
          · exact ⟨h, rfl⟩
          · exact ⟨h.putBal h0, rfl⟩

theorem handleSub_off (ht : Item.supply ∈ T) {n : NFTId} (hi : In T w n) : Off T w (handleSub c w n).1 := by
  rcases hs : handleSub c w n with ⟨v, _ | b⟩
  · rw [handleSub_none hs]; exact .refl w
  · obtain ⟨k, r, fee, bal, hk, hr, -, -, -, hb, -, rfl⟩ := handleSub_some hs
    obtain ⟨k1, k2, -, -⟩ := hi.2 k hk
    exact Off.putBal ht (.transfer (k2 r hr) k1 hb)

theorem subOne_rel (h : Rel S w1 w2) (hp : Item.account c.rentPot ∈ S) {n : NFTId} (hi : In S w1 n) (t : Queue) :
    Rel S (subOne c w1 n t).1 (subOne c w2 n t).1 ∧ (subOne c w1 n t).2 = (subOne c w2 n t).2 := by
  obtain ⟨h1, h2⟩ := handleSub_rel (c := c) h hi
  have hl := handleSub_le (c := c) w1 n
  unfold subOne
  rcases hx : handleSub c w1 n with ⟨v1, r1⟩
  rcases hy : handleSub c w2 n with ⟨v2, r2⟩
  rw [hx, hy] at h1 h2
  rw [hx] at hl
  dsimp only at h1 h2
  subst h2
  cases r1 with
  | some b => exact ⟨h1, rfl⟩
  | none =>
    have hi := hi.le (w' := v1) fun k hk => hl _ _ hk
    exact ⟨(handleFinished_rel h1 hi.1 hp hi.2).1, rfl⟩

theorem subOne_off (ht : Item.supply ∈ T) (hp : Item.account c.rentPot ∈ T) {n : NFTId} (hi : In T w n) (t : Queue) :
    Off T w (subOne c w n t).1 := by
  have h1 := handleSub_off (c := c) ht hi
  have hl := handleSub_le (c := c) w n
  unfold subOne
  rcases hx : handleSub c w n with ⟨v, r⟩
  rw [hx] at h1 hl
  cases r with
  | some b => exact h1
  | none =>
    have hi := hi.le (w' := v) fun k hk => hl _ _ hk
    exact h1.trans (handleFinished_off ht hi.1 hp hi.2)

theorem finishLoop_rel (hp : Item.account c.rentPot ∈ S) : ∀ (q : Queue) (k : Nat) {w1 w2 : World}, Rel S w1 w2 →
    (∀ n b, (n, b) ∈ q → b ≤ w1.now → In S w1 n) →
    Rel S (finishLoop c w1 q k).1 (finishLoop c w2 q k).1 ∧ (finishLoop c w1 q k).2 = (finishLoop c w2 q k).2 := by
  intro q
  induction q with
  | nil => intro k w1 w2 h _; exact ⟨h, rfl⟩
  | cons x t ih =>
    obtain ⟨n, b⟩ := x
    intro k w1 w2 h hi
    simp only [finishLoop, ← h.set.1]
    split
    · rename_i hb
      have h1 := hi n b (by simp) hb
      have r1 := (handleFinished_rel h h1.1 hp h1.2).1
      split
      · exact ⟨r1, rfl⟩
      · refine ih _ r1 fun m b' hm hb' => ?_
        rw [handleFinished_now] at hb'
        exact (hi m b' (by simp [hm]) hb').le fun k hk => handleFinished_le _ _ _ _ hk
    · exact ⟨h, rfl⟩

theorem finishLoop_off (ht : Item.supply ∈ T) (hp : Item.account c.rentPot ∈ T) : ∀ (q : Queue) (k : Nat) {w : World},
    (∀ n b, (n, b) ∈ q → b ≤ w.now → In T w n) → Off T w (finishLoop c w q k).1 := by
  intro q
  induction q with
  | nil => intro k w _; exact .refl w
  | cons x t ih =>
    obtain ⟨n, b⟩ := x
    intro k w hi
    simp only [finishLoop]
    split
    · rename_i hb
      have h1 := hi n b (by simp) hb
      have r1 := handleFinished_off (c := c) ht h1.1 hp h1.2
      split
      · exact r1
      · refine r1.trans (ih _ fun m b' hm hb' => ?_)
        rw [handleFinished_now] at hb'
        exact (hi m b' (by simp [hm]) hb').le fun k hk => handleFinished_le _ _ _ _ hk
    · exact .refl w

/-- entries of the subscription queue after a step are those before, or the one just renewed -/
theorem subOne_mem {n m : NFTId} {t : Queue} {b : Block} (h : (m, b) ∈ (subOne c w n t).2) : m = n ∨ (m, b) ∈ t := by
  rcases subOne_queue (c := c) w n t with e | ⟨k, -, e⟩
  · rw [e] at h; exact .inr h
  · rw [e] at h
    rcases Queue.mem_ins.1 h with e | h
    · cases e; exact .inl rfl
    · exact .inr h

theorem subLoop_rel (hp : Item.account c.rentPot ∈ S) : ∀ (f : Nat) (q : Queue) (k : Nat) {w1 w2 : World}, Rel S w1 w2 →
    (∀ n b, (n, b) ∈ q → b ≤ w1.now → In S w1 n) →
    Rel S (subLoop c w1 q k f).1 (subLoop c w2 q k f).1 ∧ (subLoop c w1 q k f).2 = (subLoop c w2 q k f).2 := by
  intro f
  induction f with
  | zero => intro q k w1 w2 h _; exact ⟨h, rfl⟩
  | succ f ih =>
    intro q k w1 w2 h hi
    cases q with
    | nil => exact ⟨h, rfl⟩
    | cons x t =>
      obtain ⟨n, b⟩ := x
      simp only [subLoop, ← h.set.1]
      split
      · rename_i hb
        have h1 := hi n b (by simp) hb
        obtain ⟨r1, r2⟩ := subOne_rel (c := c) h hp h1 t
        rw [← r2]
        split
        · exact ⟨r1, rfl⟩
        · refine ih _ _ r1 fun m b' hm hb' => ?_
          rw [subOne_now] at hb'
          have : In S w1 m := by
            rcases subOne_mem hm with rfl | hm
            · exact h1
            · exact hi m b' (by simp [hm]) hb'
          exact this.le fun k hk => subOne_le _ _ _ _ _ hk
      · exact ⟨h, rfl⟩

theorem subLoop_off (ht : Item.supply ∈ T) (hp : Item.account c.rentPot ∈ T) : ∀ (f : Nat) (q : Queue) (k : Nat) {w : World},
    (∀ n b, (n, b) ∈ q → b ≤ w.now → In T w n) → Off T w (subLoop c w q k f).1 := by
  intro f
  induction f with
  | zero => intro q k w _; exact .refl w
  | succ f ih =>
    intro q k w hi
    cases q with
    | nil => exact .refl w
    | cons x t =>
      obtain ⟨n, b⟩ := x
      simp only [subLoop]
      split
      · rename_i hb
        have h1 := hi n b (by simp) hb
        have r1 := subOne_off (c := c) ht hp h1 t
        split
        · exact r1
        · refine r1.trans (ih _ _ fun m b' hm hb' => ?_)
          rw [subOne_now] at hb'
          have : In T w m := by
            rcases subOne_mem hm with rfl | hm
            · exact h1
            · exact hi m b' (by simp [hm]) hb'
          exact this.le fun k hk => subOne_le _ _ _ _ _ hk
      · exact .refl w

theorem subLoop_le' (f : Nat) (w : World) (q : Queue) (k : Nat) {n : NFTId} {x : Contract}
    (h : (subLoop c w q k f).1.rent.contracts.get n = some x) : w.rent.contracts.get n = some x := by
  induction f generalizing w q k with
  | zero => exact h
  | succ f ih =>
    cases q with
    | nil => exact h
    | cons y t =>
      simp only [subLoop] at h
      split at h
      · split at h
        · exact subOne_le _ _ _ _ _ h
        · exact subOne_le _ _ _ _ _ (ih _ _ _ h)
      · exact h

/-- what is due at the hook is in `S` -/
theorem in_of_due {n : NFTId} (h : ∀ i ∈ Item.nft n :: parties w n ++ depositedNfts w n, i ∈ S) : In S w n := by
  refine ⟨h _ (by simp), fun k hk => ⟨h _ ?_, fun r hr => h _ ?_, fun m hm => h _ ?_, fun r hr m hm => h _ ?_⟩⟩
  · simp [parties, hk]
  · simp [parties, hk, hr]
  · have : k.renterFee = .nft m := by cases hf : k.renterFee <;> simp_all [feeNft]
    simp [depositedNfts, hk, this]
  · have : k.renteeFee = .nft m := by cases hf : k.renteeFee <;> simp_all [feeNft]
    simp [depositedNfts, hk, this, hr]

theorem hook_rel (h : Rel S w1 w2) (hu : hookUses c w1 .rent ⊆ S) : Rel S (hook c w1) (hook c w2) := by
  simp only [List.subset_def] at hu
  have hq : Item.rents ∈ S := hu (by simp [hookUses])
  have hp : Item.account c.rentPot ∈ S := hu (by simp [hookUses])
  obtain ⟨e1, e2, e3⟩ : same w1 w2 .rents := h.on _ hq
  have hin : ∀ n, n ∈ dueBy w1.now w1.rent.fixedQ ++ dueBy w1.now w1.rent.subQ ++ dueBy w1.now w1.rent.availQ →
      In S w1 n := fun n hn => in_of_due fun i hi => hu (by
    simp only [hookUses]
    exact List.mem_append.2 (.inr (List.mem_flatMap.2 ⟨n, hn, hi⟩)))
  obtain ⟨f1, f2⟩ := finishLoop_rel hp w1.rent.fixedQ 0 h fun n b hm hb => hin n (by simp [mem_dueBy.2 ⟨b, hm, hb⟩])
  have fl := finishLoop_le (c := c) w1.rent.fixedQ w1 0
  have fn := finishLoop_now (c := c) w1.rent.fixedQ w1 0
  unfold hook
  rw [← e1, ← e2, ← e3]
  dsimp only
  rw [← f2]
  generalize finishLoop c w1 w1.rent.fixedQ 0 = x1 at *
  generalize (finishLoop c w2 w1.rent.fixedQ 0).1 = y1 at *
  obtain ⟨s1, s2⟩ := subLoop_rel hp (max 1 (c.rentActions - x1.2.2)) w1.rent.subQ x1.2.2 f1 fun n b hm hb =>
    (hin n (by simp [mem_dueBy.2 ⟨b, hm, fn ▸ hb⟩])).le fun k hk => fl _ _ hk
  have sl := fun n k => subLoop_le' (c := c) (max 1 (c.rentActions - x1.2.2)) x1.1 w1.rent.subQ x1.2.2 (n := n) (x := k)
  have sn := subLoop_now (c := c) (max 1 (c.rentActions - x1.2.2)) x1.1 w1.rent.subQ x1.2.2
  rw [← s2]
  generalize subLoop c x1.1 w1.rent.subQ x1.2.2 (max 1 (c.rentActions - x1.2.2)) = x2 at *
  generalize (subLoop c y1 w1.rent.subQ x1.2.2 (max 1 (c.rentActions - x1.2.2))).1 = y2 at *
  obtain ⟨a1, a2⟩ := finishLoop_rel hp w1.rent.availQ x2.2.2 s1 fun n b hm hb =>
    (hin n (by simp [mem_dueBy.2 ⟨b, hm, (sn.trans fn) ▸ hb⟩])).le fun k hk => fl _ _ (sl _ _ hk)
  rw [← a2]
  generalize finishLoop c x2.1 w1.rent.availQ x2.2.2 = x3 at *
  generalize (finishLoop c y2 w1.rent.availQ x2.2.2).1 = y3 at *
  clear hin hu
  split
  · rel_upd a1
  · exact a1

theorem hook_off (hu : hookTouches c w .rent ⊆ T) : Off T w (hook c w) := by
  simp only [List.subset_def, hookTouches] at hu
  have ht : Item.supply ∈ T := hu (by simp)
  have hq : Item.rents ∈ T := hu (by simp [hookUses])
  have hp : Item.account c.rentPot ∈ T := hu (by simp [hookUses])
  have hin : ∀ n, n ∈ dueBy w.now w.rent.fixedQ ++ dueBy w.now w.rent.subQ ++ dueBy w.now w.rent.availQ →
      In T w n := fun n hn => in_of_due fun i hi => hu (by
    refine List.mem_cons.2 (.inr (List.mem_filter.2 ⟨?_, ?_⟩))
    · simp only [hookUses]
      exact List.mem_append.2 (.inr (List.mem_flatMap.2 ⟨n, hn, hi⟩))
    · simp only [List.cons_append, List.mem_cons, List.mem_append, parties, depositedNfts] at hi
      cases i with
      | market m => exfalso; revert hi; cases w.rent.contracts.get n <;> simp <;> grind
      | _ => rfl)
  have f1 := finishLoop_off ht hp w.rent.fixedQ 0 (w := w) fun n b hm hb => hin n (by simp [mem_dueBy.2 ⟨b, hm, hb⟩])
  have fl := finishLoop_le (c := c) w.rent.fixedQ w 0
  have fn := finishLoop_now (c := c) w.rent.fixedQ w 0
  unfold hook
  dsimp only
  generalize finishLoop c w w.rent.fixedQ 0 = x1 at *
  have s1 := subLoop_off ht hp (max 1 (c.rentActions - x1.2.2)) w.rent.subQ x1.2.2 (w := x1.1) fun n b hm hb =>
    (hin n (by simp [mem_dueBy.2 ⟨b, hm, fn ▸ hb⟩])).le fun k hk => fl _ _ hk
  have sl := fun n k => subLoop_le' (c := c) (max 1 (c.rentActions - x1.2.2)) x1.1 w.rent.subQ x1.2.2 (n := n) (x := k)
  have sn := subLoop_now (c := c) (max 1 (c.rentActions - x1.2.2)) x1.1 w.rent.subQ x1.2.2
  generalize subLoop c x1.1 w.rent.subQ x1.2.2 (max 1 (c.rentActions - x1.2.2)) = x2 at *
  have a1 := finishLoop_off ht hp w.rent.availQ x2.2.2 (w := x2.1) fun n b hm hb =>
    (hin n (by simp [mem_dueBy.2 ⟨b, hm, (sn.trans fn) ▸ hb⟩])).le fun k hk => fl _ _ (sl _ _ hk)
  generalize finishLoop c x2.1 w.rent.availQ x2.2.2 = x3 at *
  have h := (f1.trans s1).trans a1
  split
  · refine h.trans ?_
    clear hin hu f1 s1 a1 h fl sl
    off_upd
  · exact h

end RentM

namespace TrM
variable {c : Cfg} {S T : List Item} {w w' w1 w2 : World}

theorem hookOne_rel (h : Rel S w1 w2) {n : NFTId} (hn : Item.nft n ∈ S) :
    Rel S (hookOne w1 n).1 (hookOne w2 n).1 ∧ (hookOne w1 n).2 = (hookOne w2 n).2 := by
  have h0 := transmit_rel h hn
  unfold hookOne
  revert h0
  rcases transmit w1 n with e | v1 <;> rcases transmit w2 n with f | v2 <;> intro h0 <;> simp only [Out] at h0
  · exact ⟨h.ev _, rfl⟩
  · exact ⟨h0.ev _, rfl⟩

theorem hookOne_off {n : NFTId} (hn : Item.nft n ∈ T) : Off T w (hookOne w n).1 := by
  unfold hookOne
  cases h : transmit w n with
  | ok v => exact (transmit_off h hn).trans (.ev _)
  | error e => exact .ev _

theorem hookLoop_rel : ∀ (q : Queue) (k : Nat) {w1 w2 : World}, Rel S w1 w2 →
    (∀ n b, (n, b) ∈ q → b ≤ w1.now → Item.nft n ∈ S) →
    Rel S (hookLoop c w1 q k).1 (hookLoop c w2 q k).1 ∧ (hookLoop c w1 q k).2 = (hookLoop c w2 q k).2 := by
  intro q
  induction q with
  | nil => intro k w1 w2 h _; exact ⟨h, rfl⟩
  | cons x t ih =>
    obtain ⟨n, b⟩ := x
    intro k w1 w2 h hi
    simp only [hookLoop, ← h.set.1]
    split
    · rename_i hb
      have h1 := hi n b (by simp) hb
      obtain ⟨r1, r2⟩ := hookOne_rel h h1
      have hn : (hookOne w1 n).1.now = w1.now := (hookOne_off (T := [.nft n]) (by simp)).set.1.symm
      rw [← r2]
      have hi' : ∀ m b', (m, b') ∈ t → b' ≤ (hookOne w1 n).1.now → Item.nft m ∈ S := fun m b' hm hb' =>
        hi m b' (by simp [hm]) (hn ▸ hb')
      generalize (if (hookOne w1 n).2 = true then k + 1 else k) = k'
      split
      · exact ⟨r1, rfl⟩
      · exact ih _ r1 hi'
    · exact ⟨h, rfl⟩

theorem hookLoop_off : ∀ (q : Queue) (k : Nat) {w : World},
    (∀ n b, (n, b) ∈ q → b ≤ w.now → Item.nft n ∈ T) → Off T w (hookLoop c w q k).1 := by
  intro q
  induction q with
  | nil => intro k w _; exact .refl w
  | cons x t ih =>
    obtain ⟨n, b⟩ := x
    intro k w hi
    simp only [hookLoop]
    split
    · rename_i hb
      have r1 := hookOne_off (w := w) (hi n b (by simp) hb)
      generalize (if (hookOne w n).2 = true then k + 1 else k) = k'
      split
      · exact r1
      · exact r1.trans (ih _ fun m b' hm hb' => hi m b' (by simp [hm]) (r1.set.1 ▸ hb'))
    · exact .refl w

theorem hook_rel (h : Rel S w1 w2) (hu : hookUses c w1 .transmission ⊆ S) : Rel S (hook c w1) (hook c w2) := by
  simp only [List.subset_def] at hu
  have hq : Item.transmissions ∈ S := hu (by simp [hookUses])
  have e : w1.tr.queue = w2.tr.queue := h.on _ hq
  obtain ⟨r1, r2⟩ := hookLoop_rel (c := c) w1.tr.queue 0 h fun n b hm hb => hu (by
    simp [hookUses]; exact mem_dueBy.2 ⟨b, hm, hb⟩)
  unfold hook
  rw [← e]
  dsimp only
  rw [← r2]
  clear hu
  split
  · rel_upd r1
  · exact r1

theorem hook_off (hu : hookTouches c w .transmission ⊆ T) : Off T w (hook c w) := by
  simp only [List.subset_def, hookTouches] at hu
  have hq : Item.transmissions ∈ T := hu (by simp [hookUses])
  have r1 := hookLoop_off (c := c) w.tr.queue 0 (w := w) fun n b hm hb => hu (by
    simp [hookUses]; exact mem_dueBy.2 ⟨b, hm, hb⟩)
  unfold hook
  dsimp only
  clear hu
  split
  · refine r1.trans ?_
    clear r1
    off_upd
  · exact r1

end TrM

namespace TeeM
variable {c : Cfg} {S T : List Item} {w w' w1 w2 : World}

theorem hook_rel (h : Rel S w1 w2) (hu : hookUses c w1 .tee ⊆ S) : Rel S (hook c w1) (hook c w2) := by
  have hq : Item.tee ∈ S := hu (by simp [hookUses])
  have e : w1.tee = w2.tee := h.on _ hq
  have ea : w1.active = w2.active := h.set.2.1
  unfold hook
  rw [← ea]
  cases w1.active with
  | none => exact h
  | some x =>
    dsimp only
    clear hu
    split
    · unfold clearEra; rel_upd h
    · exact h

theorem hook_off (hu : hookTouches c w .tee ⊆ T) : Off T w (hook c w) := by
  have hq : Item.tee ∈ T := hu (by simp [hookUses, hookTouches])
  unfold hook
  cases w.active with
  | none => exact .refl w
  | some x =>
    dsimp only
    clear hu
    split
    · unfold clearEra; off_upd
    · exact .refl w

end TeeM

section
variable {c : Cfg} {S T : List Item} {w w' w1 w2 : World}

/-- what a hook does depends only on what it is about -/
theorem hook_dep (k : Hook) (h : Rel S w1 w2) (hu : hookUses c w1 k ⊆ S) : Rel S (step c w1 k.op) (step c w2 k.op) := by
  cases k with
  | auction => exact AucM.hook_rel h hu
  | rent => exact RentM.hook_rel h hu
  | transmission => exact TrM.hook_rel h hu
  | tee => exact TeeM.hook_rel h hu

/-- a hook changes only what it may touch -/
theorem hook_keeps (k : Hook) : Off (hookTouches c w k) w (step c w k.op) := by
  cases k with
  | auction => exact AucM.hook_off (List.Subset.refl _)
  | rent => exact RentM.hook_off (List.Subset.refl _)
  | transmission => exact TrM.hook_off (List.Subset.refl _)
  | tee => exact TeeM.hook_off (List.Subset.refl _)

/-- what a hook is about is itself decided by what it is about -/
theorem hookUses_congr (k : Hook) (hn : w1.now = w2.now) (h : ∀ i ∈ hookUses c w1 k, same w1 w2 i) :
    hookUses c w2 k = hookUses c w1 k := by
  have fm : ∀ {l : List NFTId} {f g : NFTId → List Item}, (∀ n ∈ l, f n = g n) → l.flatMap f = l.flatMap g := by
    intro l f g h
    induction l with
    | nil => rfl
    | cons x t ih => simp only [List.flatMap_cons]; rw [h x (by simp), ih fun n hn => h n (by simp [hn])]
  cases k with
  | auction =>
    have e : w1.auc.deadlines = w2.auc.deadlines := h .auctions (by simp [hookUses])
    simp only [hookUses, ← hn, ← e]
    congr 1
    refine fm fun n hm => ?_
    have hx : ∀ i ∈ Item.nft n :: auctionPayees w1 n ++ refunds w1 n, same w1 w2 i := fun i hi => h i (by
      simp only [hookUses]; exact List.mem_append.2 (.inr (List.mem_flatMap.2 ⟨n, hm, hi⟩)))
    have h0 := hx (.nft n) (by simp)
    have e1 : w2.nfts.get n = w1.nfts.get n := h0.1.symm
    have e2 : w2.auc.auctions.get n = w1.auc.auctions.get n := by simp only [same] at h0; simp [h0]
    simp only [auctionPayees, refunds, creatorOf, e1, e2]
    cases ha : w1.auc.auctions.get n with
    | none => rfl
    | some a =>
      have h1 : same w1 w2 (.market a.mkt) := hx _ (by
        simp only [auctionPayees, ha, marketAndOwner]; cases w1.mkt.mkts.get a.mkt <;> simp)
      have e3 : w2.mkt.mkts.get a.mkt = w1.mkt.mkts.get a.mkt := h1.symm
      simp only [marketAndOwner, e3]
  | rent =>
    obtain ⟨q1, q2, q3⟩ : same w1 w2 .rents := h .rents (by simp [hookUses])
    simp only [hookUses, ← hn, ← q1, ← q2, ← q3]
    congr 1
    refine fm fun n hm => ?_
    have h0 : same w1 w2 (.nft n) := h _ (by
      simp only [hookUses]; exact List.mem_append.2 (.inr (List.mem_flatMap.2 ⟨n, hm, by simp⟩)))
    have e1 : w2.rent.contracts.get n = w1.rent.contracts.get n := by simp only [same] at h0; simp [h0]
    simp only [parties, depositedNfts, e1]
  | transmission =>
    have e : w1.tr.queue = w2.tr.queue := h .transmissions (by simp [hookUses])
    simp only [hookUses, ← hn, ← e]
  | tee => rfl

theorem hookTouches_uses {k : Hook} {i : Item} (h : i ∈ hookTouches c w k) (hi : i ≠ .supply) : i ∈ hookUses c w k := by
  simp only [hookTouches, List.mem_cons, List.mem_filter] at h
  rcases h with h | h
  · exact absurd h hi
  · exact h.1

/-- after a hook that does not meet it, a hook is about the same things -/
theorem hookUses_after {j k : Hook} (h : HooksApart c w j k) : hookUses c (step c w j.op) k = hookUses c w k :=
  hookUses_congr k hook_keeps_now fun i hi => (hook_keeps j).on i fun ht => h.1 i ht hi
where hook_keeps_now : w.now = (step c w j.op).now := (hook_keeps j).set.1

theorem hookTouches_after {j k : Hook} (h : HooksApart c w j k) : hookTouches c (step c w j.op) k = hookTouches c w k := by
  simp only [hookTouches, hookUses_after h]

/-- two hooks that do not meet can be swapped -/
theorem hooks_swap {j k : Hook} (h : HooksApart c w j k) {i : Item} (hi : i ≠ .supply) :
    same (step c (step c w j.op) k.op) (step c (step c w k.op) j.op) i := by
  have key : ∀ {j k : Hook}, HooksApart c w j k → i ∈ hookUses c w j →
      same (step c (step c w j.op) k.op) (step c (step c w k.op) j.op) i := by
    intro j k h hu
    have f2 := (hook_keeps (c := c) (w := step c w j.op) k).on i (by
      rw [hookTouches_after h]; exact fun hx => h.2 i hx hu)
    have fk := hook_keeps (c := c) (w := w) k
    have l1 := hook_dep (c := c) j (S := hookUses c w j) ⟨fk.set, fun x hx => fk.on x fun ht => h.2 x ht hx⟩
      (List.Subset.refl _)
    exact f2.symm.trans (l1.on i hu)
  by_cases hx : i ∈ hookUses c w j
  · exact key h hx
  by_cases hy : i ∈ hookUses c w k
  · exact (key ⟨h.2, h.1⟩ hy).symm
  have off : ∀ {j k : Hook}, HooksApart c w j k → i ∉ hookUses c w j → i ∉ hookUses c w k →
      same w (step c (step c w j.op) k.op) i := by
    intro j k h hx hy
    refine ((hook_keeps j).on i fun ht => hx (hookTouches_uses ht hi)).trans ((hook_keeps k).on i fun ht => hy ?_)
    rw [← hookUses_after h]; exact hookTouches_uses ht hi
  exact (off h hx hy).symm.trans (off ⟨h.2, h.1⟩ hy hx)

theorem hooks_settings (j k : Hook) : Settings (step c (step c w j.op) k.op) (step c (step c w k.op) j.op) :=
  (((hook_keeps j).set.trans (hook_keeps k).set).symm).trans ((hook_keeps k).set.trans (hook_keeps j).set)

end
