import Verif.Proofs.ScopeTr
/-
C102 and C103 for the calls of the rent pallet.
-/
open Spec

/-- two runs of hook-style code: same outcome, and related states -/
def ActRel (S : List Item) (x y : World × Except Err Unit) : Prop := Rel S x.1 y.1 ∧ x.2 = y.2

namespace Act
variable {S T : List Item} {w w' w1 w2 : World}

theorem seq_rel {a b a' b' : Act} (h1 : ActRel S (a w1) (a' w2))
    (h2 : ∀ v1 v2, Rel S v1 v2 → ActRel S (b v1) (b' v2)) : ActRel S (a.seq b w1) (a'.seq b' w2) := by
  unfold Act.seq
  rcases hx : a w1 with ⟨v1, r1⟩
  rcases hy : a' w2 with ⟨v2, r2⟩
  rw [hx, hy] at h1
  obtain ⟨h, rfl⟩ := h1
  cases r1 with
  | ok u => exact h2 _ _ h
  | error e => exact ⟨h, rfl⟩

theorem ext_rel {a a' : Act} (h : ActRel S (a w1) (a' w2)) : Out (Rel S) (a.ext w1) (a'.ext w2) := by
  unfold Act.ext
  rcases hx : a w1 with ⟨v1, r1⟩
  rcases hy : a' w2 with ⟨v2, r2⟩
  rw [hx, hy] at h
  obtain ⟨h, rfl⟩ := h
  cases r1 with
  | ok u => exact h
  | error e => rfl

theorem seq_off {a b : Act} (h1 : Off T w (a w).1) (h2 : ∀ v, (a w).1 = v → Off T v (b v).1) :
    Off T w (a.seq b w).1 := by
  unfold Act.seq
  rcases hx : a w with ⟨v1, r1⟩
  rw [hx] at h1 h2
  cases r1 with
  | ok u => exact h1.trans (h2 v1 rfl)
  | error e => exact h1

theorem ext_off {a : Act} (h : a.ext w = .ok w') (h1 : Off T w (a w).1) : Off T w w' := by
  unfold Act.ext at h
  rcases hx : a w with ⟨v1, r1⟩
  rw [hx] at h h1
  cases r1 with
  | ok u => cases h; exact h1
  | error e => cases h

end Act

namespace RentM
variable {c : Cfg} {S T : List Item} {w w' w1 w2 : World}

theorem payAct_rel (h : Rel S w1 w2) {s d : AccountId} (hs : Item.account s ∈ S) (hd : Item.account d ∈ S)
    (v : Balance) (l : Live) : ActRel S (payAct c s d v l w1) (payAct c s d v l w2) := by
  have h0 := h.bal.transfer hs hd c.ed v l
  unfold payAct
  revert h0
  rcases w1.bal.transfer c.ed s d v l with e | b1 <;> rcases w2.bal.transfer c.ed s d v l with f | b2 <;>
    intro h0 <;> simp only [Out] at h0
  · exact ⟨h, by rw [h0]⟩
  · exact ⟨h.putBal h0, rfl⟩

theorem chownOpt_rel (h : Rel S w1 w2) {n : Option NFTId} (hn : ∀ m, n = some m → Item.nft m ∈ S) (a : AccountId) :
    ActRel S (chownOpt n a w1) (chownOpt n a w2) := by
  cases n with
  | none => exact ⟨h, rfl⟩
  | some m =>
    have e : w1.nfts.get m = w2.nfts.get m := (h.on _ (hn m rfl)).1
    simp only [chownOpt, chownAct, e]
    split
    · exact ⟨h.putNft .., rfl⟩
    · exact ⟨h, rfl⟩

theorem payAct_off (ht : Item.supply ∈ T) {s d : AccountId} (hs : Item.account s ∈ T) (hd : Item.account d ∈ T)
    (v : Balance) (l : Live) : Off T w (payAct c s d v l w).1 := by
  unfold payAct
  cases h : w.bal.transfer c.ed s d v l with
  | error e => exact .refl w
  | ok b => exact Off.putBal ht (.transfer hs hd h)

theorem chownOpt_off {n : Option NFTId} (hn : ∀ m, n = some m → Item.nft m ∈ T) (a : AccountId) :
    Off T w (chownOpt n a w).1 := by
  cases n with
  | none => exact .refl w
  | some m =>
    simp only [chownOpt, chownAct]
    split
    · exact Off.putNft (hn m rfl) _
    · exact .refl w

theorem returnFee_rel (h : Rel S w1 w2) {f : CancelFee} {d : AccountId} (hp : Item.account c.rentPot ∈ S)
    (hd : Item.account d ∈ S) (hn : ∀ m, feeNft f = some m → Item.nft m ∈ S) :
    ActRel S (returnFee c f d w1) (returnFee c f d w2) :=
  Act.seq_rel (payAct_rel h hp hd ..) fun _ _ h => chownOpt_rel h hn _

theorem returnFee_off (ht : Item.supply ∈ T) {f : CancelFee} {d : AccountId} (hp : Item.account c.rentPot ∈ T)
    (hd : Item.account d ∈ T) (hn : ∀ m, feeNft f = some m → Item.nft m ∈ T) :
    Off T w (returnFee c f d w).1 :=
  Act.seq_off (payAct_off ht hp hd ..) fun _ _ => chownOpt_off hn _

theorem penalty_rel (h : Rel S w1 w2) {k : Contract} {now : Block} {f : CancelFee} {a d : AccountId}
    (hp : Item.account c.rentPot ∈ S) (ha : Item.account a ∈ S)
    (hd : Item.account d ∈ S) (hn : ∀ m, feeNft f = some m → Item.nft m ∈ S) :
    Out (Rel S) (penalty c k now f a d w1) (penalty c k now f a d w2) := by
  unfold penalty
  split
  · exact .bindEq fun p _ => Act.ext_rel (Act.seq_rel (payAct_rel h hp ha ..) fun _ _ h => payAct_rel h hp hd ..)
  · exact Act.ext_rel (returnFee_rel h hp hd hn)

theorem penalty_off (ht : Item.supply ∈ T) {k : Contract} {now : Block} {f : CancelFee} {a d : AccountId}
    (h : penalty c k now f a d w = .ok w') (hp : Item.account c.rentPot ∈ T) (ha : Item.account a ∈ T)
    (hd : Item.account d ∈ T) (hn : ∀ m, feeNft f = some m → Item.nft m ∈ T) : Off T w w' := by
  unfold penalty at h
  split at h
  · inv_ok at h
    obtain ⟨p, -, h⟩ := h
    exact Act.ext_off h (Act.seq_off (payAct_off ht hp ha ..) fun _ _ => payAct_off ht hp hd ..)
  · exact Act.ext_off h (returnFee_off ht hp hd hn)

theorem handleFinished_rel (h : Rel S w1 w2) {n : NFTId} (hn : Item.nft n ∈ S) (hp : Item.account c.rentPot ∈ S)
    (hk : ∀ k, w1.rent.contracts.get n = some k → Item.account k.renter ∈ S ∧
      (∀ r, k.rentee = some r → Item.account r ∈ S) ∧ (∀ m, feeNft k.renterFee = some m → Item.nft m ∈ S) ∧
      ∀ r, k.rentee = some r → ∀ m, feeNft k.renteeFee = some m → Item.nft m ∈ S) :
    ActRel S (handleFinished c n w1) (handleFinished c n w2) := by
  unfold handleFinished
  have e1 : w1.nfts.get n = w2.nfts.get n := (h.on _ hn).1
  have e2 : w1.rent.contracts.get n = w2.rent.contracts.get n := by
    have := h.on _ hn; simp only [same] at this; simp [this]
  rw [← e1, ← e2]
  cases hc : w1.rent.contracts.get n with
  | none => exact ⟨h, rfl⟩
  | some k =>
    obtain ⟨k1, k2, k3, k4⟩ := hk k hc
    dsimp only
    split
    · exact ⟨h, rfl⟩
    · refine Act.seq_rel (payAct_rel h hp k1 ..) fun _ _ h => Act.seq_rel ?_ fun _ _ h =>
        Act.seq_rel (chownOpt_rel h k3 _) fun _ _ h => Act.seq_rel ?_ fun _ _ h => ⟨?_, rfl⟩
      · cases hr : k.rentee with
        | none => exact ⟨h, rfl⟩
        | some r => exact payAct_rel h hp (k2 r hr) ..
      · cases hr : k.rentee with
        | none => exact ⟨h, rfl⟩
        | some r => exact chownOpt_rel h (k4 r hr) _
      · dsimp only; rel_upd h

theorem handleFinished_off (ht : Item.supply ∈ T) {n : NFTId} (hn : Item.nft n ∈ T) (hp : Item.account c.rentPot ∈ T)
    (hk : ∀ k, w.rent.contracts.get n = some k → Item.account k.renter ∈ T ∧
      (∀ r, k.rentee = some r → Item.account r ∈ T) ∧ (∀ m, feeNft k.renterFee = some m → Item.nft m ∈ T) ∧
      ∀ r, k.rentee = some r → ∀ m, feeNft k.renteeFee = some m → Item.nft m ∈ T) :
    Off T w (handleFinished c n w).1 := by
  unfold handleFinished
  cases hc : w.rent.contracts.get n with
  | none => exact .refl w
  | some k =>
    obtain ⟨k1, k2, k3, k4⟩ := hk k hc
    dsimp only
    split
    · exact .refl w
    · refine Act.seq_off (payAct_off ht hp k1 ..) fun _ _ => Act.seq_off ?_ fun _ _ =>
        Act.seq_off (chownOpt_off k3 _) fun _ _ => Act.seq_off ?_ fun _ _ => ?_
      · cases hr : k.rentee with
        | none => exact .refl _
        | some r => exact payAct_off ht hp (k2 r hr) ..
      · cases hr : k.rentee with
        | none => exact .refl _
        | some r => exact chownOpt_off (k4 r hr) _
      · dsimp only; off_upd

theorem checkNft_eq (h : Rel S w1 w2) {who : AccountId} {n : Option NFTId} (hn : ∀ m, n = some m → Item.nft m ∈ S) :
    checkNft w1 who n = checkNft w2 who n := by
  cases n with
  | none => rfl
  | some m =>
    have e : w1.nfts.get m = w2.nfts.get m := (h.on _ (hn m rfl)).1
    simp only [checkNft, e]

theorem takeFees_rel (h : Rel S w1 w2) {k : Contract} {r : AccountId} (hp : Item.account c.rentPot ∈ S)
    (hr : Item.account r ∈ S) (k1 : Item.account k.renter ∈ S) (k2 : ∀ m, rentNft k.rentFee = some m → Item.nft m ∈ S)
    (k3 : ∀ m, feeNft k.renteeFee = some m → Item.nft m ∈ S) :
    Out (Rel S) (takeFees c w1 r k) (takeFees c w2 r k) := by
  unfold takeFees
  refine .bind (.mapErr (h.bal.transfer hr k1 ..)) fun b1 b2 _ hb => ?_
  refine .bind (.mapErr (hb.transfer hr hp ..)) fun b1 b2 _ hb => ?_
  have h := h.putBal hb
  dsimp only
  rw [checkNft_eq h k2, checkNft_eq h k3]
  refine .bindEq fun _ _ => .bindEq fun _ _ => ?_
  exact .bind (Act.ext_rel (chownOpt_rel h k2 _)) fun _ _ _ h => Act.ext_rel (chownOpt_rel h k3 _)

theorem takeFees_off (ht : Item.supply ∈ T) {k : Contract} {r : AccountId} (h : takeFees c w r k = .ok w')
    (hp : Item.account c.rentPot ∈ T)
    (hr : Item.account r ∈ T) (k1 : Item.account k.renter ∈ T) (k2 : ∀ m, rentNft k.rentFee = some m → Item.nft m ∈ T)
    (k3 : ∀ m, feeNft k.renteeFee = some m → Item.nft m ∈ T) : Off T w w' := by
  unfold takeFees at h
  inv_ok at h
  obtain ⟨b1, b2, v, h1, h2, -, -, hv, h⟩ := h
  refine (Off.putBal ht ((BalOff.transfer hr k1 h1).trans (.transfer hr hp h2))).trans ?_
  exact (Act.ext_off hv (chownOpt_off k2 _)).trans (Act.ext_off h (chownOpt_off k3 _))

theorem takeFees_keeps {k : Contract} {r : AccountId} (h : takeFees c w r k = .ok w') : w'.rent = w.rent ∧ w'.now = w.now := by
  unfold takeFees at h
  inv_ok at h
  obtain ⟨b1, b2, v, h1, h2, -, -, hv, h⟩ := h
  have key : ∀ (o : Option NFTId) (a : AccountId) (v v' : World), (chownOpt o a).ext v = .ok v' →
      v'.rent = v.rent ∧ v'.now = v.now := by
    intro o a v v' h
    unfold Act.ext at h
    cases o with
    | none => cases h; exact ⟨rfl, rfl⟩
    | some m =>
      simp only [chownOpt, chownAct] at h
      split at h
      · next e => split at e <;> cases e; cases h; exact ⟨rfl, rfl⟩
      · cases h
  have a1 := key _ _ _ _ hv
  have a2 := key _ _ _ _ h
  exact ⟨a2.1.trans a1.1, a2.2.trans a1.2⟩

theorem startContract_rel (h : Rel S w1 w2) {n : NFTId} {k : Contract} {r : AccountId} (hn : Item.nft n ∈ S)
    (hq : Item.rents ∈ S) (hp : Item.account c.rentPot ∈ S)
    (hr : Item.account r ∈ S) (k1 : Item.account k.renter ∈ S) (k2 : ∀ m, rentNft k.rentFee = some m → Item.nft m ∈ S)
    (k3 : ∀ m, feeNft k.renteeFee = some m → Item.nft m ∈ S) :
    Out (Rel S) (startContract c w1 n k r) (startContract c w2 n k r) := by
  unfold startContract
  refine .bind (takeFees_rel h hp hr k1 k2 k3) fun v1 v2 _ h => ?_
  have e := h.on _ hq
  simp only [same] at e
  rw [← h.set.1]
  cases k.duration with
  | fixed d =>
    simp only [insertKind, e]
    cases Queue.insert c.rentLimit v2.rent.fixedQ n (v1.now + period (.fixed d)) with
    | none => rfl
    | some q => exact .pure (by have en := h.set.1; rel_upd h)
  | sub d =>
    simp only [insertKind, e]
    cases Queue.insert c.rentLimit v2.rent.subQ n (v1.now + period (.sub d)) with
    | none => rfl
    | some q => exact .pure (by have en := h.set.1; rel_upd h)

theorem startContract_off (ht : Item.supply ∈ T) {n : NFTId} {k : Contract} {r : AccountId}
    (h : startContract c w n k r = .ok w') (hn : Item.nft n ∈ T)
    (hq : Item.rents ∈ T) (hp : Item.account c.rentPot ∈ T)
    (hr : Item.account r ∈ T) (k1 : Item.account k.renter ∈ T) (k2 : ∀ m, rentNft k.rentFee = some m → Item.nft m ∈ T)
    (k3 : ∀ m, feeNft k.renteeFee = some m → Item.nft m ∈ T) : Off T w w' := by
  unfold startContract at h
  inv_ok at h
  obtain ⟨v, x, hv, hx, rfl⟩ := h
  refine (takeFees_off ht hv hp hr k1 k2 k3).trans ?_
  cases hd : k.duration with
  | fixed d =>
    simp only [insertKind, hd, Option.map_eq_some_iff] at hx
    obtain ⟨q, -, rfl⟩ := hx
    off_upd
  | sub d =>
    simp only [insertKind, hd, Option.map_eq_some_iff] at hx
    obtain ⟨q, -, rfl⟩ := hx
    off_upd

theorem rentNft_mem {f : RentFee} {x y : CancelFee} {m : NFTId} (h : rentNft f = some m) :
    Item.nft m ∈ feeNfts f x y := by
  cases f <;> simp_all [rentNft, feeNfts]

theorem renterNft_mem {f : RentFee} {x y : CancelFee} {m : NFTId} (h : feeNft x = some m) :
    Item.nft m ∈ feeNfts f x y := by
  cases x <;> simp_all [feeNft, feeNfts]

theorem renteeNft_mem {f : RentFee} {x y : CancelFee} {m : NFTId} (h : feeNft y = some m) :
    Item.nft m ∈ feeNfts f x y := by
  cases y <;> simp_all [feeNft, feeNfts]

theorem call_rel (h : Rel S w1 w2) (who : AccountId) (x : Call) (hu : uses c w1 who (.rent x) ⊆ S) :
    Out (Rel S) (call c w1 who x) (call c w2 who x) := by
  simp only [List.subset_def] at hu
  cases x with
  | create n du acc rv f x y =>
    have hn : Item.nft n ∈ S := hu (by simp [uses])
    have hq : Item.rents ∈ S := hu (by simp [uses])
    have ha : Item.account who ∈ S := hu (by simp [uses])
    have hp : Item.account c.rentPot ∈ S := hu (by simp [uses])
    have hf : ∀ m, Item.nft m ∈ feeNfts f x y → w1.nfts.get m = w2.nfts.get m := fun m hm =>
      (h.on (.nft m) (hu (by simp [uses, hm]))).1
    have f1 : (∀ m ∈ rentNft f, (w1.nfts.get m).isSome) ↔ ∀ m ∈ rentNft f, (w2.nfts.get m).isSome := by
      refine forall₂_congr fun m hm => ?_
      rw [hf m (rentNft_mem (Option.mem_def.1 hm))]
    have f2 : (∀ m ∈ feeNft y, (w1.nfts.get m).isSome) ↔ ∀ m ∈ feeNft y, (w2.nfts.get m).isSome := by
      refine forall₂_congr fun m hm => ?_
      rw [hf m (renteeNft_mem (Option.mem_def.1 hm))]
    have e1 : w1.nfts.get n = w2.nfts.get n := (h.on _ hn).1
    have eq := h.on _ hq
    simp only [same] at eq
    simp only [call, create, e1, eq]
    iterate 11 refine .bindEq fun _ _ => ?_
    refine .req f1 fun _ => .req f2 fun _ => ?_
    iterate 2 refine .bindEq fun _ _ => ?_
    refine .bind (.mapErr (h.bal.transfer ha hp ..)) fun b1 b2 _ hb => ?_
    have h := h.putBal hb
    refine .bind (R := Rel S) ?_ fun v1 v2 _ h => ?_
    · cases hx : feeNft x with
      | none => exact h
      | some m =>
        simp only [depositRenterNft]
        have e : (w1.putBal b1).nfts.get m = (w2.putBal b2).nfts.get m :=
          (h.on (.nft m) (hu (by simp [uses, renterNft_mem hx]))).1
        rw [e]
        same_steps
        exact .pure (h.putNft ..)
    · sets h
      reads h, hq
      same_steps
      refine .pure ?_
      have en := h.set.1
      clear hf f1 f2 eq e1
      rel_upd h
  | cancel n =>
    have hn : Item.nft n ∈ S := hu (by simp [uses])
    have hq : Item.rents ∈ S := hu (by simp [uses])
    have hp : Item.account c.rentPot ∈ S := hu (by simp [uses])
    simp only [call, cancel]
    have e2 : w1.rent.contracts.get n = w2.rent.contracts.get n := by
      have := h.on _ hn; simp only [same] at this; simp [this]
    rw [← e2]
    refine .bindEq fun k hk => ?_
    rw [Exec.getOr_ok] at hk
    same_steps
    refine Act.ext_rel (handleFinished_rel ?_ hn hp ?_)
    · rel_upd h
    · intro k' hk'
      have : k' = k := by simpa [hk] using hk'.symm
      subst this
      exact ⟨hu (by simp [uses, parties, hk]), fun r hr => hu (by simp [uses, parties, hk, hr]),
        fun m hm => hu (by simp [uses, contractNfts, hk, renterNft_mem hm]),
        fun _ _ m hm => hu (by simp [uses, contractNfts, hk, renteeNft_mem hm])⟩
  | revoke n =>
    have hn : Item.nft n ∈ S := hu (by simp [uses])
    have hq : Item.rents ∈ S := hu (by simp [uses])
    have ha : Item.account who ∈ S := hu (by simp [uses])
    have hp : Item.account c.rentPot ∈ S := hu (by simp [uses])
    simp only [call, revoke]
    have e2 : w1.rent.contracts.get n = w2.rent.contracts.get n := by
      have := h.on _ hn; simp only [same] at this; simp [this]
    rw [← e2]
    refine .bindEq fun k hk => .bindEq fun r hr => ?_
    rw [Exec.getOr_ok] at hk hr
    same_steps
    have k1 : Item.account k.renter ∈ S := hu (by simp [uses, parties, hk])
    have k2 : Item.account r ∈ S := hu (by simp [uses, parties, hk, hr])
    have k3 : ∀ m, feeNft k.renterFee = some m → Item.nft m ∈ S :=
      fun m hm => hu (by simp [uses, contractNfts, hk, renterNft_mem hm])
    have k4 : ∀ m, feeNft k.renteeFee = some m → Item.nft m ∈ S :=
      fun m hm => hu (by simp [uses, contractNfts, hk, renteeNft_mem hm])
    have hdam : Item.account (if k.renter = who then r else k.renter) ∈ S := by split <;> assumption
    refine .bind (Act.ext_rel (returnFee_rel h hp hdam ?_)) fun v1 v2 _ h => ?_
    · split <;> assumption
    rw [← h.set.1]
    refine .bind (penalty_rel h hp ha hdam ?_) fun v1 v2 _ h => ?_
    · split <;> assumption
    have e1 : v1.nfts.get n = v2.nfts.get n := (h.on _ hn).1
    rw [e1]
    same_steps
    refine .pure ?_
    cases k.duration <;> (simp only [removeKind]; rel_upd h)
  | rent n b =>
    have hn : Item.nft n ∈ S := hu (by simp [uses])
    have hq : Item.rents ∈ S := hu (by simp [uses])
    have ha : Item.account who ∈ S := hu (by simp [uses])
    have hp : Item.account c.rentPot ∈ S := hu (by simp [uses])
    simp only [call, rent]
    have e2 : w1.rent.contracts.get n = w2.rent.contracts.get n := by
      have := h.on _ hn; simp only [same] at this; simp [this]
    rw [← e2]
    refine .bindEq fun k hk => ?_
    rw [Exec.getOr_ok] at hk
    same_steps
    exact startContract_rel h hn hq hp ha (hu (by simp [uses, parties, hk]))
      (fun m hm => hu (by simp [uses, contractNfts, hk, rentNft_mem hm]))
      (fun m hm => hu (by simp [uses, contractNfts, hk, renteeNft_mem hm]))
  | acceptOffer n r =>
    have hn : Item.nft n ∈ S := hu (by simp [uses])
    have hq : Item.rents ∈ S := hu (by simp [uses])
    have ha : Item.account r ∈ S := hu (by simp [uses])
    have hp : Item.account c.rentPot ∈ S := hu (by simp [uses])
    simp only [call, acceptOffer]
    have e2 : w1.rent.contracts.get n = w2.rent.contracts.get n := by
      have := h.on _ hn; simp only [same] at this; simp [this]
    have e3 : w1.rent.offers.get n = w2.rent.offers.get n := by
      have := h.on _ hn; simp only [same] at this; simp [this]
    rw [← e2, ← e3]
    refine .bindEq fun k hk => ?_
    rw [Exec.getOr_ok] at hk
    same_steps
    exact startContract_rel h hn hq hp ha (hu (by simp [uses, parties, hk]))
      (fun m hm => hu (by simp [uses, contractNfts, hk, rentNft_mem hm]))
      (fun m hm => hu (by simp [uses, contractNfts, hk, renteeNft_mem hm]))
  | makeOffer n b =>
    have hn : Item.nft n ∈ S := hu (by simp [uses])
    have ha : Item.account who ∈ S := hu (by simp [uses])
    simp only [call, makeOffer]
    have e2 : w1.rent.contracts.get n = w2.rent.contracts.get n := by
      have := h.on _ hn; simp only [same] at this; simp [this]
    have e3 : w1.rent.offers.get n = w2.rent.offers.get n := by
      have := h.on _ hn; simp only [same] at this; simp [this]
    rw [← e2, ← e3]
    refine .bindEq fun _ _ => .bindEq fun k hk => ?_
    rw [Exec.getOr_ok] at hk
    iterate 5 refine .bindEq fun _ _ => ?_
    refine .req (h.bal.balanceCheck ha _) fun _ => .req (h.bal.balanceCheck ha _) fun _ =>
      .req (h.bal.balanceCheck ha _) fun _ => ?_
    rw [checkNft_eq h (fun m hm => hu (by simp [uses, contractNfts, hk, rentNft_mem hm])),
      checkNft_eq h (fun m hm => hu (by simp [uses, contractNfts, hk, renteeNft_mem hm]))]
    same_steps
    refine .pure (Rel.ev ?_ _)
    rel_upd h
  | retractOffer n =>
    have hn : Item.nft n ∈ S := hu (by simp [uses])
    simp only [call, retractOffer]
    reads h, hn
    same_steps
    exact .pure (by rel_upd h)
  | changeTerms n f p m ch =>
    have hn : Item.nft n ∈ S := hu (by simp [uses])
    simp only [call, changeTerms]
    have e2 : w1.rent.contracts.get n = w2.rent.contracts.get n := by
      have := h.on _ hn; simp only [same] at this; simp [this]
    rw [e2]
    refine .bindEq fun k hk => ?_
    same_steps
    refine .pure ?_
    cases k.rentee with
    | none => simp only [Option.isSome]; rel_upd h
    | some r => simp only [Option.isSome]; rel_upd h
  | acceptTerms n f p m ch =>
    have hn : Item.nft n ∈ S := hu (by simp [uses])
    simp only [call, acceptTerms]
    reads h, hn
    same_steps
    exact .pure (by rel_upd h)

theorem call_off {who : AccountId} {x : Call} (h : call c w who x = .ok w')
    (hu : touches c w who (.rent x) ⊆ T) : Off T w w' := by
  simp only [List.subset_def, touches] at hu
  have ht : Item.supply ∈ T := hu (by simp)
  cases x with
  | create n du acc rv f x y =>
    have hn : Item.nft n ∈ T := hu (by simp [uses, looksAt])
    have hq : Item.rents ∈ T := hu (by simp [uses, looksAt])
    have ha : Item.account who ∈ T := hu (by simp [uses, looksAt])
    have hp : Item.account c.rentPot ∈ T := hu (by simp [uses, looksAt])
    simp only [call, create] at h
    inv_ok at h
    obtain ⟨d, b, v, q, -, -, -, -, -, -, -, -, -, -, -, -, -, -, -, hb, hv, -, rfl⟩ := h
    refine (Off.putBal ht (.transfer ha hp hb)).trans ?_
    refine Off.trans (w' := v) ?_ ?_
    · cases hx : feeNft x with
      | none => rw [hx] at hv; cases hv; exact .refl _
      | some m =>
        rw [hx] at hv
        simp only [depositRenterNft] at hv
        inv_ok at hv
        obtain ⟨_, -, -, -, rfl⟩ := hv
        exact Off.putNft (hu (by simp [uses, looksAt, renterNft_mem hx])) _
    · off_upd
  | cancel n =>
    have hn : Item.nft n ∈ T := hu (by simp [uses, looksAt])
    have hq : Item.rents ∈ T := hu (by simp [uses, looksAt])
    have hp : Item.account c.rentPot ∈ T := hu (by simp [uses, looksAt])
    simp only [call, cancel] at h
    inv_ok at h
    obtain ⟨k, hk, -, -, h⟩ := h
    refine Off.trans ?_ (Act.ext_off h (handleFinished_off ht hn hp ?_))
    · off_upd
    · intro k' hk'
      have : k' = k := by simpa [hk] using hk'.symm
      subst this
      exact ⟨hu (by simp [uses, looksAt, parties, hk]), fun r hr => hu (by simp [uses, looksAt, parties, hk, hr]),
        fun m hm => hu (by simp [uses, looksAt, contractNfts, hk, renterNft_mem hm]),
        fun _ _ m hm => hu (by simp [uses, looksAt, contractNfts, hk, renteeNft_mem hm])⟩
  | revoke n =>
    have hn : Item.nft n ∈ T := hu (by simp [uses, looksAt])
    have hq : Item.rents ∈ T := hu (by simp [uses, looksAt])
    have ha : Item.account who ∈ T := hu (by simp [uses, looksAt])
    have hp : Item.account c.rentPot ∈ T := hu (by simp [uses, looksAt])
    simp only [call, revoke] at h
    inv_ok at h
    obtain ⟨k, r, v1, v2, d, hk, hr, -, -, h1, h2, -, rfl⟩ := h
    have k1 : Item.account k.renter ∈ T := hu (by simp [uses, looksAt, parties, hk])
    have k2 : Item.account r ∈ T := hu (by simp [uses, looksAt, parties, hk, hr])
    have k3 : ∀ m, feeNft k.renterFee = some m → Item.nft m ∈ T :=
      fun m hm => hu (by simp [uses, looksAt, contractNfts, hk, renterNft_mem hm])
    have k4 : ∀ m, feeNft k.renteeFee = some m → Item.nft m ∈ T :=
      fun m hm => hu (by simp [uses, looksAt, contractNfts, hk, renteeNft_mem hm])
    have hdam : Item.account (if k.renter = who then r else k.renter) ∈ T := by split <;> assumption
    refine (Act.ext_off h1 (returnFee_off ht hp hdam ?_)).trans ((penalty_off ht h2 hp ha hdam ?_).trans ?_)
    · split <;> assumption
    · split <;> assumption
    · cases k.duration <;> (simp only [removeKind]; off_upd)
  | rent n b =>
    have hn : Item.nft n ∈ T := hu (by simp [uses, looksAt])
    have hq : Item.rents ∈ T := hu (by simp [uses, looksAt])
    have ha : Item.account who ∈ T := hu (by simp [uses, looksAt])
    have hp : Item.account c.rentPot ∈ T := hu (by simp [uses, looksAt])
    simp only [call, rent] at h
    inv_ok at h
    obtain ⟨k, hk, -, -, -, -, -, h⟩ := h
    exact startContract_off ht h hn hq hp ha (hu (by simp [uses, looksAt, parties, hk]))
      (fun m hm => hu (by simp [uses, looksAt, contractNfts, hk, rentNft_mem hm]))
      (fun m hm => hu (by simp [uses, looksAt, contractNfts, hk, renteeNft_mem hm]))
  | acceptOffer n r =>
    have hn : Item.nft n ∈ T := hu (by simp [uses, looksAt])
    have hq : Item.rents ∈ T := hu (by simp [uses, looksAt])
    have ha : Item.account r ∈ T := hu (by simp [uses, looksAt])
    have hp : Item.account c.rentPot ∈ T := hu (by simp [uses, looksAt])
    simp only [call, acceptOffer] at h
    inv_ok at h
    obtain ⟨k, o, hk, -, -, -, h⟩ := h
    exact startContract_off ht h hn hq hp ha (hu (by simp [uses, looksAt, parties, hk]))
      (fun m hm => hu (by simp [uses, looksAt, contractNfts, hk, rentNft_mem hm]))
      (fun m hm => hu (by simp [uses, looksAt, contractNfts, hk, renteeNft_mem hm]))
  | makeOffer n b =>
    have hn : Item.nft n ∈ T := hu (by simp [uses, looksAt])
    simp only [call, makeOffer] at h
    inv_ok at h
    obtain ⟨k, -, -, -, -, -, -, -, -, -, -, -, -, -, rfl⟩ := h
    off_upd
  | retractOffer n =>
    have hn : Item.nft n ∈ T := hu (by simp [uses, looksAt])
    simp only [call, retractOffer] at h
    inv_ok at h
    obtain ⟨_, -, -, rfl⟩ := h
    off_upd
  | changeTerms n f p m ch =>
    have hn : Item.nft n ∈ T := hu (by simp [uses, looksAt])
    simp only [call, changeTerms] at h
    inv_ok at h
    obtain ⟨k, -, -, -, -, -, -, -, rfl⟩ := h
    cases k.rentee with
    | none => simp only [Option.isSome]; off_upd
    | some r => simp only [Option.isSome]; off_upd
  | acceptTerms n f p m ch =>
    have hn : Item.nft n ∈ T := hu (by simp [uses, looksAt])
    simp only [call, acceptTerms] at h
    inv_ok at h
    obtain ⟨k, s, -, -, -, -, -, -, -, -, rfl⟩ := h
    off_upd

end RentM
