import Verif.Props.Auction
import Verif.Props.Transmission
import Verif.Props.Rent
import Verif.Props.Size
/-
C104: others can be shut out of auctions, rentals, timed transmissions and rent offers.
-/
variable {c : Cfg} {w w' : World}

namespace Spec

/-- an operation signed by one of the accounts `X` -/
def SignedBy (X : List AccountId) (o : Op) : Prop := ∃ a ∈ X, ∃ x, o = .call (.signed a) x

/-- an auction of one of the accounts `X`, scheduled to end after block `B`, that cannot be bought out -/
def HeldAuction (X : List AccountId) (B : Block) (w : World) (n : NFTId) : Prop :=
  ∃ x e, w.auc.auctions.get n = some x ∧ x.creator ∈ X ∧ x.buyIt = none ∧ (n, e) ∈ w.auc.deadlines ∧ B < e

/-- a transmission at a block after `B` of an NFT of one of the accounts `X` -/
def HeldTransmission (X : List AccountId) (B : Block) (w : World) (n : NFTId) : Prop :=
  ∃ x d b, w.tr.trans.get n = some x ∧ x.protocol = .atBlock b ∧ B < b ∧ w.nfts.get n = some d ∧ d.owner ∈ X

/-- a rent contract of one of the accounts `X`: on offer until after block `B` to whom the renter picks, or running
with another one of them for a fixed time until after block `B` -/
def HeldContract (c : Cfg) (X : List AccountId) (B : Block) (w : World) (n : NFTId) : Prop :=
  ∃ k, w.rent.contracts.get n = some k ∧ k.renter ∈ X ∧
    (k.rentee = none ∧ (∃ l, k.acceptance = .manual l) ∧ B < k.creation + c.rentAvail ∨
     ∃ r s d, k.rentee = some r ∧ r ∈ X ∧ k.start = some s ∧ k.duration = .fixed d ∧ B < s + d)

end Spec

/-- a scheduled auction that is still there and not due is still scheduled -/
theorem step_still_scheduled (hc : c.Ok) (hr : Reach c w) {n : NFTId} {x y : Auction} {e : Block}
    (hx : w.auc.auctions.get n = some x) (hin : (n, e) ∈ w.auc.deadlines) (he : w.now < e) (o : Op) (ho : o.Ok c)
    (hy : (step c w o).auc.auctions.get n = some y) : n ∈ Queue.ids (step c w o).auc.deadlines := by
  have hi := hr.auc hc
  have hf : x.fin = e := by
    obtain ⟨x', h1, h2⟩ := hi.inQ n e hin
    rw [hx] at h1; simp at h1; subst h1; exact h2
  have hin : n ∈ Queue.ids w.auc.deadlines := Queue.mem_ids.2 ⟨e, hin⟩
  rcases step_auc_case w o ho with ⟨a, y', rfl, ha, hact⟩ | ⟨rfl, hact⟩ | e
  · generalize step c w _ = w' at hact hy ⊢
    cases hact with
    | create _ _ _ _ _ _ _ _ _ _ _ _ hq =>
      obtain ⟨_, rfl⟩ := Queue.insert_some hq
      simp only [Queue.mem_ids_ins]
      exact Or.inr hin
    | cancel =>
      simp only [FMap.get_erase] at hy
      split at hy
      · simp at hy
      · exact (Queue.mem_ids_remove hi.wf).2 ⟨hin, by assumption⟩
    | end_ =>
      simp only [FMap.get_erase] at hy
      split at hy
      · simp at hy
      · exact (Queue.mem_ids_remove hi.wf).2 ⟨hin, by assumption⟩
    | buyItNow =>
      simp only [FMap.get_erase] at hy
      split at hy
      · simp at hy
      · exact (Queue.mem_ids_remove hi.wf).2 ⟨hin, by assumption⟩
    | @addBid m v y b dr l q _ h1 h2 h3 h4 h5 h6 h7 =>
      simp only
      rw [AucM.extend_eq] at h7
      split at h7
      · simp only [AucM.updateDeadline] at h7
        rcases Queue.update_ok h7 with ⟨_, rfl⟩ | ⟨_, rfl⟩
        · exact hin
        · rw [Queue.mem_ids_ins, Queue.mem_ids_remove hi.wf]
          by_cases e : n = m
          · exact Or.inl e
          · exact Or.inr ⟨hin, e⟩
      · simp only [AucM.updateDeadline, Except.ok.injEq] at h7
        subst h7; exact hin
    | removeBid => exact hin
    | claim => exact hin
  · obtain ⟨d, hd⟩ := AucM.HasNft.of_good (hr.inv hc).good n x hx
    cases (AucM.pops_at hact hi hx hd).1 with
    | stay _ _ h => exact h.2 hin
    | won _ h => omega
    | noBid _ h => omega
    | missed _ h => omega
  · rw [e]; exact hin

/-- A held auction stays held as long as its creator does nothing and the time has not come. -/
theorem Spec.HeldAuction.step (hc : c.Ok) (hr : Reach c w) {X : List AccountId} {B : Block} {n : NFTId}
    (h : Spec.HeldAuction X B w n) (o : Op) (ho : o.Ok c) (hx : ¬ Spec.SignedBy X o) (hb : w.now ≤ B) :
    Spec.HeldAuction X B (_root_.step c w o) n := by
  obtain ⟨x, e, h1, h2, h3, h4, h5⟩ := h
  have hi := hr.auc hc
  obtain ⟨d, hd⟩ := AucM.HasNft.of_good (hr.inv hc).good n x h1
  have hf : x.fin = e := by
    obtain ⟨x', g1, g2⟩ := hi.inQ n e h4
    rw [h1] at g1; simp at g1; subst g1; exact g2
  have key : ∀ y, (_root_.step c w o).auc.auctions.get n = some y → y.creator = x.creator → y.buyIt = x.buyIt →
      x.fin ≤ y.fin → Spec.HeldAuction X B (_root_.step c w o) n := by
    intro y g1 g2 g3 g4
    obtain ⟨e', he'⟩ := Queue.mem_ids.1 (step_still_scheduled hc hr h1 h4 (by omega) o ho g1)
    obtain ⟨y', k1, k2⟩ := ((hr.step o ho).auc hc).inQ n e' he'
    rw [g1] at k1; simp at k1; subst k1
    exact ⟨y, e', g1, g2 ▸ h2, g3.trans h3, he', by omega⟩
  have ht := step_auc_turn hc hr o ho h1 hd
  generalize hw : _root_.step c w o = w' at ht key
  cases ht with
  | stay g => exact key _ g rfl rfl (Nat.le_refl _)
  | cancel => exact absurd ⟨_, h2, _, rfl⟩ hx
  | bid _ _ _ _ g =>
    refine key _ g rfl rfl ?_
    dsimp only
    split <;> omega
  | withdraw _ _ g => exact key _ g rfl rfl (Nat.le_refl _)
  | end_ => exact absurd ⟨_, h2, _, rfl⟩ hx
  | buy g => rw [h3] at g; simp at g
  | won g => omega
  | noBid g => omega

theorem Spec.HeldTransmission.step (hc : c.Ok) (hr : Reach c w) {X : List AccountId} {B : Block} {n : NFTId}
    (h : Spec.HeldTransmission X B w n) (o : Op) (ho : o.Ok c) (hx : ¬ Spec.SignedBy X o) (hb : w.now ≤ B) :
    Spec.HeldTransmission X B (_root_.step c w o) n := by
  obtain ⟨x, d, b, h1, h2, h3, h4, h5⟩ := h
  have ht := step_tr_move hc hr o ho h1 h4
  generalize hw : _root_.step c w o = w' at ht
  cases ht with
  | stay g1 g2 g3 => exact ⟨x, _, b, g1, h2, h3, g2, g3 ▸ h5⟩
  | reset => exact absurd ⟨_, h5, _, rfl⟩ hx
  | removed => exact absurd ⟨_, h5, _, rfl⟩ hx
  | hook _ g1 g2 =>
    rw [h2] at g2
    simp only [TrM.endBlock, Option.some.injEq] at g2
    omega
  | consent g =>
    rw [h2] at g
    simp [TrM.consentData] at g

theorem Spec.HeldContract.step (hc : c.Ok) (hr : Reach c w) {X : List AccountId} {B : Block} {n : NFTId}
    (h : Spec.HeldContract c X B w n) (o : Op) (ho : o.Ok c) (hx : ¬ Spec.SignedBy X o) (hb : w.now ≤ B) :
    Spec.HeldContract c X B (_root_.step c w o) n := by
  obtain ⟨k, h1, h2, h3⟩ := h
  have ht := step_rent_turn hc hr o ho h1
  generalize hw : _root_.step c w o = w' at ht
  cases ht with
  | stay g => exact ⟨k, g, h2, h3⟩
  | cancel => exact absurd ⟨_, h2, _, rfl⟩ hx
  | revoke g1 g2 =>
    rcases h3 with ⟨g, _⟩ | ⟨r, s, d, g3, g4, _⟩
    · rw [g] at g1; simp at g1
    · rw [g3] at g1; simp at g1; subst g1
      rcases g2 with rfl | ⟨rfl, _⟩
      · exact absurd ⟨_, g4, _, rfl⟩ hx
      · exact absurd ⟨_, h2, _, rfl⟩ hx
  | start g1 g2 =>
    rcases h3 with ⟨_, ⟨l, g⟩, _⟩ | ⟨r, s, d, g3, _⟩
    · rcases g2 with ⟨_, _, _, _, g4, _⟩ | ⟨_, rfl, _⟩
      · rw [g] at g4; simp [RentM.isManual] at g4
      · exact absurd ⟨_, h2, _, rfl⟩ hx
    · rw [g3] at g1; simp at g1
  | change => exact absurd ⟨_, h2, _, rfl⟩ hx
  | accept g =>
    rcases h3 with ⟨g', _⟩ | ⟨r, s, d, g3, g4, _⟩
    · rw [g'] at g; simp at g
    · rw [g3] at g; simp at g; subst g
      exact absurd ⟨_, g4, _, rfl⟩ hx
  | over g1 g2 g3 =>
    have hn := g1.now
    cases g3 with
    | unused g4 g5 =>
      rcases h3 with ⟨_, _, g⟩ | ⟨r, s, d, g, _⟩
      · omega
      · rw [g] at g4; simp at g4
    | fixed g4 g5 g6 g7 =>
      rcases h3 with ⟨g, _⟩ | ⟨r, s, d, _, _, k1, k2, k3⟩
      · rw [g] at g4; simp at g4
      · rw [k1] at g5; simp at g5; subst g5
        rw [k2] at g6; simp at g6; subst g6
        omega
    | sub g4 _ g6 =>
      rcases h3 with ⟨g, _⟩ | ⟨r, s, d, _, _, _, k2, _⟩
      · rw [g] at g4; simp at g4
      · rw [k2] at g6; simp at g6

namespace Spec

/-- the offers for a rent contract that nobody rents yet and that stays on offer until after block `B` are all from
the accounts `X`, and there are as many as there may be -/
def HeldOffers (c : Cfg) (X : List AccountId) (B : Block) (owner : AccountId) (w : World) (n : NFTId) : Prop :=
  ∃ k l, w.rent.contracts.get n = some k ∧ k.renter = owner ∧ k.rentee = none ∧ (∃ l, k.acceptance = .manual l) ∧
    B < k.creation + c.rentAvail ∧ w.rent.offers.get n = some l ∧ (∀ a ∈ l, a ∈ X) ∧ c.rentAccounts ≤ l.length

end Spec

theorem Spec.HeldOffers.step (hc : c.Ok) (hr : Reach c w) {X : List AccountId} {B : Block} {a : AccountId} {n : NFTId}
    (h : Spec.HeldOffers c X B a w n) (o : Op) (ho : o.Ok c) (hx : ¬ Spec.SignedBy (a :: X) o) (hb : w.now ≤ B) :
    Spec.HeldOffers c X B a (_root_.step c w o) n := by
  obtain ⟨k, l, h1, h2, h3, ⟨la, h4⟩, h5, h6, h7, h8⟩ := h
  have stay : (_root_.step c w o).rent.contracts.get n = some k := by
    have ht := step_rent_turn hc hr o ho h1
    generalize hw : _root_.step c w o = w' at ht
    cases ht with
    | stay g => exact g
    | cancel => exact absurd ⟨_, List.mem_cons.2 (Or.inl h2), _, rfl⟩ hx
    | revoke g1 => rw [h3] at g1; simp at g1
    | start g1 g2 =>
      rcases g2 with ⟨_, _, _, _, g4, _⟩ | ⟨_, rfl, _⟩
      · rw [h4] at g4; simp [RentM.isManual] at g4
      · exact absurd ⟨_, List.mem_cons.2 (Or.inl h2), _, rfl⟩ hx
    | change => exact absurd ⟨_, List.mem_cons.2 (Or.inl h2), _, rfl⟩ hx
    | accept g => rw [h3] at g; simp at g
    | over g1 g2 g3 =>
      have hn := g1.now
      cases g3 with
      | unused => omega
      | fixed g4 => rw [h3] at g4; simp at g4
      | sub g4 => rw [h3] at g4; simp at g4
  refine ⟨k, l, stay, h2, h3, ⟨la, h4⟩, h5, ?_, h7, h8⟩
  rcases step_rent_case hc hr o ho with ⟨b, x, rfl, _, h⟩ | ⟨rfl, h⟩ | e
  · have hlim := Size.offers hc (hr.step _ ho) n
    generalize _root_.step c w _ = w' at h stay hlim
    cases h with
    | create h =>
      obtain ⟨_, _, _, _, _, _, _, _, _, _, _, _, _, _, _, _, _, _, _, _, _, rfl⟩ := RentM.create_ok h
      exact h6
    | @cancel m =>
      simp only [FMap.get_erase] at stay ⊢
      split at stay
      · simp at stay
      · rw [if_neg (by assumption)]; exact h6
    | @revoke m _ h =>
      obtain ⟨k', _, _, _, _, _, _, _, _, _, _, _, _, _, _, rfl⟩ := RentM.revoke_ok h
      simp only [RentM.removeKind]
      cases k'.duration <;> exact h6
    | @start m k' r _ _ hk' hs h =>
      obtain ⟨F, S, hr⟩ := h.rent
      rw [hr] at stay ⊢
      simp only [FMap.get_insert, FMap.get_erase] at stay ⊢
      split at stay
      · simp at stay; rw [← stay] at h3; simp at h3
      · rw [if_neg (by assumption)]; exact h6
    | @makeOffer m k' g1 g2 =>
      simp only [FMap.get_insert] at hlim ⊢
      split at hlim
      · subst_vars
        rw [h6] at hlim
        have := hlim _ rfl
        simp at this; omega
      · rw [if_neg (by assumption)]; exact h6
    | @retractOffer m l' g1 g2 =>
      simp only [FMap.get_insert]
      split
      · subst_vars
        rw [h6] at g1; simp at g1; subst g1
        exact absurd ⟨_, List.mem_cons_of_mem _ (h7 _ g2), _, rfl⟩ hx
      · exact h6
    | @changeTerms m k' _ _ _ _ _ g1 g2 =>
      simp only
      split
      · exact h6
      · simp only [FMap.get_erase]
        split
        · subst_vars
          rw [h1] at g1; simp at g1; subst g1
          exact absurd ⟨_, List.mem_cons_self, _, rfl⟩ hx
        · exact h6
    | acceptTerms => exact h6
  · rw [h.offers]; exact h6
  · rw [e]; exact h6

/-- what a step keeps as long as the accounts `X` do nothing and the clock is not past `B` is kept for as long -/
theorem run_held {X : List AccountId} {B : Block} {P : World → Prop}
    (hP : ∀ w, Reach c w → P w → ∀ o : Op, o.Ok c → ¬ Spec.SignedBy X o → w.now ≤ B → P (step c w o))
    (hr : Reach c w) (h : P w) (l : List Op) (hl : ∀ o ∈ l, o.Ok c) (hx : ∀ o ∈ l, ¬ Spec.SignedBy X o)
    (hb : (run c w l).now ≤ B) : P (run c w l) := by
  induction l generalizing w with
  | nil => exact h
  | cons o t ih =>
    have h1 : w.now ≤ B := Nat.le_trans (run_now_le w (o :: t)) hb
    exact ih (hr.step o (hl o (by simp))) (hP w hr h o (hl o (by simp)) (hx o (by simp)) h1)
      (fun o' h' => hl o' (by simp [h'])) (fun o' h' => hx o' (by simp [h'])) hb

theorem length_le_ids {L : List NFTId} {q : Queue} (hL : L.Nodup) (h : ∀ n ∈ L, n ∈ Queue.ids q) : L.length ≤ q.length := by
  have := (List.subperm_of_subset hL h).length_le
  simpa [Queue.ids] using this

/-- C104 (auctions): **A few accounts can shut everybody else out of auctions.**  When some accounts have as many
auctions as there may be in all, none to be bought at once, all ending after block `B`, then whatever all others do, until
block `B` no auction can be created. -/
theorem C104_shut_auctions (hc : c.Ok) (hr : Reach c w) {X : List AccountId} {B : Block} {L : List NFTId}
    (hL : L.Nodup) (hlen : c.aucLimit ≤ L.length) (hh : ∀ n ∈ L, Spec.HeldAuction X B w n)
    (l : List Op) (hl : ∀ o ∈ l, o.Ok c) (hx : ∀ o ∈ l, ¬ Spec.SignedBy X o) (hb : (run c w l).now ≤ B)
    (a : AccountId) (n : NFTId) (m : MktId) (s e : Block) (p : Balance) (bi : Option Balance) (w' : World) :
    dispatch c (.auc (.create n m s e p bi)) (.signed a) (run c w l) ≠ .ok w' := by
  have h := run_held (c := c) (P := fun w => ∀ n ∈ L, Spec.HeldAuction X B w n)
    (fun w hr h o ho hx hb n hn => (h n hn).step hc hr o ho hx hb) hr hh l hl hx hb
  have hle : c.aucLimit ≤ (run c w l).auc.deadlines.length :=
    Nat.le_trans hlen (length_le_ids hL fun n hn => by
      obtain ⟨_, e, _, _, _, g, _⟩ := h n hn
      exact Queue.mem_ids.2 ⟨e, g⟩)
  intro hd
  simp only [dispatch, signedCall, AucM.call, AucM.create] at hd
  inv_ok at hd
  simp only [Queue.insert, if_neg (Nat.not_lt.2 hle)] at hd
  simp at hd

/-- C104 (transmissions): the same for transmissions at a given block. -/
theorem C104_shut_transmissions (hc : c.Ok) (hr : Reach c w) {X : List AccountId} {B : Block} {L : List NFTId}
    (hL : L.Nodup) (hlen : c.trLimit ≤ L.length) (hh : ∀ n ∈ L, Spec.HeldTransmission X B w n)
    (l : List Op) (hl : ∀ o ∈ l, o.Ok c) (hx : ∀ o ∈ l, ¬ Spec.SignedBy X o) (hb : (run c w l).now ≤ B)
    (a : AccountId) (n : NFTId) (r : AccountId) (b : Block) (k : Cancellation) (w' : World) :
    dispatch c (.tr (.set n r (.atBlock b) k)) (.signed a) (run c w l) ≠ .ok w' ∧
    dispatch c (.tr (.set n r (.atBlockWithReset b) k)) (.signed a) (run c w l) ≠ .ok w' := by
  have h := run_held (c := c) (P := fun w => ∀ n ∈ L, Spec.HeldTransmission X B w n)
    (fun w hr h o ho hx hb n hn => (h n hn).step hc hr o ho hx hb) hr hh l hl hx hb
  have hle : c.trLimit ≤ (run c w l).tr.queue.length :=
    Nat.le_trans hlen (length_le_ids hL fun n hn => by
      obtain ⟨x, d, b, g1, g2, _⟩ := h n hn
      exact Queue.mem_ids.2 ⟨b, (C42_scheduled hc (hr.run l hl) n b).2 ⟨x, g1, Or.inl g2⟩⟩)
  constructor
  all_goals
    intro hd
    simp only [dispatch, signedCall, TrM.call, TrM.set, TrM.blockToQueue, TrM.enqueue] at hd
    inv_ok at hd
    omega

/-- C104 (rentals): the same for rent contracts. -/
theorem C104_shut_rentals (hc : c.Ok) (hr : Reach c w) {X : List AccountId} {B : Block} {L : List NFTId}
    (hL : L.Nodup) (hlen : c.rentLimit ≤ L.length) (hh : ∀ n ∈ L, Spec.HeldContract c X B w n)
    (l : List Op) (hl : ∀ o ∈ l, o.Ok c) (hx : ∀ o ∈ l, ¬ Spec.SignedBy X o) (hb : (run c w l).now ≤ B)
    (a : AccountId) (n : NFTId) (dur : DurationInput) (acc : Acceptance) (rv : Bool) (rf : RentFee) (f1 f2 : CancelFee)
    (w' : World) : dispatch c (.rent (.create n dur acc rv rf f1 f2)) (.signed a) (run c w l) ≠ .ok w' := by
  have h := run_held (c := c) (P := fun w => ∀ n ∈ L, Spec.HeldContract c X B w n)
    (fun w hr h o ho hx hb n hn => (h n hn).step hc hr o ho hx hb) hr hh l hl hx hb
  have hq := ((hr.run l hl).inv hc).rent.q
  have hle : L.length ≤ ((run c w l).rent.availQ ++ (run c w l).rent.fixedQ).length :=
    length_le_ids hL fun n hn => by
      obtain ⟨k, g1, _, g⟩ := h n hn
      simp only [Queue.ids, List.map_append, List.mem_append]
      rcases g with ⟨g2, _⟩ | ⟨r, s, d, g2, _, _, g3, _⟩
      · exact Or.inl (hq.memA n k g1 g2)
      · exact Or.inr (hq.memF n k d g1 (by rw [g2]; simp) g3)
  intro hd
  obtain ⟨_, _, _, g, _⟩ := RentM.create_ok (c := c) (w := run c w l) (a := a) hd
  simp only [List.length_append] at hle
  omega

/-- C104 (offers): the same for offers to rent an NFT, which bind nobody to anything: as long as the renter does not
end the contract, nobody else can make an offer. -/
theorem C104_shut_offers (hc : c.Ok) (hr : Reach c w) {X : List AccountId} {B : Block} {owner : AccountId} {n : NFTId}
    (hh : Spec.HeldOffers c X B owner w n)
    (l : List Op) (hl : ∀ o ∈ l, o.Ok c) (hx : ∀ o ∈ l, ¬ Spec.SignedBy (owner :: X) o) (hb : (run c w l).now ≤ B)
    (a : AccountId) (b : Block) (w' : World) :
    dispatch c (.rent (.makeOffer n b)) (.signed a) (run c w l) ≠ .ok w' := by
  obtain ⟨k, o, g1, _, _, _, _, g2, _, g3⟩ := run_held (c := c) (P := fun w => Spec.HeldOffers c X B owner w n)
    (fun w hr h o ho hx hb => h.step hc hr o ho hx hb) hr hh l hl hx hb
  intro hd
  simp only [dispatch, signedCall, RentM.call, RentM.makeOffer] at hd
  inv_ok at hd
  simp only [g2, Option.getD_some] at hd
  omega

set_option linter.unusedSimpArgs false in
/-- C104, what holds: **nobody is refused for lack of room while there is room.**  An auction, a timed transmission, a
contract or an offer that is refused for lack of room finds the list really full. -/
theorem C104_partial (hc : c.Ok) (hr : Reach c w) (a : AccountId) (n : NFTId) :
    (∀ m s e p bi, dispatch c (.auc (.create n m s e p bi)) (.signed a) w = .error (.e "MaximumAuctionsLimitReached") →
      w.auc.deadlines.length = c.aucLimit) ∧
    (∀ r p k, dispatch c (.tr (.set n r p k)) (.signed a) w = .error (.e "SimultaneousTransmissionLimitReached") →
      w.tr.queue.length = c.trLimit) ∧
    (∀ dur acc rv rf f1 f2, dispatch c (.rent (.create n dur acc rv rf f1 f2)) (.signed a) w =
        .error (.e "MaxSimultaneousContractReached") →
      w.rent.availQ.length + w.rent.fixedQ.length + w.rent.subQ.length = c.rentLimit) ∧
    ∀ b, dispatch c (.rent (.makeOffer n b)) (.signed a) w = .error (.e "MaximumOffersReached") →
      ((w.rent.offers.get n).getD []).length = c.rentAccounts := by
  refine ⟨fun m s e p bi h => ?_, fun r p k h => ?_, fun dur acc rv rf f1 f2 h => ?_, fun b h => ?_⟩
  · have hl := (C26_sorted hc hr).2.2.1
    have h : AucM.create c w a n m s e p bi = _ := h
    unfold AucM.create at h
    simp only [Exec.bind_err, Exec.require_err, Exec.getOr_err, Exec.require_ok, Exec.getOr_ok, Exec.mapErr_err,
      Exec.mapErr_ok, Exec.pure_err, Err.e.injEq, String.reduceEq, and_false, false_or, exists_const, exists_and_left,
      and_true, or_false, exists_false] at h
    obtain ⟨_, _, _, _, _, _, _, _, _, _, _, _, _, _, _, _, _, _, _, h⟩ := h
    simp only [Queue.insert] at h
    split at h
    · simp at h
    · omega
  · have hl := (C42_sorted hc hr).2.2
    have h : TrM.set c w a n r p k = _ := h
    unfold TrM.set at h
    simp only [Exec.bind_err, Exec.require_err, Exec.getOr_err, Exec.require_ok, Exec.getOr_ok, Exec.mapErr_err,
      Exec.mapErr_ok, Exec.pure_err, Err.e.injEq, String.reduceEq, and_false, false_or, exists_const, exists_and_left,
      and_true, or_false, exists_false] at h
    obtain ⟨_, _, _, _, _, _, _, _, _, _, _, _, _, _, _, _, _, _, _, h | ⟨_, _, h⟩⟩ := h
    · cases hp : TrM.blockToQueue p with
      | none => rw [hp] at h; simp [TrM.enqueue, Exec.pure_err] at h
      | some b =>
        rw [hp] at h
        simp only [TrM.enqueue, Exec.bind_err, Exec.require_err, Exec.getOr_err, Exec.require_ok] at h
        rcases h with ⟨h, _⟩ | ⟨_, h1, h, _⟩
        · omega
        · simp only [Queue.insert] at h
          split at h
          · simp at h
          · omega
    · simp only [Bal.payFee, Bal.withdraw, Exec.bind_err, Exec.pure_err, exists_false, and_false, or_false] at h
      split at h
      · simp at h
      · simp [-bind_pure_comp, Exec.bind_err, Exec.require_err, Exec.pure_err] at h
  · have hl := (C30 hc hr).2.2.2.2.2
    have h : RentM.create c w a n dur acc rv rf f1 f2 = _ := h
    unfold RentM.create at h
    simp only [Exec.bind_err, Exec.require_err, Exec.getOr_err, Exec.require_ok, Exec.getOr_ok, Exec.mapErr_err,
      Exec.mapErr_ok, Exec.pure_err, Err.e.injEq, String.reduceEq, and_false, false_or, exists_const, exists_and_left,
      and_true, or_false, exists_false] at h
    rcases h with h | ⟨h1, _, _, _, _, _, _, _, _, _, _, _, _, _, _, _, h⟩
    · omega
    · rcases h with ⟨_, h, _⟩ | ⟨b, hb, h | ⟨w2, h2, h⟩⟩
      · simp at *
      · cases hp : RentM.feeNft f1 with
        | none => rw [hp] at h; simp [RentM.depositRenterNft, Exec.pure_err] at h
        | some b =>
          rw [hp] at h
          simp [-bind_pure_comp, RentM.depositRenterNft, Exec.bind_err, Exec.require_err, Exec.getOr_err, Exec.pure_err] at h
      · have e : w2.rent = w.rent := by
          cases hp : RentM.feeNft f1 with
          | none => rw [hp] at h2; simp [RentM.depositRenterNft, pure, Except.pure] at h2; rw [← h2]; rfl
          | some b =>
            rw [hp] at h2
            simp only [RentM.depositRenterNft] at h2
            inv_ok at h2
            obtain ⟨_, _, _, _, rfl⟩ := h2
            rfl
        rw [e] at h
        simp only [Queue.insert] at h
        split at h
        · simp at h
        · omega
  · have h : RentM.makeOffer c w a n b = _ := h
    unfold RentM.makeOffer at h
    simp only [Exec.bind_err, Exec.require_err, Exec.getOr_err, Exec.require_ok, Exec.getOr_ok, Exec.mapErr_err,
      Exec.mapErr_ok, Exec.pure_err, Err.e.injEq, String.reduceEq, and_false, false_or, exists_const, exists_and_left,
      and_true, or_false, exists_false] at h
    have hl : ((w.rent.offers.get n).getD []).length ≤ c.rentAccounts := by
      cases ho : w.rent.offers.get n with
      | none => simp
      | some l => exact Size.offers hc hr n l ho
    obtain ⟨_, k, _, _, _, _, _, _, _, _, _, h⟩ := h
    have hne : ∀ {x y z : String} {s : String}, RentM.nftErrs x y z s = x ∨ RentM.nftErrs x y z s = y ∨ RentM.nftErrs x y z s = z := by
      intro x y z s
      unfold RentM.nftErrs
      split <;> simp
    rcases h with h | ⟨_, _, h | ⟨_, _, h⟩⟩
    · rcases h with ⟨s, _, h⟩ | ⟨s, _, h⟩
      · rcases hne (x := "RentNFTNotFound") (y := "CallerDoesNotOwnRentNFT") (z := "RentNFTNotInValidState") (s := s)
          with e | e | e <;> rw [e] at h <;> simp at h
      · simp at h
    · rcases h with ⟨s, _, h⟩ | ⟨s, _, h⟩
      · rcases hne (x := "CancellationNFTNotFound") (y := "CallerDoesNotOwnCancellationNFT")
          (z := "CancellationNFTNotInValidState") (s := s) with e | e | e <;> rw [e] at h <;> simp at h
      · simp at h
    · omega

/-! Concrete cases: account 1 has ten NFTs, in a chain where ten auctions, contracts and transmissions may run. -/

/-- account 1 mints NFTs 0 to 9, account 2 mints NFT 10, account 3 opens a marketplace for everybody -/
abbrev crowd : List Op := List.replicate 10 Demo.mint1 ++
  [Demo.by_ 2 (.nft (.createNft [9] ⟨100000, by omega⟩ none false)), Demo.by_ 3 (.mkt (.create .pub))]

/-- account 1 auctions an NFT until block 120 -/
abbrev squat (n : NFTId) : Op := Demo.by_ 1 (.auc (.create n 0 20 120 1000000 none))

set_option maxRecDepth 100000 in
/-- C104 fails: account 2 can auction its NFT; account 1, who has bid for nothing and paid nothing but ten mints, starts one
more auction; then whatever anybody else does, account 2 cannot before block 120, nor can anybody else. -/
theorem C104_fails : ∃ c w, c.Ok ∧ Reach c w ∧
    (∃ w', dispatch c (.auc (.create 10 0 20 100 1000 none)) (.signed 2) w = .ok w') ∧
    ∃ x w1, dispatch c x (.signed 1) w = .ok w1 ∧ w1.bal.free.get 1 = some 9950 ∧
      ∀ l : List Op, (∀ o ∈ l, o.Ok c) → (∀ o ∈ l, ¬ Spec.SignedBy [1] o) → (run c w1 l).now < 120 →
        ∀ a n m s e p bi w', dispatch c (.auc (.create n m s e p bi)) (.signed a) (run c w1 l) ≠ .ok w' := by
  have h1 := Demo.reach (crowd ++ (List.range 9).map squat) (by decide)
  have h2 := Demo.reach (crowd ++ (List.range 10).map squat) (by decide)
  refine ⟨Demo.cfg, _, Demo.cfg_ok, h1, ⟨_, rfl⟩, .auc (.create 9 0 20 120 1000000 none),
    Demo.at_ (crowd ++ (List.range 10).map squat), rfl, by decide, fun l hl hx hn => ?_⟩
  refine C104_shut_auctions (B := 119) (X := [1]) (L := List.range 10) Demo.cfg_ok h2 List.nodup_range (by decide) ?_ l hl hx (by omega)
  intro n hn
  have : n ∈ [0, 1, 2, 3, 4, 5, 6, 7, 8, 9] := hn
  simp only [List.mem_cons, List.not_mem_nil, or_false] at this
  rcases this with rfl | rfl | rfl | rfl | rfl | rfl | rfl | rfl | rfl | rfl <;>
    exact ⟨_, 120, rfl, by decide, rfl, by decide, by decide⟩

set_option maxRecDepth 100000 in
/-- the same with transmissions -/
example : ∀ n ∈ List.range 10, Spec.HeldTransmission [1] 99
    (Demo.at_ (crowd ++ (List.range 10).map fun n => Demo.by_ 1 (.tr (.set n 7 (.atBlock 100) .anytime)))) n := by
  intro n hn
  have : n ∈ [0, 1, 2, 3, 4, 5, 6, 7, 8, 9] := hn
  simp only [List.mem_cons, List.not_mem_nil, or_false] at this
  rcases this with rfl | rfl | rfl | rfl | rfl | rfl | rfl | rfl | rfl | rfl <;>
    exact ⟨_, _, 100, rfl, rfl, by decide, rfl, by decide⟩

set_option maxRecDepth 100000 in
/-- the same with contracts, nine of them running between accounts 1 and 6, one on offer -/
example : ∀ n ∈ List.range 10, Spec.HeldContract Demo.cfg [1, 6] 19
    (Demo.at_ (crowd ++ ((List.range 10).map fun n =>
      Demo.by_ 1 (.rent (.create n (.fixed 100) (.manual none) false (.tokens 0) .none .none))) ++
      [Demo.by_ 6 (.rent (.makeOffer 3 0)), Demo.by_ 1 (.rent (.acceptOffer 3 6))])) n := by
  intro n hn
  have : n ∈ [0, 1, 2, 3, 4, 5, 6, 7, 8, 9] := hn
  simp only [List.mem_cons, List.not_mem_nil, or_false] at this
  rcases this with rfl | rfl | rfl | rfl | rfl | rfl | rfl | rfl | rfl | rfl
  case inr.inr.inr.inl => exact ⟨_, rfl, by decide, Or.inr ⟨6, 0, 100, rfl, by decide, rfl, rfl, by decide⟩⟩
  all_goals exact ⟨_, rfl, by decide, Or.inl ⟨rfl, ⟨_, rfl⟩, by decide⟩⟩

/-- five accounts fill the list of offers for a contract of account 1 -/
example : Spec.HeldOffers Demo.cfg [4, 5, 6, 7, 8] 19 1
    (Demo.at_ ([Demo.mint1, Demo.by_ 1 (.rent (.create 0 (.fixed 100) (.manual none) false (.tokens 500) .none .none))] ++
      [4, 5, 6, 7, 8].map fun a => Demo.by_ a (.rent (.makeOffer 0 0)))) 0 :=
  ⟨_, [4, 5, 6, 7, 8], rfl, rfl, rfl, ⟨_, rfl⟩, by decide, rfl, by decide, by decide⟩

set_option maxRecDepth 100000 in
/-- account 2 is refused for lack of room -/
example : Reach Demo.cfg (Demo.at_ (crowd ++ (List.range 10).map squat)) ∧
    dispatch Demo.cfg (.auc (.create 10 0 20 100 1000 none)) (.signed 2)
      (Demo.at_ (crowd ++ (List.range 10).map squat)) = .error (.e "MaximumAuctionsLimitReached") :=
  ⟨Demo.reach _ (by decide), rfl⟩
