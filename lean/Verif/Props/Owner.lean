import Verif.Props.Rent
import Verif.Proofs.AucTurn
import Verif.Proofs.TrStep
/-
Property C03.
-/
variable {c : Cfg} {w w' : World} {a : AccountId}
set_option maxRecDepth 10000

/- Specification -/
namespace Spec

/-- NFT `n` goes from `old` to `new` by operation `o` in state `w`, by an act of `old`. -/
inductive OwnerMove (c : Cfg) (w : World) (n : NFTId) (old new : AccountId) (o : Op) : Prop where
  /-- the owner transfers it -/
  | transfer : o = .call (.signed old) (.nft (.transferNft n new)) → OwnerMove c w n old new o
  /-- the owner has it on sale, and the new owner buys it -/
  | sale {s : Sale} {p : Balance} : w.mkt.sales.get n = some s → s.seller = old →
      o = .call (.signed new) (.mkt (.buy n p)) → OwnerMove c w n old new o
  /-- the owner has put it to auction, and the new owner wins -/
  | auction {x : Auction} {v : Balance} : w.auc.auctions.get n = some x → x.creator = old →
      x.bids.getLast? = some (new, v) →
      o = .hookAuc ∨ o = .call (.signed old) (.auc (.end_ n)) → OwnerMove c w n old new o
  /-- the owner has put it to auction with a price, and the new owner pays it -/
  | buyItNow {x : Auction} {p : Balance} : w.auc.auctions.get n = some x → x.creator = old →
      x.buyIt = some p → o = .call (.signed new) (.auc (.buyItNow n p)) → OwnerMove c w n old new o
  /-- the owner has set a transmission protocol, which names the new owner -/
  | transmission {t : Transmission} : w.tr.trans.get n = some t → t.recipient = new →
      o = .hookTr ∨ (∃ b, o = .call (.signed b) (.tr (.addConsent n))) → OwnerMove c w n old new o
  /-- the owner deposits it for the rent contract they create -/
  | deposit {m : NFTId} {dur : DurationInput} {acc : Acceptance} {rv : Bool} {rf : RentFee}
      {f2 : CancelFee} : m ≠ n → new = c.rentPot →
      o = .call (.signed old) (.rent (.create m dur acc rv rf (.nft n) f2)) →
      OwnerMove c w n old new o
  /-- the owner becomes the rentee of a contract, which wants it as the rent or as deposit; they sign,
  or have made an offer -/
  | rents {m : NFTId} {k : Contract} : w.rent.contracts.get m = some k →
      (k.rentFee = .nft n ∧ new = k.renter) ∨ (k.renteeFee = .nft n ∧ new = c.rentPot) →
      o = .call (.signed old) (.rent (.rent m k.creation)) ∨
        (o = .call (.signed k.renter) (.rent (.acceptOffer m old)) ∧
          ∃ l, w.rent.offers.get m = some l ∧ old ∈ l) →
      OwnerMove c w n old new o
  /-- a contract ends without fault: a deposit goes back to the party that made it -/
  | returned {m : NFTId} {k : Contract} : old = c.rentPot → w.rent.contracts.get m = some k →
      (k.renterFee = .nft n ∧ new = k.renter) ∨ (k.renteeFee = .nft n ∧ k.rentee = some new) →
      o = .hookRent ∨ (o = .call (.signed k.renter) (.rent (.cancel m)) ∧ k.rentee = none) →
      OwnerMove c w n old new o
  /-- a party revokes a contract: all deposits go to the other party; this includes the rented NFT itself
  if the renter has named it as their deposit -/
  | revoked {m : NFTId} {k : Contract} {r : AccountId} : w.rent.contracts.get m = some k →
      k.rentee = some r → (m ≠ n → old = c.rentPot) → (m = n → old = k.renter) →
      k.renterFee = .nft n ∨ k.renteeFee = .nft n →
      (o = .call (.signed k.renter) (.rent (.revoke m)) ∧ new = r) ∨
        (o = .call (.signed r) (.rent (.revoke m)) ∧ new = k.renter) →
      OwnerMove c w n old new o

end Spec

theorem feeNft_iff {f : CancelFee} {n : NFTId} : RentM.feeNft f = some n ↔ f = .nft n := by
  cases f <;> simp [RentM.feeNft]

theorem rentNft_iff {f : RentFee} {n : NFTId} : RentM.rentNft f = some n ↔ f = .nft n := by
  cases f <;> simp [RentM.rentNft]

theorem renteeNft_iff {k : Contract} {n : NFTId} :
    RentM.renteeNft k = some n ↔ k.renteeFee = .nft n ∧ ∃ r, k.rentee = some r := by
  unfold RentM.renteeNft
  cases k.rentee <;> simp [feeNft_iff]

open RentM in
/-- what ends of contracts without fault do to the owner of an NFT -/
theorem refund_owner {n m : NFTId} {k : Contract} {b f} {d : NFTData} (h : Refund c w m k b f)
    (hi : RInv c w) (hk : w.rent.contracts.get m = some k) (hd : w.nfts.get n = some d) :
    ∃ d', f.get n = some d' ∧ (d'.owner = d.owner ∨ (d.owner = c.rentPot ∧ d'.owner ≠ c.rentPot ∧
      ((k.renterFee = .nft n ∧ d'.owner = k.renter) ∨
        (k.renteeFee = .nft n ∧ k.rentee = some d'.owner)))) := by
  obtain ⟨h1, h2, h3, h4⟩ := h.nfts hi hk
  obtain ⟨p1, p2⟩ := hi.parties hk
  by_cases e : n = m
  · subst e; exact ⟨_, h1 d hd, Or.inl rfl⟩
  · by_cases hdep : deposits m k n
    · obtain ⟨d', g1, g2, _⟩ := (hi.dep.ok m k hk).held n hdep
      rw [hd] at g1; simp at g1; subst g1
      rcases hdep with ⟨hdep, _⟩ | hdep
      · refine ⟨_, by rw [h2 n e hdep, hd]; rfl, Or.inr ⟨g2, fun x => p1 x.symm, Or.inl ⟨feeNft_iff.1 hdep, rfl⟩⟩⟩
      · obtain ⟨g3, r, hr⟩ := renteeNft_iff.1 hdep
        exact ⟨_, by rw [h3 n r hr (feeNft_iff.2 g3), hd]; rfl,
          Or.inr ⟨g2, fun x => p2 r hr x.symm, Or.inr ⟨g3, hr⟩⟩⟩
    · exact ⟨d, by rw [h4 n e hdep, hd], Or.inl rfl⟩

open RentM in
theorem ticks_owner {n : NFTId} {d : NFTData} (h : Ticks c w w') (hd : w.nfts.get n = some d) :
    (∀ m k, w'.rent.contracts.get m = some k → w.rent.contracts.get m = some k) ∧
    ∃ d', w'.nfts.get n = some d' ∧ (d'.owner = d.owner ∨ (d.owner = c.rentPot ∧
      d'.owner ≠ c.rentPot ∧ ∃ m k, w.rent.contracts.get m = some k ∧
      ((k.renterFee = .nft n ∧ d'.owner = k.renter) ∨
        (k.renteeFee = .nft n ∧ k.rentee = some d'.owner)))) := by
  induction h with
  | refl => exact ⟨fun _ _ => id, d, hd, Or.inl rfl⟩
  | @tail w1 w2 h1 h2 ih =>
    obtain ⟨hs, d1, hd1, ih⟩ := ih
    obtain ⟨hi, hb, ht⟩ := h2
    cases ht with
    | @finish m k b f hk ho hf =>
      refine ⟨fun m' k' h' => hs m' k' ?_, ?_⟩
      · simp only [FMap.get_erase] at h'
        split at h'
        · simp at h'
        · exact h'
      · obtain ⟨d2, hd2, h2⟩ := refund_owner hf hi hk hd1
        refine ⟨d2, hd2, ?_⟩
        rcases h2 with h2 | ⟨h2, h3, h4⟩
        · rw [h2]; exact ih
        · rcases ih with ih | ⟨_, ih, _⟩
          · exact Or.inr ⟨ih ▸ h2, h3, m, k, hs m k hk, h4⟩
          · exact absurd h2 ih
    | @renew m b k r s u fee bal => exact ⟨hs, d1, hd1, ih⟩

open RentM in
theorem rent_owner {n : NFTId} {d d' : NFTData} {x : RentM.Call} (h : Did c w a x w') (hi : WInv c w)
    (hd : w.nfts.get n = some d) (hd' : w'.nfts.get n = some d') (hne : d'.owner ≠ d.owner) :
    Spec.OwnerMove c w n d.owner d'.owner (.call (.signed a) (.rent x)) := by
  cases h with
  | @create m dur acc rv rf f1 f2 _ h =>
    obtain ⟨dm, b, q, _, hdm, rfl, _, _, _, _, _, _, _, _, _, _, _, _, _, hf, _, rfl⟩ := create_ok h
    by_cases e : n = m
    · subst e
      simp only [FMap.get_insert_self, Option.some.injEq] at hd'
      rw [hd] at hdm; simp at hdm; subst hdm; subst hd'; exact absurd rfl hne
    · simp only [FMap.get_insert, e, if_false, get_cho, hd] at hd'
      split at hd'
      · rename_i e1
        obtain ⟨d0, g1, g2, _⟩ := hf n e1
        rw [hd] at g1; simp at g1; subst g1
        simp only [Option.map_some, Option.some.injEq] at hd'; subst hd'
        rw [feeNft_iff.1 e1, ← g2]
        exact .deposit (Ne.symm e) rfl rfl
      · simp only [Option.some.injEq] at hd'; subst hd'; exact absurd rfl hne
  | @cancel m k b f hk hka hkr hf =>
    obtain ⟨d2, g1, g2⟩ := refund_owner hf hi.rent hk hd
    have : f.get n = some d' := hd'
    rw [g1] at this; simp at this; subst this
    rcases g2 with g2 | ⟨g2, _, g3⟩
    · exact absurd g2 hne
    · subst hka
      exact .returned g2 hk g3 (Or.inr ⟨rfl, hkr⟩)
  | @revoke m _ h =>
    obtain ⟨k, r, hk, hr, hp, hcan, dam, own, price, e1, e2, e3, _, _, h1, h2⟩ := revoke_out h hi.rent
    have hfee : ∀ j, feeNft own = some j ∨ feeNft price = some j →
        k.renterFee = .nft j ∨ k.renteeFee = .nft j := by
      intro j; rw [e2, e3, feeNft_iff, feeNft_iff]; split <;> tauto
    have hop : (Op.call (.signed a) (.rent (.revoke m)) = .call (.signed k.renter) (.rent (.revoke m)) ∧ dam = r) ∨
        (Op.call (.signed a) (.rent (.revoke m)) = .call (.signed r) (.rent (.revoke m)) ∧ dam = k.renter) := by
      by_cases e : k.renter = a
      · left; subst e; exact ⟨rfl, by rw [e1]; simp⟩
      · right
        rcases hp with hp | hp
        · exact absurd hp e
        · subst hp; exact ⟨rfl, by rw [e1]; simp [e]⟩
    by_cases e : n = m
    · subst e
      obtain ⟨d2, g1, _, g3⟩ := h1 d hd
      rw [hd'] at g1; simp at g1; subst g1
      split at g3
      · rename_i g4
        rw [g3]
        refine .revoked hk hr (fun e => absurd rfl e) (fun _ => ?_) (hfee n g4) hop
        exact (((hi.good n).nft d hd).renter k hk).symm
      · exact absurd g3 hne
    · rw [h2 n e] at hd'
      split at hd'
      · rename_i g4
        rw [hd] at hd'; simp at hd'; subst hd'
        refine .revoked hk hr (fun _ => ?_) (fun e' => absurd e'.symm e) (hfee n g4) hop
        have hdep : deposits m k n := by
          rcases hfee n g4 with g | g
          · exact Or.inl ⟨feeNft_iff.2 g, e⟩
          · exact Or.inr (renteeNft_iff.2 ⟨g, r, hr⟩)
        obtain ⟨d0, g1, g2, _⟩ := (hi.rent.dep.ok m k hk).held n hdep
        rw [hd] at g1; simp at g1; subst g1; exact g2
      · rw [hd] at hd'; simp at hd'; subst hd'; exact absurd rfl hne
  | @start m k r x w' hk hx hs =>
    obtain ⟨b1, b2, q, _, _, c1, c2, _, rfl⟩ := hs.out
    have hop : Op.call (.signed a) (.rent x) = .call (.signed r) (.rent (.rent m k.creation)) ∨
        (Op.call (.signed a) (.rent x) = .call (.signed k.renter) (.rent (.acceptOffer m r)) ∧
          ∃ l, w.rent.offers.get m = some l ∧ r ∈ l) := by
      rcases hx with ⟨rfl, rfl, _⟩ | ⟨rfl, rfl, h⟩
      · exact Or.inl rfl
      · exact Or.inr ⟨rfl, h⟩
    simp only [get_cho, hd] at hd'
    by_cases e2 : feeNft k.renteeFee = some n
    · obtain ⟨d0, g1, g2, _⟩ := c2 n e2
      rw [hd] at g1; simp at g1; subst g1
      have ho : d'.owner = c.rentPot := by
        by_cases e1 : rentNft k.rentFee = some n <;> simp [e1, e2] at hd' <;> subst hd' <;> rfl
      rw [ho, g2]
      exact .rents hk (Or.inr ⟨feeNft_iff.1 e2, rfl⟩) hop
    · by_cases e1 : rentNft k.rentFee = some n
      · obtain ⟨d0, g1, g2, _⟩ := c1 n e1
        rw [hd] at g1; simp at g1; subst g1
        have ho : d'.owner = k.renter := by
          simp [e1, e2] at hd'; subst hd'; rfl
        rw [ho, g2]
        exact .rents hk (Or.inl ⟨rentNft_iff.1 e1, rfl⟩) hop
      · simp [e1, e2] at hd'; subst hd'; exact absurd rfl hne
  | makeOffer => simp only at hd'; rw [hd] at hd'; simp at hd'; subst hd'; exact absurd rfl hne
  | retractOffer => simp only at hd'; rw [hd] at hd'; simp at hd'; subst hd'; exact absurd rfl hne
  | changeTerms => simp only at hd'; rw [hd] at hd'; simp at hd'; subst hd'; exact absurd rfl hne
  | acceptTerms => simp only at hd'; rw [hd] at hd'; simp at hd'; subst hd'; exact absurd rfl hne

theorem mkt_owner {n : NFTId} {d d' : NFTData} {x : MktM.Call} (h : MktM.call c w a x = .ok w')
    (hi : WInv c w) (hd : w.nfts.get n = some d) (hd' : w'.nfts.get n = some d')
    (hne : d'.owner ≠ d.owner) :
    Spec.OwnerMove c w n d.owner d'.owner (.call (.signed a) (.mkt x)) := by
  have same : w'.nfts.get n = some d → False := by
    intro e; rw [hd'] at e; simp at e; subst e; exact hne rfl
  cases x <;> simp only [MktM.call] at h
  case create k =>
    simp only [MktM.create] at h; inv_ok at h
    obtain ⟨b, _, h1, _, rfl⟩ := h
    exact (same hd).elim
  case setOwner m r =>
    simp only [MktM.setOwner] at h; inv_ok at h
    repeat' (obtain ⟨_, h⟩ := h)
    exact (same hd).elim
  case setKind m r =>
    simp only [MktM.setKind] at h; inv_ok at h
    repeat' (obtain ⟨_, h⟩ := h)
    exact (same hd).elim
  case setConfig =>
    simp only [MktM.setConfig] at h; inv_ok at h
    repeat' (obtain ⟨_, h⟩ := h)
    exact (same hd).elim
  case list m k p =>
    simp only [MktM.list] at h; inv_ok at h
    obtain ⟨d0, k', b, hd0, h1, h2, h3, h4, h5, h6, h7, h8, hk, h9, h10, h11, rfl⟩ := h
    by_cases e : n = m
    · subst e
      rw [hd] at hd0; simp at hd0; subst hd0
      simp [World.putNft, World.putBal] at hd'; subst hd'; exact absurd rfl hne
    · exact (same (by simp [World.putNft, World.putBal, FMap.get_insert, e, hd])).elim
  case unlist m =>
    simp only [MktM.unlist] at h; inv_ok at h
    obtain ⟨d0, s0, hd0, _, _, rfl⟩ := h
    by_cases e : n = m
    · subst e
      rw [hd] at hd0; simp at hd0; subst hd0
      simp [World.putNft] at hd'; subst hd'; exact absurd rfl hne
    · exact (same (by simp [World.putNft, FMap.get_insert, e, hd])).elim
  case buy m p =>
    simp only [MktM.buy] at h; inv_ok at h
    obtain ⟨d0, s, mk, b, b1, b2, hd0, hs, h1, h2, h3, h4, h5, h6, h7, h8, h9, rfl⟩ := h
    by_cases e : n = m
    · subst e
      rw [hd] at hd0; simp at hd0; subst hd0
      simp [World.putNft, World.putBal] at hd'; subst hd'
      exact .sale hs (((hi.good n).nft d hd).seller s hs) rfl
    · exact (same (by simp [World.putNft, World.putBal, FMap.get_insert, e, hd])).elim

theorem nft_owner {n : NFTId} {d d' : NFTData} {x : NftM.Call} (h : NftM.call c w a x = .ok w')
    (hi : WInv c w) (hd : w.nfts.get n = some d) (hd' : w'.nfts.get n = some d')
    (hne : d'.owner ≠ d.owner) :
    Spec.OwnerMove c w n d.owner d'.owner (.call (.signed a) (.nft x)) := by
  have key := NftM.call_nfts h n
  rw [hd'] at key
  generalize hv : some d' = v at key
  cases key with
  | same => rw [hd] at hv; simp at hv; subst hv; exact absurd rfl hne
  | new d1 e => rw [e, hi.fresh _ (Nat.le_refl _)] at hd; simp at hd
  | burn => simp at hv
  | transfer d1 r e hd1 ho =>
    rw [hd] at hd1; simp at hd1; subst hd1; simp at hv; subst hv
    subst ho; subst e; exact .transfer rfl
  | secretShard d1 _ _ _ hd1 =>
    rw [hd] at hd1; simp at hd1; subst hd1; simp at hv; subst hv; exact absurd rfl hne
  | capsuleShard d1 _ _ _ hd1 =>
    rw [hd] at hd1; simp at hd1; subst hd1; simp at hv; subst hv; exact absurd rfl hne
  | edit d1 d2 hd1 ho =>
    rw [hd] at hd1; simp at hd1; subst hd1; simp at hv; subst hv; exact absurd ho hne

theorem auc_owner {n : NFTId} {d d' : NFTData} {x : AucM.Call} (h : AucM.Act c w a x w')
    (hi : WInv c w) (hd : w.nfts.get n = some d) (hd' : w'.nfts.get n = some d')
    (hne : d'.owner ≠ d.owner) :
    Spec.OwnerMove c w n d.owner d'.owner (.call (.signed a) (.auc x)) := by
  have same : w'.nfts.get n = some d → False := by
    intro e; rw [hd'] at e; simp at e; subst e; exact hne rfl
  cases h with
  | @create m _ _ _ _ _ d0 _ _ _ _ _ _ _ _ hd0 =>
    by_cases e : n = m
    · subst e
      rw [hd] at hd0; simp at hd0; subst hd0
      simp at hd'; subst hd'; exact absurd rfl hne
    · exact (same (by simp [FMap.get_insert, e, hd])).elim
  | @cancel m d0 x hd0 =>
    by_cases e : n = m
    · subst e
      rw [hd] at hd0; simp at hd0; subst hd0
      simp at hd'; subst hd'; exact absurd rfl hne
    · exact (same (by simp [FMap.get_insert, e, hd])).elim
  | @end_ m d0 x top b hd0 hx hxa _ ht =>
    by_cases e : n = m
    · subst e
      rw [hd] at hd0; simp at hd0; subst hd0
      simp at hd'; subst hd'
      have hcr := ((hi.good n).nft d hd).creator x hx
      exact .auction hx hcr ht (Or.inr (by rw [← hcr, hxa]))
    · exact (same (by simp [FMap.get_insert, e, hd])).elim
  | addBid => exact (same hd).elim
  | removeBid => exact (same hd).elim
  | @buyItNow m p d0 x b hd0 hx hp =>
    by_cases e : n = m
    · subst e
      rw [hd] at hd0; simp at hd0; subst hd0
      simp at hd'; subst hd'
      exact .buyItNow hx (((hi.good n).nft d hd).creator x hx) hp rfl
    · exact (same (by simp [FMap.get_insert, e, hd])).elim
  | claim => exact (same hd).elim

theorem hookAuc_quiet {now off} {s s' : Slice} (h : SliceRel c now off .hookAuc s s')
    (hn : s.auc = none) : s'.auc = none ∧ s'.nft = s.nft := by
  induction h with
  | refl => exact ⟨hn, rfl⟩
  | tail _ h2 ih =>
    obtain ⟨i1, i2⟩ := ih
    rw [← i2]
    generalize hk : Kind.hookAuc = k at h2
    cases h2 <;> try (simp_all; done)
    all_goals (rcases ‹_ ∨ _› with h | ⟨_, h⟩ <;> simp [← hk] at h)

theorem tr_owner {n : NFTId} {d d' : NFTData} {x : TrM.Call} (h : TrM.call c w a x = .ok w')
    (hd : w.nfts.get n = some d) (hd' : w'.nfts.get n = some d') (hne : d'.owner ≠ d.owner) :
    w.tr.trans.get n ≠ none := by
  have same : w'.nfts.get n = some d → False := by
    intro e; rw [hd'] at e; simp at e; subst e; exact hne rfl
  by_cases e : n = x.target
  · subst e
    intro hn
    cases x with
    | set m r p k =>
      simp only [TrM.call, TrM.set, TrM.Call.target] at h hd hd' hn
      inv_ok at h
      obtain ⟨d0, q, b, h0, hd0, ho, h1, h2, h3, h4, h5, h6, h7, h8, _, _, _, _, _, _, _, _, _, rfl⟩ := h
      rw [hd] at hd0; simp at hd0; subst hd0
      simp [World.ev, World.putNft, World.putBal] at hd'; subst hd'; exact hne rfl
    | remove m =>
      simp only [TrM.call, TrM.remove, TrM.Call.target] at h hn
      inv_ok at h
      obtain ⟨_, t, _, _, _, ht, _⟩ := h
      rw [hn] at ht; simp at ht
    | resetTimer m b =>
      simp only [TrM.call, TrM.resetTimer, TrM.Call.target] at h hn
      inv_ok at h
      obtain ⟨_, t, _, _, _, _, ht, _⟩ := h
      rw [hn] at ht; simp at ht
    | addConsent m =>
      simp only [TrM.call, TrM.Call.target] at h hn
      obtain ⟨_, t, _, _, _, ht, _⟩ := TrM.addConsent_ok h
      rw [hn] at ht; simp at ht
  · exact (same ((TrM.call_other h e).2.1.trans hd)).elim

/-- Whenever the owner of an NFT changes, it is by an act of the old owner, and the new owner is the one
meant. -/
theorem C03 (hc : c.Ok) (hr : Reach c w) (o : Op) (ho : o.Ok c) {n : NFTId} {d d' : NFTData}
    (hd : w.nfts.get n = some d) (hd' : (step c w o).nfts.get n = some d') (hne : d'.owner ≠ d.owner) :
    Spec.OwnerMove c w n d.owner d'.owner o := by
  have hi := hr.inv hc
  have key := step_case w o ho
  have trm := fun x hx => step_tr_move hc hr o ho (n := n) (x := x) hx hd
  have trans : w.tr.trans.get n ≠ none →
      (o = .hookTr ∨ ∃ a x, o = .call (.signed a) (.tr x)) →
      Spec.OwnerMove c w n d.owner d'.owner o := by
    intro hne' ho
    obtain ⟨x, hx⟩ := Option.ne_none_iff_exists'.1 hne'
    have := trm x hx
    generalize step c w o = w' at hd' this
    cases this with
    | stay _ h1 h2 => rw [hd'] at h1; simp at h1; subst h1; exact absurd h2 hne
    | reset _ _ _ h1 => rw [hd'] at h1; simp at h1; subst h1; exact absurd rfl hne
    | removed _ _ h1 => rw [hd'] at h1; simp at h1; subst h1; exact absurd rfl hne
    | hook _ _ _ _ h1 =>
      rw [hd'] at h1; simp at h1; subst h1; exact .transmission hx rfl (Or.inl rfl)
    | consent _ _ _ _ _ _ _ _ h1 =>
      rw [hd'] at h1; simp at h1; subst h1; exact .transmission hx rfl (Or.inr ⟨_, rfl⟩)
  generalize hw' : step c w o = w' at key hd'
  cases key with
  | nft x ha h => exact nft_owner h hi hd hd' hne
  | mkt x ha h => exact mkt_owner h hi hd hd' hne
  | auc x ha h => exact auc_owner (AucM.call_act h) hi hd hd' hne
  | rent x ha h => exact rent_owner (RentM.call_did h) hi hd hd' hne
  | tr x ha h => exact trans (tr_owner h hd hd' hne) (Or.inr ⟨_, _, rfl⟩)
  | hookAuc =>
    cases hx : w.auc.auctions.get n with
    | none =>
      have := (hookAuc_quiet (c := c) (AucM.hook_slice (off := fun _ _ => False) w n) hx).2
      have : (AucM.hook c w).nfts.get n = w.nfts.get n := this
      rw [hd', hd] at this; simp at this; subst this; exact absurd rfl hne
    | some x =>
      have hcr := ((hi.good n).nft d hd).creator x hx
      cases (AucM.pops_at (AucM.hook_pops w) (hr.auc hc) hx hd).1 with
      | stay _ h1 => rw [hd'] at h1; simp at h1; subst h1; exact absurd rfl hne
      | won h1 _ _ _ _ h2 =>
        rw [hd'] at h2; simp at h2; subst h2; exact .auction hx hcr h1 (Or.inl rfl)
      | noBid _ _ _ _ _ h2 => rw [hd'] at h2; simp at h2; subst h2; exact absurd rfl hne
      | missed _ _ _ _ _ h2 => rw [hd'] at h2; simp at h2; subst h2; exact absurd rfl hne
  | hookRent =>
    obtain ⟨_, d2, h1, h2⟩ := ticks_owner (hi.rent.ticks hr.micro.balInv) hd
    rw [hd'] at h1; simp at h1; subst h1
    rcases h2 with h2 | ⟨h2, _, m, k, hk, h3⟩
    · exact absurd h2 hne
    · exact .returned h2 hk h3 (Or.inl rfl)
  | hookTr =>
    refine trans ?_ (Or.inl rfl)
    intro hn
    obtain ⟨h1, _⟩ := TrM.hook_exact (c := c) hi.tr hi.good
    by_cases hs : n ∈ Queue.ids (TrM.served c w)
    · obtain ⟨t, _, e, _⟩ := h1.on n hs
      rw [hn] at e; simp at e
    · have := (h1.off n hs).2
      rw [hd', hd] at this; simp at this; subst this; exact absurd rfl hne
  | quiet _ _ hq =>
    rw [hq.nfts, hd] at hd'; simp at hd'; subst hd'; exact absurd rfl hne

/-- account 1 transfers NFT 0, which account 2 sells to account 3 -/
abbrev changes : List Op :=
  [Demo.mint1, Demo.by_ 1 (.nft (.transferNft 0 2)),
   Demo.by_ 4 (.mkt (.create .pub)), Demo.by_ 2 (.mkt (.list 0 0 100)), Demo.by_ 3 (.mkt (.buy 0 100))]

example : Reach Demo.cfg (Demo.at_ changes) ∧
    ((Demo.at_ (changes.take 1)).nfts.get 0).map (·.owner) = some 1 ∧
    ((Demo.at_ (changes.take 2)).nfts.get 0).map (·.owner) = some 2 ∧
    ((Demo.at_ changes).nfts.get 0).map (·.owner) = some 3 :=
  ⟨Demo.reach _ (by decide), by decide, by decide, by decide⟩

/- The records of `Spec.OwnerMove` are the owner's own acts. -/

/-- A sale was put up by its seller, with that price, and has stood since. -/
theorem C03_sale {w0 : World} (h0 : Genesis c w0) (l : List Op) (hl : ∀ o ∈ l, o.Ok c)
    {n : NFTId} {s : Sale} (h : (run c w0 l).mkt.sales.get n = some s) :
    ∃ l1 l2, l = l1 ++ .call (.signed s.seller) (.mkt (.list n s.mkt s.price)) :: l2 ∧
      ∀ l3 l4, l2 = l3 ++ l4 → (run c w0 (l1 ++ .call (.signed s.seller)
        (.mkt (.list n s.mkt s.price)) :: l3)).mkt.sales.get n = some s := by
  obtain ⟨l1, o, l2, rfl, rfl, h⟩ := run_since' (P := fun w => w.mkt.sales.get n = some s)
    (Q := fun _ o => o = .call (.signed s.seller) (.mkt (.list n s.mkt s.price)))
    (fun w o _ ho hp => by
      have := step_sale w o ho n
      rw [hp] at this
      generalize hv : some s = v at this
      cases this with
      | same => exact Or.inl rfl
      | list => simp at hv; subst hv; exact Or.inr rfl
      | unlist => simp at hv
      | buy => simp at hv) (.init h0) (by rw [h0.mkt.2.2]; simp) l hl h
  exact ⟨l1, l2, rfl, h⟩

/-- An auction was put up by its creator, and has stood since. -/
theorem C03_auction (hc : c.Ok) {w0 : World} (h0 : Genesis c w0) (l : List Op) (hl : ∀ o ∈ l, o.Ok c)
    {n : NFTId} {x : Auction} (h : (run c w0 l).auc.auctions.get n = some x) :
    ∃ l1 l2 fin, l = l1 ++ .call (.signed x.creator)
        (.auc (.create n x.mkt x.start fin x.startPrice x.buyIt)) :: l2 ∧
      ∀ l3 l4, l2 = l3 ++ l4 → ∃ y, (run c w0 (l1 ++ .call (.signed x.creator)
        (.auc (.create n x.mkt x.start fin x.startPrice x.buyIt)) :: l3)).auc.auctions.get n = some y ∧
        y.creator = x.creator := by
  obtain ⟨l1, o, l2, rfl, ⟨fin, rfl⟩, h⟩ := run_since'
    (P := fun w => ∃ y, w.auc.auctions.get n = some y ∧ y.creator = x.creator ∧ y.mkt = x.mkt ∧
      y.start = x.start ∧ y.startPrice = x.startPrice ∧ y.buyIt = x.buyIt)
    (Q := fun _ o => ∃ fin, o = .call (.signed x.creator)
        (.auc (.create n x.mkt x.start fin x.startPrice x.buyIt)))
    (fun w o hr ho ⟨y, hp, e1, e2, e3, e4, e5⟩ => by
      rw [← e1, ← e2, ← e3, ← e4, ← e5]
      clear e1 e2 e3 e4 e5
      cases hx : w.auc.auctions.get n with
      | some z =>
        left
        obtain ⟨d, hd⟩ := AucM.HasNft.of_good (hr.inv hc).good n z hx
        have ht := step_auc_turn hc hr o ho hx hd
        generalize step c w o = w' at ht hp
        cases ht with
        | stay h1 => rw [hp] at h1; simp at h1; subst h1; exact ⟨y, rfl, rfl, rfl, rfl, rfl, rfl⟩
        | cancel _ h1 => rw [hp] at h1; simp at h1
        | bid _ _ _ _ h1 => rw [hp] at h1; simp at h1; subst h1; exact ⟨z, rfl, rfl, rfl, rfl, rfl, rfl⟩
        | withdraw _ _ h1 => rw [hp] at h1; simp at h1; subst h1; exact ⟨z, rfl, rfl, rfl, rfl, rfl, rfl⟩
        | end_ _ _ h1 => rw [hp] at h1; simp at h1
        | buy _ _ _ _ h1 => rw [hp] at h1; simp at h1
        | won _ _ _ h1 => rw [hp] at h1; simp at h1
        | noBid _ _ _ h1 => rw [hp] at h1; simp at h1
      | none =>
        right
        rcases step_auc_case w o ho with ⟨a, u, rfl, ha, h⟩ | ⟨rfl, h⟩ | e
        · generalize step c w (.call (.signed a) (.auc u)) = w' at h hp
          cases h with
          | @create m _ _ _ _ _ d0 _ _ _ _ _ _ _ _ hd0 =>
            simp only [FMap.get_insert] at hp
            split at hp
            · simp at hp; subst hp; subst_vars; exact ⟨_, rfl⟩
            · rw [hx] at hp; simp at hp
          | cancel => simp only [FMap.get_erase] at hp; split at hp <;> simp [hx] at hp
          | end_ => simp only [FMap.get_erase] at hp; split at hp <;> simp [hx] at hp
          | addBid h1 =>
            simp only [FMap.get_insert] at hp
            split at hp
            · subst_vars; rw [hx] at h1; simp at h1
            · rw [hx] at hp; simp at hp
          | removeBid h1 =>
            simp only [FMap.get_insert] at hp
            split at hp
            · subst_vars; rw [hx] at h1; simp at h1
            · rw [hx] at hp; simp at hp
          | buyItNow => simp only [FMap.get_erase] at hp; split at hp <;> simp [hx] at hp
          | claim => simp only at hp; rw [hx] at hp; simp at hp
        · have := (hookAuc_quiet (c := c) (AucM.hook_slice (off := fun _ _ => False) w n) hx).1
          have : (AucM.hook c w).auc.auctions.get n = none := this
          rw [show step c w .hookAuc = AucM.hook c w from rfl, this] at hp; simp at hp
        · rw [e, hx] at hp; simp at hp)
    (.init h0) (by rw [h0.auc.1]; simp) l hl ⟨x, h, rfl, rfl, rfl, rfl, rfl⟩
  exact ⟨l1, l2, fin, rfl, fun l3 l4 e => by obtain ⟨y, h1, h2, _⟩ := h l3 l4 e; exact ⟨y, h1, h2⟩⟩

/-- A transmission was set by the owner of the NFT, who named the recipient and has owned the NFT
since. -/
theorem C03_transmission (hc : c.Ok) {w0 : World} (h0 : Genesis c w0) (l : List Op)
    (hl : ∀ o ∈ l, o.Ok c) {n : NFTId} {t : Transmission} {d : NFTData}
    (h : (run c w0 l).tr.trans.get n = some t) (hd : (run c w0 l).nfts.get n = some d) :
    ∃ l1 p l2, l = l1 ++ .call (.signed d.owner) (.tr (.set n t.recipient p t.cancellation)) :: l2 ∧
      ∀ l3 l4, l2 = l3 ++ l4 → ∃ d', (run c w0 (l1 ++ .call (.signed d.owner)
        (.tr (.set n t.recipient p t.cancellation)) :: l3)).nfts.get n = some d' ∧
        d'.owner = d.owner := by
  obtain ⟨l1, o, l2, rfl, ⟨p, rfl⟩, h⟩ := run_since'
    (P := fun w => ∃ y e, w.tr.trans.get n = some y ∧ w.nfts.get n = some e ∧ e.owner = d.owner ∧
      y.recipient = t.recipient ∧ y.cancellation = t.cancellation)
    (Q := fun _ o => ∃ p, o = .call (.signed d.owner) (.tr (.set n t.recipient p t.cancellation)))
    (fun w o hr ho ⟨y, f, hp, hf, e1, e2, e3⟩ => by
      rw [← e1, ← e2, ← e3]
      clear e1 e2 e3
      have hi := hr.inv hc
      clear h hd
      cases hx : w.tr.trans.get n with
      | some z =>
        left
        obtain ⟨d0, hd0⟩ := (hi.good n).some_of (fun e => by
          have := congrArg Slice.tr e; simp [slice, Slice.blank, hx] at this)
        have hd0 : w.nfts.get n = some d0 := hd0
        have ht := step_tr_move hc hr o ho hx hd0
        generalize step c w o = w' at ht hp hf
        cases ht with
        | stay h1 h2 h3 =>
          rw [hp] at h1; simp at h1; subst h1
          rw [hf] at h2; simp at h2; subst h2
          exact ⟨y, d0, rfl, hd0, h3.symm, rfl, rfl⟩
        | reset _ _ h1 h2 =>
          rw [hp] at h1; simp at h1; subst h1
          rw [hf] at h2; simp at h2; subst h2
          exact ⟨z, f, rfl, hd0, rfl, rfl, rfl⟩
        | removed _ h1 => rw [hp] at h1; simp at h1
        | hook _ _ _ h1 => rw [hp] at h1; simp at h1
        | consent _ _ _ _ _ _ _ h1 => rw [hp] at h1; simp at h1
      | none =>
        right
        rcases step_tr_case hc hr o ho with ⟨a, u, rfl, ha, h⟩ | rfl | ⟨e, _⟩
        · by_cases hn : n = u.target
          · subst hn
            generalize step c w (.call (.signed a) (.tr u)) = w' at h hp hf
            cases u with
            | set m r p k =>
              simp only [TrM.call, TrM.set, TrM.Call.target] at h hp hf hx ⊢
              inv_ok at h
              obtain ⟨d0, q, b, h0, hd0, ho, h1, h2, h3, h4, h5, h6, h7, h8, _, _, _, _, _, _, _, _, _, rfl⟩ := h
              simp [World.ev, World.putNft, World.putBal] at hf hp
              subst hf; subst hp; subst ho
              exact ⟨p, rfl⟩
            | remove m =>
              simp only [TrM.call, TrM.remove, TrM.Call.target] at h hx
              inv_ok at h
              obtain ⟨_, t, _, _, _, ht, _⟩ := h
              rw [hx] at ht; simp at ht
            | resetTimer m b =>
              simp only [TrM.call, TrM.resetTimer, TrM.Call.target] at h hx
              inv_ok at h
              obtain ⟨_, t, _, _, _, _, ht, _⟩ := h
              rw [hx] at ht; simp at ht
            | addConsent m =>
              simp only [TrM.call, TrM.Call.target] at h hx
              obtain ⟨_, t, _, _, _, ht, _⟩ := TrM.addConsent_ok h
              rw [hx] at ht; simp at ht
          · rw [(TrM.call_other h hn).1, hx] at hp; simp at hp
        · obtain ⟨h1, _⟩ := TrM.hook_exact (c := c) hi.tr hi.good
          have hp : (TrM.hook c w).tr.trans.get n = some y := hp
          by_cases hs : n ∈ Queue.ids (TrM.served c w)
          · obtain ⟨t, _, e, _⟩ := h1.on n hs
            rw [hx] at e; simp at e
          · rw [(h1.off n hs).1, hx] at hp; simp at hp
        · rw [e, hx] at hp; simp at hp)
    (.init h0) (by rw [h0.tr.1]; simp) l hl ⟨t, d, h, hd, rfl, rfl, rfl⟩
  exact ⟨l1, p, l2, rfl, fun l3 l4 e => by
    obtain ⟨y, f, _, h2, h3, _⟩ := h l3 l4 e; exact ⟨f, h2, h3⟩⟩

/-- A rent contract was created by its renter with these deposits, and has stood since. -/
theorem C03_contract (hc : c.Ok) {w0 : World} (h0 : Genesis c w0) (l : List Op) (hl : ∀ o ∈ l, o.Ok c)
    {n : NFTId} {k : Contract} (h : (run c w0 l).rent.contracts.get n = some k) :
    ∃ l1 dur rf l2, l = l1 ++ .call (.signed k.renter) (.rent (.create n dur k.acceptance
        k.renterCanRevoke rf k.renterFee k.renteeFee)) :: l2 ∧
      ∀ l3 l4, l2 = l3 ++ l4 → ∃ k', (run c w0 (l1 ++ .call (.signed k.renter)
        (.rent (.create n dur k.acceptance k.renterCanRevoke rf k.renterFee k.renteeFee)) ::
          l3)).rent.contracts.get n = some k' ∧ k'.renter = k.renter := by
  obtain ⟨l1, o, l2, rfl, ⟨dur, rf, rfl⟩, h⟩ := run_since'
    (P := fun w => ∃ y, w.rent.contracts.get n = some y ∧ y.renter = k.renter ∧
      y.acceptance = k.acceptance ∧ y.renterCanRevoke = k.renterCanRevoke ∧
      y.renterFee = k.renterFee ∧ y.renteeFee = k.renteeFee)
    (Q := fun _ o => ∃ dur rf, o = .call (.signed k.renter) (.rent (.create n dur k.acceptance
        k.renterCanRevoke rf k.renterFee k.renteeFee)))
    (fun w o hr ho ⟨y, hk, e1, e2, e3, e4, e5⟩ => by
      rw [← e1, ← e2, ← e3, ← e4, ← e5]
      clear e1 e2 e3 e4 e5
      cases hk0 : w.rent.contracts.get n with
      | none =>
        right
        rcases step_rent_case hc hr o ho with ⟨a, x, rfl, _, hd⟩ | ⟨rfl, hd⟩ | e
        · generalize step c w _ = w' at hd hk
          cases hd with
          | create h =>
            obtain ⟨d, b, q, _, hd, _, hv, _, _, _, _, _, _, _, _, _, _, _, _, _, _, rfl⟩ :=
              RentM.create_ok h
            simp only [FMap.get_insert] at hk
            split at hk
            · simp only [Option.some.injEq] at hk; subst hk; subst_vars; exact ⟨_, _, rfl⟩
            · rw [hk0] at hk; simp at hk
          | cancel => simp only [FMap.get_erase] at hk; split at hk <;> simp [hk0] at hk
          | revoke h =>
            obtain ⟨k', r, d, b0, b1, b2, hk', hr, hp, hcr, hd, h0, h1, h2, _, rfl⟩ := RentM.revoke_ok h
            simp only [FMap.get_erase] at hk; split at hk <;> simp [hk0] at hk
          | start h1 h2 h3 =>
            obtain ⟨F, S, e⟩ := h3.rent
            rw [e] at hk
            simp only [FMap.get_insert] at hk
            split at hk
            · subst_vars; rw [hk0] at h1; simp at h1
            · rw [hk0] at hk; simp at hk
          | makeOffer => rw [hk0] at hk; simp at hk
          | retractOffer => rw [hk0] at hk; simp at hk
          | changeTerms h1 =>
            simp only [FMap.get_insert] at hk
            split at hk
            · subst_vars; rw [hk0] at h1; simp at h1
            · rw [hk0] at hk; simp at hk
          | acceptTerms h1 =>
            simp only [FMap.get_insert] at hk
            split at hk
            · subst_vars; rw [hk0] at h1; simp at h1
            · rw [hk0] at hk; simp at hk
        · rw [hd.none hk0] at hk; simp at hk
        · rw [e, hk0] at hk; simp at hk
      | some k0 =>
        left
        have ht := step_rent_turn hc hr o ho hk0
        generalize step c w o = w' at ht hk
        cases ht with
        | stay h => rw [hk] at h; simp at h; subst h; exact ⟨y, rfl, rfl, rfl, rfl, rfl, rfl⟩
        | cancel _ h => rw [hk] at h; simp at h
        | revoke _ _ h => rw [hk] at h; simp at h
        | start _ _ _ h => rw [hk] at h; simp at h; subst h; exact ⟨k0, rfl, rfl, rfl, rfl, rfl, rfl⟩
        | change _ _ h => rw [hk] at h; simp at h; subst h; exact ⟨k0, rfl, rfl, rfl, rfl, rfl, rfl⟩
        | accept _ _ _ _ _ h => rw [hk] at h; simp at h; subst h; exact ⟨k0, rfl, rfl, rfl, rfl, rfl, rfl⟩
        | over _ _ _ h => rw [hk] at h; simp at h)
    (.init h0) (by rw [h0.rent.1]; simp) l hl ⟨k, h, rfl, rfl, rfl, rfl, rfl⟩
  exact ⟨l1, dur, rf, l2, rfl, fun l3 l4 e => by obtain ⟨y, h1, h2, _⟩ := h l3 l4 e; exact ⟨y, h1, h2⟩⟩

/-- account 1 has one NFT on sale, one in auction, one in transmission and one for rent -/
abbrev putUp : List Op :=
  [Demo.mint1, Demo.mint1, Demo.mint1, Demo.mint1, Demo.by_ 4 (.mkt (.create .pub)),
   Demo.by_ 1 (.mkt (.list 0 0 100)), Demo.by_ 1 (.auc (.create 1 0 3 20 50 none)),
   Demo.by_ 1 (.tr (.set 2 5 (.atBlock 30) .none)),
   Demo.by_ 1 (.rent (.create 3 (.fixed 10) (.auto none) true (.tokens 10) .none .none))]

example : Genesis Demo.cfg Demo.w0 ∧ (∀ o ∈ putUp, o.Ok Demo.cfg) ∧
    (run Demo.cfg Demo.w0 putUp).mkt.sales.get 0 ≠ none ∧
    (run Demo.cfg Demo.w0 putUp).auc.auctions.get 1 ≠ none ∧
    (run Demo.cfg Demo.w0 putUp).tr.trans.get 2 ≠ none ∧
    (run Demo.cfg Demo.w0 putUp).nfts.get 2 ≠ none ∧
    (run Demo.cfg Demo.w0 putUp).rent.contracts.get 3 ≠ none :=
  ⟨Demo.genesis, by decide, by decide, by decide, by decide, by decide, by decide⟩

example := C03 Demo.cfg_ok (Demo.reach (changes.take 1) (by decide)) (Demo.by_ 1 (.nft (.transferNft 0 2)))
  (by decide) (n := 0) (d := _) (d' := _) rfl rfl (by decide)

example := C03_sale Demo.genesis putUp (by decide) (n := 0) (s := _) rfl

example := C03_auction Demo.cfg_ok Demo.genesis putUp (by decide) (n := 1) (x := _) rfl

example := C03_transmission Demo.cfg_ok Demo.genesis putUp (by decide) (n := 2) (t := _) (d := _) rfl rfl

example := C03_contract Demo.cfg_ok Demo.genesis putUp (by decide) (n := 3) (k := _) rfl
