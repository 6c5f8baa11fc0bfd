import Verif.Proofs.SliceNft
import Verif.Proofs.RentSpec
/-
The rent pallet's calls as slice transitions, under the pallet's deposit invariant.
-/
variable {c : Cfg} {w w' : World} {a : AccountId} {off : AccountId → AccountId → Prop}

namespace RentM

/-- NFT `m` lies in the pallet's account and is not in use. -/
def Held (c : Cfg) (w : World) (m : NFTId) : Prop :=
  ∃ d, w.nfts.get m = some d ∧ d.owner = c.rentPot ∧ valid d.st = true

/-- NFTs a contract holds as deposits. The renter may name the rented NFT itself; nothing is
deposited then. -/
def deposits (n : NFTId) (k : Contract) (m : NFTId) : Prop :=
  (feeNft k.renterFee = some m ∧ m ≠ n) ∨ renteeNft k = some m

/-- What one contract's slice transitions need to know. -/
structure ConOk (c : Cfg) (w : World) (n : NFTId) (k : Contract) : Prop where
  held : ∀ m, deposits n k m → Held c w m
  self : renteeNft k ≠ some n
  diff : ∀ m, renteeNft k = some m → feeNft k.renterFee ≠ some m
  owner : ∀ d, w.nfts.get n = some d → d.owner = k.renter ∧ d.st.rented = true

theorem finished_slice {n kd} (h : handleFinished c n w = (w', .ok ()))
    (ho : ∀ k, w.rent.contracts.get n = some k → ConOk c w n k)
    (hkd : kd = .hookRent ∨
      ∃ a, kd = .rent a ∧ ∀ k, w.rent.contracts.get n = some k → k.renter = a ∧ k.rentee = none)
    (i : NFTId) : SliceRel c w.now off kd (slice w i) (slice w' i) := by
  obtain ⟨k, d, b1, b2, hk, hd, _, _, rfl⟩ := finished_ok h
  have hc := ho k hk
  have hkd' : kd = .hookRent ∨ ∃ a, kd = .rent a := by
    rcases hkd with h | ⟨a, h, _⟩
    · exact Or.inl h
    · exact Or.inr ⟨a, h⟩
  rcases eq_or_ne i n with rfl | hi
  · rcases hkd with rfl | ⟨a, rfl, h2⟩
    · exact .one (.conExpire hd hk) (by ext1 <;> simp [slice])
    · exact .one (.conCancel hd hk (h2 k hk).1 (h2 k hk).2) (by ext1 <;> simp [slice])
  · by_cases h1 : feeNft k.renterFee = some i
    · obtain ⟨x, hx, hox, hvx⟩ := hc.held i (Or.inl ⟨h1, hi⟩)
      have h2 : renteeNft k ≠ some i := fun h2 => hc.diff i h2 h1
      refine .one (.release k.renter hx hox hvx hkd') ?_
      ext1 <;> simp [slice, FMap.get_insert, FMap.get_erase, hi, get_cho, h1, h2, hx]
    · by_cases h2 : renteeNft k = some i
      · obtain ⟨x, hx, hox, hvx⟩ := hc.held i (Or.inr h2)
        refine .one (.release (k.rentee.getD 0) hx hox hvx hkd') ?_
        ext1 <;> simp [slice, FMap.get_insert, FMap.get_erase, hi, get_cho, h1, h2, hx]
      · refine .of_eq ?_
        ext1 <;> simp [slice, FMap.get_insert, FMap.get_erase, hi, get_cho, h1, h2]

theorem revoke_slice {n} (h : revoke c w a n = .ok w')
    (ho : ∀ k, w.rent.contracts.get n = some k → ConOk c w n k) (i : NFTId) :
    SliceRel c w.now off (.rent a) (slice w i) (slice w' i) := by
  obtain ⟨k, r, d, b0, b1, b2, hk, hr, hp, hcr, hd, _, _, _, _, rfl⟩ := revoke_ok h
  have hc := ho k hk
  have hkd' : (Kind.rent a = .hookRent ∨ ∃ b, Kind.rent a = .rent b) := Or.inr ⟨a, rfl⟩
  have hrn : renteeNft k = feeNft k.renteeFee := by simp [renteeNft, hr]
  have hself : feeNft k.renteeFee ≠ some n := hrn ▸ hc.self
  by_cases hra : k.renter = a
  · simp only [hra, if_true] at hd ⊢
    rcases eq_or_ne i n with rfl | hi
    · rw [get_cho, get_cho] at hd
      simp only [hself, if_false] at hd
      by_cases h1 : feeNft k.renterFee = some i
      · simp only [h1, if_true, Option.map_eq_some_iff] at hd
        obtain ⟨d0, hd0, rfl⟩ := hd
        exact .one (.selfDeposit hd0 hk hr hra (hcr hra)) (by ext1 <;> simp [slice])
      · simp only [h1, if_false] at hd
        exact .one (.conRevoke hd hk hr (Or.inl ⟨hra, hcr hra⟩)) (by ext1 <;> simp [slice])
    · by_cases h1 : feeNft k.renterFee = some i
      · obtain ⟨x, hx, hox, hvx⟩ := hc.held i (Or.inl ⟨h1, hi⟩)
        have h2 : feeNft k.renteeFee ≠ some i := fun h2 => hc.diff i (hrn ▸ h2) h1
        refine .one (.release r hx hox hvx hkd') ?_
        ext1 <;> simp [slice, FMap.get_insert, FMap.get_erase, hi, get_cho, h1, h2, hx]
      · by_cases h2 : feeNft k.renteeFee = some i
        · obtain ⟨x, hx, hox, hvx⟩ := hc.held i (Or.inr (hrn ▸ h2))
          refine .one (.release r hx hox hvx hkd') ?_
          ext1 <;> simp [slice, FMap.get_insert, FMap.get_erase, hi, get_cho, h1, h2, hx]
        · refine .of_eq ?_
          ext1 <;> simp [slice, FMap.get_insert, FMap.get_erase, hi, get_cho, h1, h2]
  · have hra' : r = a := hp.resolve_left hra
    simp only [hra, if_false] at hd ⊢
    rcases eq_or_ne i n with rfl | hi
    · rw [get_cho, get_cho] at hd
      simp only [hself, if_false] at hd
      have hd' : w.nfts.get i = some d := by
        by_cases h1 : feeNft k.renterFee = some i
        · simp only [h1, if_true, Option.map_eq_some_iff] at hd
          obtain ⟨d0, hd0, rfl⟩ := hd
          rw [hd0, ← (hc.owner d0 hd0).1]
        · simpa only [h1, if_false] using hd
      exact .one (.conRevoke hd' hk hr (Or.inr hra')) (by ext1 <;> simp [slice])
    · by_cases h1 : feeNft k.renterFee = some i
      · obtain ⟨x, hx, hox, hvx⟩ := hc.held i (Or.inl ⟨h1, hi⟩)
        have h2 : feeNft k.renteeFee ≠ some i := fun h2 => hc.diff i (hrn ▸ h2) h1
        refine .one (.release k.renter hx hox hvx hkd') ?_
        ext1 <;> simp [slice, FMap.get_insert, FMap.get_erase, hi, get_cho, h1, h2, hx]
      · by_cases h2 : feeNft k.renteeFee = some i
        · obtain ⟨x, hx, hox, hvx⟩ := hc.held i (Or.inr (hrn ▸ h2))
          refine .one (.release k.renter hx hox hvx hkd') ?_
          ext1 <;> simp [slice, FMap.get_insert, FMap.get_erase, hi, get_cho, h1, h2, hx]
        · refine .of_eq ?_
          ext1 <;> simp [slice, FMap.get_insert, FMap.get_erase, hi, get_cho, h1, h2]

theorem start_slice {n k r} (h : startContract c w n k r = .ok w')
    (hk : w.rent.contracts.get n = some k) (ho : ConOk c w n k)
    (hr : (r = a ∧ k.rentee = none ∧ k.renter ≠ a) ∨
      (k.renter = a ∧ ∃ l, w.rent.offers.get n = some l ∧ r ∈ l)) (i : NFTId) :
    SliceRel c w.now (offered w i) (.rent a) (slice w i) (slice w' i) := by
  obtain ⟨w1, q, h1, h2, rfl⟩ := startContract_ok h
  obtain ⟨b1, b2, _, _, c1, c2, rfl⟩ := takeFees_ok h1
  have hn1 : rentNft k.rentFee ≠ some n := by
    intro e; obtain ⟨d, h1, _, h3⟩ := c1 n e
    have := (ho.owner d h1).2; simp [valid, this] at h3
  have hn2 : feeNft k.renteeFee ≠ some n := by
    intro e; obtain ⟨d, h1, _, h3⟩ := c2 n e
    have := (ho.owner d h1).2; simp [valid, this] at h3
  rcases eq_or_ne i n with rfl | hi
  · rcases hr with ⟨rfl, e1, e2⟩ | ⟨rfl, l, hl, hm⟩
    · refine .one (.conRent hk e1 e2) ?_
      ext1 <;> simp [slice, get_cho, hn1, hn2]
    · refine .one (.conAccept r hk rfl) ?_
      ext1 <;> simp [slice, get_cho, hn1, hn2]
  · have key : rentNft k.rentFee = some i ∨ feeNft k.renteeFee = some i → r = a ∨ offered w i r a := by
      intro h
      rcases hr with ⟨rfl, _⟩ | ⟨e, l, hl, hm⟩
      · exact Or.inl rfl
      · exact Or.inr ⟨n, k, l, hk, e, hl, hm, h⟩
    by_cases e2 : feeNft k.renteeFee = some i
    · obtain ⟨d, hd, hdo, hv⟩ := c2 i e2
      refine .one (.give c.rentPot hd hv (hdo ▸ key (Or.inr e2))) ?_
      by_cases e1 : rentNft k.rentFee = some i <;>
      ext1 <;> simp [slice, get_cho, FMap.get_insert, hi, e1, e2, hd]
    · by_cases e1 : rentNft k.rentFee = some i
      · obtain ⟨d, hd, hdo, hv⟩ := c1 i e1
        refine .one (.give k.renter hd hv (hdo ▸ key (Or.inl e1))) ?_
        ext1 <;> simp [slice, get_cho, FMap.get_insert, hi, e1, e2, hd]
      · refine .of_eq ?_
        ext1 <;> simp [slice, get_cho, FMap.get_insert, hi, e1, e2]

/-- What depositing the renter's cancellation NFT does. -/
theorem depositRenterNft_ok {m} (h : depositRenterNft c w a m = .ok w') :
    (∀ x, m = some x → ∃ d, w.nfts.get x = some d ∧ d.owner = a ∧ valid d.st = true) ∧
    w' = { w with nfts := cho w.nfts m c.rentPot } := by
  unfold depositRenterNft at h
  split at h
  · inv_ok at h; subst h; simp [cho]
  · inv_ok at h
    obtain ⟨d, hd, h1, h2, rfl⟩ := h
    simp [cho, hd, World.putNft, h1, h2]

/-- What creating a contract does. -/
theorem create_ok {n dur acc rv rf f1 f2} (h : create c w a n dur acc rv rf f1 f2 = .ok w') :
    ∃ d b q,
      w.rent.fixedQ.length + w.rent.subQ.length + w.rent.availQ.length + 1 ≤ c.rentLimit ∧
      w.nfts.get n = some d ∧ d.owner = a ∧ valid d.st = true ∧
      full (toDuration c.rentMaxDur dur) ≤ c.rentMaxDur ∧
      0 < full (toDuration c.rentMaxDur dur) ∧
      period (toDuration c.rentMaxDur dur) ≤ c.rentMaxDur ∧
      0 < period (toDuration c.rentMaxDur dur) ∧
      allowsRent (toDuration c.rentMaxDur dur) rf = true ∧
      allowsCancel (toDuration c.rentMaxDur dur) f1 = true ∧
      allowsCancel (toDuration c.rentMaxDur dur) f2 = true ∧
      (∀ id ∈ rentNft rf, (w.nfts.get id).isSome) ∧
      (∀ id ∈ feeNft f2, (w.nfts.get id).isSome) ∧
      (feeTokens f1 = 0 ∨ c.ed < feeTokens f1) ∧
      (feeTokens f2 = 0 ∨ c.ed < feeTokens f2) ∧
      w.bal.transfer c.ed a c.rentPot (feeTokens f1) .keepAlive = .ok b ∧
      (∀ x, feeNft f1 = some x → ∃ d, w.nfts.get x = some d ∧ d.owner = a ∧ valid d.st = true) ∧
      Queue.insert c.rentLimit w.rent.availQ n (w.now + c.rentAvail) = some q ∧
      w' = { w with
        bal := b
        nfts := (cho w.nfts (feeNft f1) c.rentPot).insert n
          { d with st := { d.st with rented := true } }
        rent := { w.rent with
          availQ := q
          contracts := w.rent.contracts.insert n
            { start := none, renter := a, rentee := none,
              duration := toDuration c.rentMaxDur dur, acceptance := acc,
              renterCanRevoke := rv, rentFee := rf, renterFee := f1,
              renteeFee := f2, creation := w.now } }
        evs := .contractCreated n w.now :: w.evs } := by
  unfold create at h
  inv_ok at h
  obtain ⟨d, b, w1, q, g1, hd, ho, hv, g2, g3, g4, g5, g6, g7, g8, g9, g10, g11, g12, g13, g14, g15,
    rfl⟩ := h
  obtain ⟨g16, rfl⟩ := depositRenterNft_ok g14
  exact ⟨d, b, q, g1, hd, ho, hv, g2, g3, g4, g5, g6, g7, g8, g9, g10, g11, g12, g13, g16, g15, rfl⟩

theorem create_slice {n dur acc rv rf f1 f2} (h : create c w a n dur acc rv rf f1 f2 = .ok w')
    (i : NFTId) : SliceRel c w.now off (.rent a) (slice w i) (slice w' i) := by
  obtain ⟨d, b, q, _, hd, ho, hv, _, _, _, _, _, _, _, _, _, _, _, _, hx, _, rfl⟩ := create_ok h
  rcases eq_or_ne i n with rfl | hi
  · refine .one (.rentCreate _ hd ho hv ?_ ?_ ?_) (by ext1 <;> simp [slice]; rfl) <;> rfl
  · by_cases e : feeNft f1 = some i
    · obtain ⟨x, h1, h2, h3⟩ := hx i e
      refine .one (.give c.rentPot h1 h3 (Or.inl h2)) ?_
      ext1 <;> simp [slice, FMap.get_insert, hi, get_cho, e, h1]
    · refine .of_eq ?_
      ext1 <;> simp [slice, FMap.get_insert, hi, get_cho, e]

theorem call_slice {x : Call} (h : call c w a x = .ok w')
    (ho : ∀ n k, w.rent.contracts.get n = some k → ConOk c w n k) (i : NFTId) :
    SliceRel c w.now (offered w i) (.rent a) (slice w i) (slice w' i) := by
  cases x with
  | create => exact create_slice h i
  | cancel n =>
    simp only [call, cancel] at h
    inv_ok at h
    obtain ⟨k, hk, h1, h2, h⟩ := h
    have h := ext_ok h
    refine finished_slice h ?_ (Or.inr ⟨a, rfl, ?_⟩) i
    · intro k' hk'
      obtain ⟨p1, p2, p3, p4⟩ := ho n k' hk'
      exact ⟨p1, p2, p3, p4⟩
    · intro k' hk'
      have : k = k' := Option.some.inj (hk.symm.trans hk')
      subst this; exact ⟨h1, h2⟩
  | revoke n => exact revoke_slice h (ho n) i
  | rent n b =>
    simp only [call, rent] at h
    inv_ok at h
    obtain ⟨k, hk, h1, h2, h3, h4, h5, h⟩ := h
    exact start_slice h hk (ho n k hk) (Or.inl ⟨rfl, h2, h3⟩) i
  | makeOffer n b =>
    simp only [call, makeOffer] at h
    inv_ok at h
    obtain ⟨k, _, hk, h1, h2, h3, h4, h5, h6, h7, h8, h9, h10, h11, rfl⟩ := h
    exact .of_eq (NftM.slice_same rfl rfl rfl rfl rfl rfl rfl rfl rfl rfl rfl rfl _)
  | acceptOffer n r =>
    simp only [call, acceptOffer] at h
    inv_ok at h
    obtain ⟨k, l, hk, hl, h1, h2, h⟩ := h
    exact start_slice h hk (ho n k hk) (Or.inr ⟨h1, l, hl, h2⟩) i
  | retractOffer n =>
    simp only [call, retractOffer] at h
    inv_ok at h
    obtain ⟨l, _, _, rfl⟩ := h
    exact .of_eq (NftM.slice_same rfl rfl rfl rfl rfl rfl rfl rfl rfl rfl rfl rfl _)
  | changeTerms n f p m ch =>
    simp only [call, changeTerms] at h
    inv_ok at h
    obtain ⟨k, hk, h1, h2, h3, h4, h5, h6, rfl⟩ := h
    slice_at i n
    refine .one (.conTerms (.sub { period := p, maxDur := m.getD c.rentMaxDur, changeable := ch, newTerms := true })
      (.tokens f) hk (Or.inl h1.symm)) ?_
    ext1 <;> simp [slice]
  | acceptTerms n f p m ch =>
    simp only [call, acceptTerms] at h
    inv_ok at h
    obtain ⟨k, s, hk, h1, h2, h3, h4, h5, h6, h7, rfl⟩ := h
    slice_at i n
    refine .one (.conTerms (.sub { s with newTerms := false }) k.rentFee hk (Or.inr h2.symm)) ?_
    ext1 <;> simp [slice]

end RentM
