import Verif.Proofs.RentQ
import Verif.Proofs.SliceRent
import Verif.Proofs.Pays
/-
The rent pallet holds exactly what its contracts say: deposits and solvency, and their
preservation by the pallet's calls and hook.
-/
namespace RentM
variable {c : Cfg} {w w' : World} {a : AccountId}

/-- tokens held for a contract -/
def owed (k : Contract) : Balance := feeTokens k.renterFee + renteeTokens k

/-- tokens held for all contracts -/
def owedAll (w : World) : Balance := w.rent.contracts.sumBy fun _ k => owed k

/-- NFTs and tokens of all contracts are there. -/
structure Dep (c : Cfg) (w : World) : Prop where
  ok : ∀ n k, w.rent.contracts.get n = some k → ConOk c w n k
  nft : ∀ n k, w.rent.contracts.get n = some k → ∃ d, w.nfts.get n = some d
  renter : ∀ n k, w.rent.contracts.get n = some k → ¬ c.pot k.renter
  disj : ∀ n k n' k' m, w.rent.contracts.get n = some k → w.rent.contracts.get n' = some k' →
    deposits n k m → deposits n' k' m → n = n'

/-- a held NFT is not the subject of a contract -/
theorem Dep.held_ne (h : Dep c w) {n k m} (hk : w.rent.contracts.get n = some k)
    (hm : Held c w m) : m ≠ n := by
  rintro rfl
  obtain ⟨d, h1, h2, h3⟩ := hm
  have := (h.ok m k hk).owner d h1
  simp [valid, this.2] at h3

/-- a usable NFT of an ordinary account is neither held nor the subject of a contract -/
theorem Dep.free (h : Dep c w) {x d} (hx : w.nfts.get x = some d) (ho : ¬ c.pot d.owner)
    (hv : valid d.st = true) :
    ¬ Held c w x ∧ ∀ k, w.rent.contracts.get x ≠ some k := by
  refine ⟨?_, ?_⟩
  · rintro ⟨d', h1, h2, _⟩
    rw [hx] at h1; simp at h1; subst h1
    exact ho (h2 ▸ Or.inr (Or.inl rfl))
  · intro k hk
    have := (h.ok x k hk).owner d hx
    simp [valid, this.2] at hv

/-- nothing that concerns contracts changes -/
theorem Dep.frame (h : Dep c w) (hr : w'.rent.contracts = w.rent.contracts)
    (h1 : ∀ m, Held c w m → Held c w' m)
    (h2 : ∀ n k d, w.rent.contracts.get n = some k → w.nfts.get n = some d →
      ∃ d', w'.nfts.get n = some d' ∧ d'.owner = d.owner ∧ d'.st.rented = d.st.rented) :
    Dep c w' := by
  refine ⟨?_, ?_, ?_, ?_⟩ <;> rw [hr]
  · intro n k hk
    obtain ⟨p1, p2, p3, p4⟩ := h.ok n k hk
    refine ⟨fun m hm => h1 m (p1 m hm), p2, p3, fun d' hd' => ?_⟩
    obtain ⟨d, hd⟩ := h.nft n k hk
    obtain ⟨d2, e1, e2, e3⟩ := h2 n k d hk hd
    rw [hd'] at e1; simp at e1; subst e1
    rw [e2, e3]; exact p4 d hd
  · intro n k hk
    obtain ⟨d, hd⟩ := h.nft n k hk
    obtain ⟨d2, e1, _⟩ := h2 n k d hk hd
    exact ⟨d2, e1⟩
  · exact h.renter
  · exact h.disj

/-- a contract ends and its NFTs move -/
theorem Dep.ended (h : Dep c w) {n k} (hk : w.rent.contracts.get n = some k)
    (hr : w'.rent.contracts = w.rent.contracts.erase n)
    (hn : ∀ i, i ≠ n → ¬ deposits n k i → w'.nfts.get i = w.nfts.get i) : Dep c w' := by
  have held : ∀ n' k', n' ≠ n → w.rent.contracts.get n' = some k' → ∀ m, deposits n' k' m →
      Held c w' m := by
    intro n' k' hne hk' m hm
    obtain ⟨d, h1, h2, h3⟩ := (h.ok n' k' hk').held m hm
    refine ⟨d, ?_, h2, h3⟩
    rw [hn m (h.held_ne hk ⟨d, h1, h2, h3⟩) (fun hd => hne (h.disj _ _ _ _ _ hk' hk hm hd)), h1]
  have nft : ∀ n' k', n' ≠ n → w.rent.contracts.get n' = some k' →
      w'.nfts.get n' = w.nfts.get n' := by
    intro n' k' hne hk'
    exact hn n' hne fun hd => h.held_ne hk' ((h.ok n k hk).held _ hd) rfl
  refine ⟨?_, ?_, ?_, ?_⟩ <;> rw [hr] <;> simp only [FMap.get_erase]
  · intro n' k' hk'
    split at hk'
    · simp at hk'
    · rename_i hne
      obtain ⟨p1, p2, p3, p4⟩ := h.ok n' k' hk'
      refine ⟨held n' k' hne hk', p2, p3, fun d hd => ?_⟩
      rw [nft n' k' hne hk'] at hd; exact p4 d hd
  · intro n' k' hk'
    split at hk'
    · simp at hk'
    · rename_i hne; rw [nft n' k' hne hk']; exact h.nft n' k' hk'
  · intro n' k' hk'
    split at hk'
    · simp at hk'
    · exact h.renter n' k' hk'
  · intro n1 k1 n2 k2 m h1 h2 d1 d2
    split at h1
    · simp at h1
    · split at h2
      · simp at h2
      · exact h.disj _ _ _ _ _ h1 h2 d1 d2

/-- a contract is added or replaced -/
theorem Dep.put (h : Dep c w) {n k'} (hr : w'.rent.contracts = w.rent.contracts.insert n k')
    (hh : ∀ m, Held c w m → w'.nfts.get m = w.nfts.get m)
    (hn : ∀ i k, w.rent.contracts.get i = some k → i ≠ n → w'.nfts.get i = w.nfts.get i)
    (hd : ∀ m, deposits n k' m → (∃ k, w.rent.contracts.get n = some k ∧ deposits n k m) ∨
      ¬ Held c w m)
    (ho : ConOk c w' n k') (he : ∃ d, w'.nfts.get n = some d) (hp : ¬ c.pot k'.renter) :
    Dep c w' := by
  have hdisj : ∀ n' k2 m, w.rent.contracts.get n' = some k2 → n' ≠ n → deposits n' k2 m →
      ¬ deposits n k' m := by
    intro n' k2 m h1 h2 d1 d2
    rcases hd m d2 with ⟨k, hk, d3⟩ | h3
    · exact h2 (h.disj _ _ _ _ _ h1 hk d1 d3)
    · exact h3 ((h.ok n' k2 h1).held m d1)
  refine ⟨?_, ?_, ?_, ?_⟩ <;> rw [hr] <;> simp only [FMap.get_insert]
  · intro n1 k1 h1
    split at h1
    · rename_i e; subst e; simp at h1; subst h1; exact ho
    · rename_i hne
      obtain ⟨p1, p2, p3, p4⟩ := h.ok n1 k1 h1
      refine ⟨fun m hm => ?_, p2, p3, fun d hd => ?_⟩
      · obtain ⟨d, q1, q2, q3⟩ := p1 m hm
        exact ⟨d, by rw [hh m ⟨d, q1, q2, q3⟩]; exact q1, q2, q3⟩
      · rw [hn n1 k1 h1 hne] at hd; exact p4 d hd
  · intro n1 k1 h1
    split at h1
    · rename_i e; subst e; exact he
    · rename_i hne; rw [hn n1 k1 h1 hne]; exact h.nft n1 k1 h1
  · intro n1 k1 h1
    split at h1
    · simp at h1; subst h1; exact hp
    · exact h.renter n1 k1 h1
  · intro n1 k1 n2 k2 m h1 h2 d1 d2
    split at h1
    · rename_i e1
      split at h2
      · rename_i e2; rw [e1, e2]
      · rename_i e2; subst e1; simp at h1; subst h1
        exact absurd d1 (hdisj _ _ _ h2 e2 d2)
    · rename_i e1
      split at h2
      · rename_i e2; subst e2; simp at h2; subst h2
        exact absurd d2 (hdisj _ _ _ h1 e1 d1)
      · exact h.disj _ _ _ _ _ h1 h2 d1 d2

/-! ### sums -/

theorem owed_ok {now} {k : Contract} (h : ConWF c now k) :
    (feeTokens k.renterFee = 0 ∨ c.ed < feeTokens k.renterFee) ∧
    (renteeTokens k = 0 ∨ c.ed < renteeTokens k) := by
  refine ⟨h.amount1, ?_⟩
  unfold renteeTokens
  split
  · exact h.amount2
  · exact Or.inl rfl

theorem sum_zero_or {f : NFTId → Contract → Balance} {ed : Balance} (m : FMap NFTId Contract)
    (h : ∀ n k, m.get n = some k → f n k = 0 ∨ ed ≤ f n k) : m.sumBy f = 0 ∨ ed ≤ m.sumBy f := by
  by_cases hz : ∀ n k, m.get n = some k → f n k = 0
  · exact Or.inl (FMap.sumBy_zero hz)
  · simp only [not_forall] at hz
    obtain ⟨n, k, hk, hne⟩ := hz
    have := FMap.sumBy_le_of_get (f := f) hk
    rcases h n k hk with h | h
    · exact absurd h hne
    · exact Or.inr (by omega)

/-- what is left when contract `n` is settled -/
def owedRest (w : World) (n : NFTId) : Balance := (w.rent.contracts.erase n).sumBy fun _ k => owed k

theorem owedRest_ok (hq : QInv c w.now w.rent) (n : NFTId) :
    owedRest w n = 0 ∨ c.ed ≤ owedRest w n := by
  refine sum_zero_or _ fun m k hk => ?_
  simp only [FMap.get_erase] at hk
  split at hk
  · simp at hk
  · have := owed_ok (hq.con m k hk)
    unfold owed; omega

theorem owed_split {n k} (hk : w.rent.contracts.get n = some k) :
    owedAll w = owed k + owedRest w n := by
  unfold owedAll owedRest
  rw [FMap.sumBy_split _ _ n, hk]

theorem owed_split_none {n} (hk : w.rent.contracts.get n = none) :
    owedAll w = owedRest w n := by
  unfold owedAll owedRest
  rw [FMap.sumBy_split _ _ n, hk]; simp

/-- The rent pallet's invariant. -/
structure RInv (c : Cfg) (w : World) : Prop where
  q : QInv c w.now w.rent
  dep : Dep c w
  solv : owedAll w ≤ w.bal.freeOf c.rentPot

/-- a contract of ordinary participants -/
theorem RInv.parties (h : RInv c w) {n k} (hk : w.rent.contracts.get n = some k) :
    c.rentPot ≠ k.renter ∧ ∀ r, k.rentee = some r → c.rentPot ≠ r := by
  have hp : c.pot c.rentPot := Or.inr (Or.inl rfl)
  refine ⟨?_, ?_⟩
  · intro e; exact h.dep.renter n k hk (e ▸ hp)
  · intro r hr e; exact (h.q.con n k hk).rentee r hr (e ▸ hp)

/-- Settling an ended contract always succeeds. -/
theorem RInv.finish_succeeds (h : RInv c w) (hb : BalInv c w.bal) {n k}
    (hk : w.rent.contracts.get n = some k) : ∃ w', handleFinished c n w = (w', .ok ()) := by
  obtain ⟨d, hd⟩ := h.dep.nft n k hk
  have kw := h.q.con n k hk
  obtain ⟨o1, o2⟩ := owed_ok kw
  have hs := h.solv
  rw [owed_split hk] at hs
  have hrest := owedRest_ok h.q n
  obtain ⟨pr, pe⟩ := h.parties hk
  have hf : w.bal.frozen c.rentPot = 0 := hb.pots _ (Or.inr (Or.inl rfl))
  obtain ⟨b1, hb1, hl1⟩ := Bal.transfer_solvent (ed := c.ed) (d := k.renter)
    (v := feeTokens k.renterFee) (o := renteeTokens k + owedRest w n) hf
    (by unfold owed at hs; omega) (by omega) (by omega) pr
  have hf1 : b1.frozen c.rentPot = 0 := by rw [Bal.frozen_mono (Bal.transfer_mono hb1), hf]
  have hn1 : ∀ m, feeNft k.renterFee = some m → ∃ d, w.nfts.get m = some d := by
    intro m hm
    by_cases e : m = n
    · subst e; exact ⟨d, hd⟩
    · obtain ⟨d', h1, _⟩ := (h.dep.ok n k hk).held m (Or.inl ⟨hm, e⟩); exact ⟨d', h1⟩
  have hn2 : ∀ m, renteeNft k = some m → ∃ d, w.nfts.get m = some d := by
    intro m hm
    obtain ⟨d', h1, _⟩ := (h.dep.ok n k hk).held m (Or.inr hm); exact ⟨d', h1⟩
  have chown : ∀ (w : World) (m : Option NFTId) (x : AccountId),
      (∀ i, m = some i → ∃ d, w.nfts.get i = some d) →
      ∃ w', chownOpt m x w = (w', .ok ()) ∧ ∀ i, (∃ d, w.nfts.get i = some d) →
        ∃ d, w'.nfts.get i = some d := by
    intro w m x hm
    cases m with
    | none => exact ⟨w, rfl, fun i h => h⟩
    | some m =>
      obtain ⟨d, hd⟩ := hm m rfl
      refine ⟨w.putNft m { d with owner := x }, by simp [chownOpt, chownAct, hd], ?_⟩
      rintro i ⟨d', hd'⟩
      simp only [World.putNft, FMap.get_insert]
      split
      · exact ⟨_, rfl⟩
      · exact ⟨d', hd'⟩
  have pay1 : payAct c c.rentPot k.renter (feeTokens k.renterFee) .allowDeath w =
      (w.putBal b1, .ok ()) := by unfold payAct; rw [hb1]
  unfold handleFinished
  simp only [hk, hd, Act.seq, pay1]
  cases hr : k.rentee with
  | none =>
    obtain ⟨w3, h3, _⟩ := chown (w.putBal b1) (feeNft k.renterFee) k.renter hn1
    simp only [Act.skip, h3]
    exact ⟨_, rfl⟩
  | some r =>
    have e1 : renteeTokens k = feeTokens k.renteeFee := by simp [renteeTokens, hr]
    have e2 : renteeNft k = feeNft k.renteeFee := by simp [renteeNft, hr]
    rw [e1] at hl1 o2
    obtain ⟨b2, hb2, hl2⟩ := Bal.transfer_solvent (ed := c.ed) (d := r)
      (v := feeTokens k.renteeFee) (o := owedRest w n) hf1 (by omega) hrest (by omega) (pe r hr)
    have pay2 : payAct c c.rentPot r (feeTokens k.renteeFee) .allowDeath (w.putBal b1) =
        ((w.putBal b1).putBal b2, .ok ()) := by
      unfold payAct; simp only [World.putBal]; rw [hb2]
    obtain ⟨w3, h3, h3'⟩ := chown ((w.putBal b1).putBal b2) (feeNft k.renterFee) k.renter hn1
    obtain ⟨w4, h4, _⟩ := chown w3 (feeNft k.renteeFee) r
      (fun i hi => h3' i (hn2 i (e2 ▸ hi)))
    simp only [pay2, h3, h4]
    exact ⟨_, rfl⟩

/-- dropping `n` from every queue -/
def drop (w : World) (n : NFTId) : World :=
  { w with rent := { w.rent with
    fixedQ := w.rent.fixedQ.remove n, subQ := w.rent.subQ.remove n
    availQ := w.rent.availQ.remove n } }

/-- A settled contract that also leaves the queues keeps the invariant. -/
theorem RInv.finished (h : RInv c w) {n} (hf : handleFinished c n w = (w', .ok ())) :
    RInv c (drop w' n) := by
  obtain ⟨k, d, b1, b2, hk, hd, h1, h2, rfl⟩ := finished_ok hf
  have kw := h.q.con n k hk
  obtain ⟨o1, o2⟩ := owed_ok kw
  have hs := h.solv
  rw [owed_split hk] at hs
  have hrest := owedRest_ok h.q n
  unfold owed at hs
  have l1 := Bal.transfer_left (o := renteeTokens k + owedRest w n) h1 (by omega) (by omega)
  have l2 := Bal.transfer_left (o := owedRest w n) h2 (by omega) (by omega)
  refine ⟨h.q.ended, h.dep.ended hk rfl ?_, l2⟩
  intro i hi hdep
  simp only [drop, FMap.get_insert, hi, if_false, get_cho]
  have e1 : ¬ feeNft k.renterFee = some i := fun e => hdep (Or.inl ⟨e, hi⟩)
  have e2 : ¬ renteeNft k = some i := fun e => hdep (Or.inr e)
  simp [e1, e2]

/-- The same for a revocation. -/
theorem RInv.revoked (h : RInv c w) {n} (hf : revoke c w a n = .ok w') : RInv c w' := by
  obtain ⟨k, r, d, b0, b1, b2, hk, hr, hp, hcr, hd, h0, h1, h2, _, rfl⟩ := revoke_ok hf
  have kw := h.q.con n k hk
  obtain ⟨o1, o2⟩ := owed_ok kw
  have e1 : renteeTokens k = feeTokens k.renteeFee := by simp [renteeTokens, hr]
  have e2 : renteeNft k = feeNft k.renteeFee := by simp [renteeNft, hr]
  have hs := h.solv
  rw [owed_split hk] at hs
  have hrest := owedRest_ok h.q n
  unfold owed at hs
  rw [e1] at hs o2
  have hrun : k.rentee ≠ none := by rw [hr]; simp
  have hq : QInv c w.now { removeKind w.rent k.duration n with
      contracts := w.rent.contracts.erase n } := by
    have hq := h.q.ended (n := n)
    have na := Queue.remove_of_not_mem (h.q.notA hk hrun)
    unfold removeKind
    cases hd : k.duration with
    | fixed x =>
      rw [Queue.remove_of_not_mem (h.q.notS hk (Or.inr ⟨x, hd⟩)), na] at hq
      exact hq
    | sub x =>
      rw [Queue.remove_of_not_mem (h.q.notF hk (Or.inr ⟨x, hd⟩)), na] at hq
      exact hq
  have hdep : Dep c { w with
      bal := b2
      nfts := (cho (cho w.nfts (feeNft (if k.renter = a then k.renteeFee else k.renterFee))
        (if k.renter = a then r else k.renter))
        (feeNft (if k.renter = a then k.renterFee else k.renteeFee))
        (if k.renter = a then r else k.renter)).insert n
          { d with st := { d.st with rented := false } }
      rent := { removeKind w.rent k.duration n with
        contracts := w.rent.contracts.erase n } } := by
    refine h.dep.ended hk rfl ?_
    intro i hi hdep
    have e3 : ¬ feeNft k.renterFee = some i := fun e => hdep (Or.inl ⟨e, hi⟩)
    have e4 : ¬ feeNft k.renteeFee = some i := fun e => hdep (Or.inr (e2 ▸ e))
    simp only [FMap.get_insert, hi, if_false, get_cho]
    by_cases hra : k.renter = a <;> simp [hra, e3, e4]
  refine ⟨hq, hdep, ?_⟩
  show owedRest w n ≤ b2.freeOf c.rentPot
  have key : ∀ (f g : CancelFee), (feeTokens f = 0 ∨ c.ed < feeTokens f) →
      (feeTokens g = 0 ∨ c.ed < feeTokens g) →
      feeTokens f + feeTokens g + owedRest w n ≤ w.bal.freeOf c.rentPot →
      w.bal.transfer c.ed c.rentPot (if k.renter = a then r else k.renter) (feeTokens f)
        .allowDeath = .ok b0 →
      b0.transfer c.ed c.rentPot a (keptPart k w.now g) .allowDeath = .ok b1 →
      b1.transfer c.ed c.rentPot (if k.renter = a then r else k.renter)
        (feeTokens g - keptPart k w.now g) .allowDeath = .ok b2 →
      owedRest w n ≤ b2.freeOf c.rentPot := by
    intro f g hf hg hs h0 h1 h2
    have kp := keptPart_le k w.now g
    have l0 := Bal.transfer_left (o := feeTokens g + owedRest w n) h0 (by omega) (by omega)
    by_cases hz : owedRest w n = 0
    · omega
    · have l1 := Bal.transfer_left (o := (feeTokens g - keptPart k w.now g) + owedRest w n) h1
        (by omega) (by omega)
      exact Bal.transfer_left (o := owedRest w n) h2 (by omega) (by omega)
  by_cases hra : k.renter = a
  · rw [if_pos hra] at h0 h1 h2
    simp only [if_pos hra] at h0 h1 h2
    refine key k.renteeFee k.renterFee o2 o1 (by omega) ?_ h1 ?_ <;> rw [if_pos hra]
    · exact h0
    · exact h2
  · simp only [if_neg hra] at h0 h1 h2
    refine key k.renterFee k.renteeFee o1 o2 (by omega) ?_ h1 ?_ <;> rw [if_neg hra]
    · exact h0
    · exact h2

/-- starting a contract -/
theorem RInv.start (h : RInv c w) {n k r} (hs : startContract c w n k r = .ok w')
    (hk : w.rent.contracts.get n = some k) (hn : k.rentee = none) (hr : ¬ c.pot r) : RInv c w' := by
  obtain ⟨w1, q, h1, h2, rfl⟩ := startContract_ok hs
  obtain ⟨b1, b2, hb1, hb2, c1, c2, rfl⟩ := takeFees_ok h1
  have hp : c.pot c.rentPot := Or.inr (Or.inl rfl)
  have hrp : r ≠ c.rentPot := by rintro rfl; exact hr hp
  have hkp : k.renter ≠ c.rentPot := by intro e; exact h.dep.renter n k hk (e ▸ hp)
  have hf1 : ∀ x, rentNft k.rentFee = some x →
      ¬ Held c w x ∧ ∀ k, w.rent.contracts.get x ≠ some k := fun x hx => by
    obtain ⟨d, g1, g2, g3⟩ := c1 x hx
    exact h.dep.free g1 (g2 ▸ hr) g3
  have hf2 : ∀ x, feeNft k.renteeFee = some x →
      ¬ Held c w x ∧ ∀ k, w.rent.contracts.get x ≠ some k := fun x hx => by
    obtain ⟨d, g1, g2, g3⟩ := c2 x hx
    exact h.dep.free g1 (g2 ▸ hr) g3
  have hsame : ∀ i, ¬ rentNft k.rentFee = some i → ¬ feeNft k.renteeFee = some i →
      (cho (cho w.nfts (rentNft k.rentFee) k.renter) (feeNft k.renteeFee) c.rentPot).get i =
        w.nfts.get i := by
    intro i e1 e2; simp [get_cho, e1, e2]
  have hheld : ∀ m, Held c w m →
      (cho (cho w.nfts (rentNft k.rentFee) k.renter) (feeNft k.renteeFee) c.rentPot).get m =
        w.nfts.get m := fun m hm =>
    hsame m (fun e => (hf1 m e).1 hm) (fun e => (hf2 m e).1 hm)
  have hcon : ∀ i k', w.rent.contracts.get i = some k' →
      (cho (cho w.nfts (rentNft k.rentFee) k.renter) (feeNft k.renteeFee) c.rentPot).get i =
        w.nfts.get i := fun i k' hi =>
    hsame i (fun e => (hf1 i e).2 k' hi) (fun e => (hf2 i e).2 k' hi)
  have kw := h.q.con n k hk
  have hrn : renteeNft k = none := by simp [renteeNft, hn]
  refine ⟨h.q.started hk hn hr h2, ?_, ?_⟩
  · refine h.dep.put (n := n) (k' := { k with rentee := some r, start := some w.now }) rfl hheld
      (fun i k' hi _ => hcon i k' hi) ?_ ?_ ?_ (h.dep.renter n k hk)
    · intro m hm
      rcases hm with ⟨e, hne⟩ | e
      · exact Or.inl ⟨k, hk, Or.inl ⟨e, hne⟩⟩
      · have e : feeNft k.renteeFee = some m := by simpa [renteeNft] using e
        exact Or.inr (hf2 m e).1
    · obtain ⟨p1, p2, p3, p4⟩ := h.dep.ok n k hk
      have e0 : renteeNft { k with rentee := some r, start := some w.now } = feeNft k.renteeFee := by
        simp [renteeNft]
      refine ⟨?_, ?_, ?_, ?_⟩
      · intro m hm
        rcases hm with ⟨e, hne⟩ | e
        · obtain ⟨d, q1, q2, q3⟩ := p1 m (Or.inl ⟨e, hne⟩)
          exact ⟨d, by rw [← q1]; exact hheld m ⟨d, q1, q2, q3⟩, q2, q3⟩
        · rw [e0] at e
          obtain ⟨d, g1, g2, g3⟩ := c2 m e
          refine ⟨{ d with owner := c.rentPot }, ?_, rfl, g3⟩
          by_cases e1 : rentNft k.rentFee = some m <;> simp [get_cho, e, e1, g1]
      · rw [e0]; intro e; exact (hf2 n e).2 k hk
      · rw [e0]; intro m e e'
        by_cases hne : m = n
        · subst hne; exact (hf2 m e).2 k hk
        · exact (hf2 m e).1 (p1 m (Or.inl ⟨e', hne⟩))
      · intro d hd
        have hd : (cho (cho w.nfts (rentNft k.rentFee) k.renter) (feeNft k.renteeFee)
          c.rentPot).get n = some d := hd
        rw [hcon n k hk] at hd; exact p4 d hd
    · obtain ⟨d, hd⟩ := h.dep.nft n k hk
      exact ⟨d, by rw [← hd]; exact hcon n k hk⟩
  · show FMap.sumBy _ (w.rent.contracts.insert n _) ≤ b2.freeOf c.rentPot
    rw [FMap.sumBy_insert]
    have hs := h.solv
    rw [owed_split hk] at hs
    have e1 : owed { k with rentee := some r, start := some w.now } =
        owed k + feeTokens k.renteeFee := by simp [owed, renteeTokens, hn]
    show owed { k with rentee := some r, start := some w.now } + owedRest w n ≤ _
    have t1 : b1.freeOf c.rentPot = w.bal.freeOf c.rentPot := by
      by_cases hrr : r = k.renter
      · subst hrr; rw [Bal.transfer_self hb1]
      · rw [Bal.transfer_keep hb1 _ hrr]; simp [Ne.symm hkp, Ne.symm hrp]
    have t2 := Bal.transfer_keep hb2 c.rentPot hrp
    simp only [if_true] at t2
    omega

theorem allowsCancel_sub {u u' f} (h : allowsCancel (.sub u) f = true) :
    allowsCancel (.sub u') f = true := by cases f <;> simp_all [allowsCancel]

theorem allowsRent_sub {u u' f} (h : allowsRent (.sub u) f = true) :
    allowsRent (.sub u') f = true := by cases f <;> simp_all [allowsRent]

/-- Signed calls keep the invariant. -/
theorem RInv.call (h : RInv c w) {x : Call} (ha : ¬ c.pot a)
    (hx : RentM.call c w a x = .ok w') : RInv c w' := by
  have hp : c.pot c.rentPot := Or.inr (Or.inl rfl)
  cases x with
  | create n dur acc rv rf f1 f2 =>
    obtain ⟨d, b, q, hl, hd, ho, hv, g1, g2, g3, g4, g5, g6, g7, g8, g9, g10, g11, hb, hx1, hq, rfl⟩ :=
      create_ok hx
    obtain ⟨fn1, fn2⟩ := h.dep.free hd (ho ▸ ha) hv
    have hnone : w.rent.contracts.get n = none := by
      cases e : w.rent.contracts.get n with
      | none => rfl
      | some k => exact absurd e (fn2 k)
    obtain ⟨_, rfl⟩ := Queue.insert_some hq
    have hfx : ∀ x, feeNft f1 = some x →
        ¬ Held c w x ∧ ∀ k, w.rent.contracts.get x ≠ some k := fun x hxx => by
      obtain ⟨d, g1, g2, g3⟩ := hx1 x hxx
      exact h.dep.free g1 (g2 ▸ ha) g3
    have hsame : ∀ i, i ≠ n → ¬ feeNft f1 = some i →
        ((cho w.nfts (feeNft f1) c.rentPot).insert n
          { d with st := { d.st with rented := true } }).get i = w.nfts.get i := by
      intro i hi e; simp [FMap.get_insert, hi, get_cho, e]
    have hheld : ∀ m, Held c w m →
        ((cho w.nfts (feeNft f1) c.rentPot).insert n
          { d with st := { d.st with rented := true } }).get m = w.nfts.get m := by
      intro m hm
      exact hsame m (by rintro rfl; exact fn1 hm) (fun e => (hfx m e).1 hm)
    refine ⟨?_, ?_, ?_⟩
    · refine h.q.create hnone hl ?_ rfl rfl
      exact ⟨by simp, ⟨g2, g1⟩, ⟨g4, g3⟩, g5, g6, g7, g10, g11, by simp, Nat.le_refl _, by simp⟩
    · refine h.dep.put (n := n) rfl hheld ?_ ?_ ?_ ?_ ha
      · intro i k hi hne
        exact hsame i hne (fun e => (hfx i e).2 k hi)
      · intro m hm
        rcases hm with ⟨e, hne⟩ | e
        · exact Or.inr (hfx m e).1
        · simp [renteeNft] at e
      · refine ⟨?_, by simp [renteeNft], by simp [renteeNft], ?_⟩
        · intro m hm
          rcases hm with ⟨e, hne⟩ | e
          · obtain ⟨d', k1, k2, k3⟩ := hx1 m e
            have e : feeNft f1 = some m := e
            refine ⟨{ d' with owner := c.rentPot }, ?_, rfl, k3⟩
            simp [FMap.get_insert, hne, get_cho, e, k1]
          · simp [renteeNft] at e
        · intro d' hd'
          simp at hd'; subst hd'; exact ⟨ho, rfl⟩
      · exact ⟨_, FMap.get_insert_self _ _ _⟩
    · show FMap.sumBy _ (w.rent.contracts.insert n _) ≤ b.freeOf c.rentPot
      rw [FMap.sumBy_insert]
      have hs := h.solv
      rw [owed_split_none hnone] at hs
      have t := Bal.transfer_keep hb c.rentPot (by rintro rfl; exact ha hp)
      simp only [if_true] at t
      show (feeTokens f1 + renteeTokens _) + owedRest w n ≤ _
      simp only [renteeTokens, Option.isSome_none, Bool.false_eq_true, if_false]
      omega
  | cancel n =>
    simp only [RentM.call, cancel] at hx
    inv_ok at hx
    obtain ⟨k, hk, h1, h2, hx⟩ := hx
    have hx := ext_ok hx
    have i1 : RInv c { w with rent := { w.rent with offers := w.rent.offers.erase n } } := by
      refine ⟨?_, ?_, h.solv⟩
      · exact h.q.setOffers (o := none) (by simp) (by simp)
      · obtain ⟨p1, p2, p3, p4⟩ := h.dep
        exact ⟨fun n k hk => ⟨(p1 n k hk).1, (p1 n k hk).2, (p1 n k hk).3, (p1 n k hk).4⟩, p2, p3, p4⟩
    -- removing `n` from the availability queue first changes nothing else
    have hkk : (w.rent.contracts.get n) = some k := hk
    obtain ⟨k', d, b1, b2, hk', hd, t1, t2, rfl⟩ := finished_ok hx
    have : k = k' := Option.some.inj (hk.symm.trans hk')
    subst this
    have nF := Queue.remove_of_not_mem (h.q.notF hk (Or.inl h2))
    have nS := Queue.remove_of_not_mem (h.q.notS hk (Or.inl h2))
    have kw := h.q.con n k hk
    obtain ⟨o1, o2⟩ := owed_ok kw
    have hs := h.solv
    rw [owed_split hk] at hs
    have hrest := owedRest_ok h.q n
    unfold owed at hs
    have l1 := Bal.transfer_left (o := renteeTokens k + owedRest w n) t1
      (by show _ ≤ w.bal.freeOf c.rentPot; omega) (by omega)
    have l2 := Bal.transfer_left (o := owedRest w n) t2 (by omega) (by omega)
    refine ⟨?_, ?_, l2⟩
    · have := i1.q.ended (n := n)
      simp only [nF, nS] at this
      exact this
    · refine i1.dep.ended hk rfl ?_
      intro i hi hdep
      simp only [FMap.get_insert, hi, if_false, get_cho]
      have e1 : ¬ feeNft k.renterFee = some i := fun e => hdep (Or.inl ⟨e, hi⟩)
      have e2 : ¬ renteeNft k = some i := fun e => hdep (Or.inr e)
      simp [e1, e2]
  | revoke n => exact h.revoked hx
  | rent n b =>
    simp only [RentM.call, rent] at hx
    inv_ok at hx
    obtain ⟨k, hk, h1, h2, h3, h4, h5, hx⟩ := hx
    exact h.start hx hk h2 ha
  | makeOffer n b =>
    simp only [RentM.call, makeOffer] at hx
    inv_ok at hx
    obtain ⟨k, _, hk, h1, h2, h3, h4, h5, h6, h7, h8, h9, h10, h11, rfl⟩ := hx
    rename_i hk0
    refine ⟨?_, ?_, h.solv⟩
    · have kw := h.q.con n k hk
      refine h.q.setOffers (o := some ((w.rent.offers.get n).getD [] ++ [a])) ?_ ?_
      · intro _ k' hk'
        rw [hk] at hk'; simp at hk'; subst hk'
        exact kw.start.1 h2
      · intro l hl x hx
        simp at hl; subst hl
        rcases List.mem_append.1 hx with hx | hx
        · cases e : w.rent.offers.get n with
          | none => simp [e] at hx
          | some l0 => rw [e] at hx; exact h.q.offersOk n l0 e x hx
        · simp at hx; subst hx; exact ha
    · obtain ⟨p1, p2, p3, p4⟩ := h.dep
      exact ⟨fun n k hk => ⟨(p1 n k hk).1, (p1 n k hk).2, (p1 n k hk).3, (p1 n k hk).4⟩, p2, p3, p4⟩
  | acceptOffer n r =>
    simp only [RentM.call, acceptOffer] at hx
    inv_ok at hx
    obtain ⟨k, l, hk, hl, h1, h2, hx⟩ := hx
    refine h.start hx hk ?_ (h.q.offersOk n l hl r h2)
    by_contra hc
    have := h.q.offers n k hk hc
    rw [hl] at this; simp at this
  | retractOffer n =>
    simp only [RentM.call, retractOffer] at hx
    inv_ok at hx
    obtain ⟨l, hl, h1, rfl⟩ := hx
    refine ⟨?_, ?_, h.solv⟩
    · refine h.q.setOffers (o := some (l.erase a)) ?_ ?_
      · intro _ k' hk'
        by_contra hc
        have := h.q.offers n k' hk' hc
        rw [hl] at this; simp at this
      · intro l' hl' x hx
        simp at hl'; subst hl'
        exact h.q.offersOk n l hl x (List.mem_of_mem_erase hx)
    · obtain ⟨p1, p2, p3, p4⟩ := h.dep
      exact ⟨fun n k hk => ⟨(p1 n k hk).1, (p1 n k hk).2, (p1 n k hk).3, (p1 n k hk).4⟩, p2, p3, p4⟩
  | changeTerms n f p m ch =>
    simp only [RentM.call, changeTerms] at hx
    inv_ok at hx
    obtain ⟨k, hk, h1, h2, h3, h4, h5, h6, rfl⟩ := hx
    obtain ⟨u, hu⟩ : ∃ u, k.duration = .sub u := by
      cases e : k.duration with
      | fixed d => simp [e, canAdjust] at h2
      | sub u => exact ⟨u, rfl⟩
    have kw := h.q.con n k hk
    have kw' : ConWF c w.now { k with
        duration := .sub { period := p, maxDur := m.getD c.rentMaxDur, changeable := ch, newTerms := true }
        rentFee := .tokens f } := by
      obtain ⟨j1, j2, j3, j4, j5, j6, j7, j8, j9, j10, j11⟩ := kw
      rw [hu] at j5 j6
      exact ⟨j1, ⟨h5, h3⟩, ⟨h6, h4⟩, rfl, allowsCancel_sub j5, allowsCancel_sub j6, j7, j8, j9, j10, j11⟩
    refine ⟨?_, ?_, ?_⟩
    · have := h.q.terms hk (k' := { k with
        duration := .sub { period := p, maxDur := m.getD c.rentMaxDur, changeable := ch, newTerms := true }
        rentFee := .tokens f }) rfl rfl rfl hu rfl kw'
      dsimp only
      split
      · exact this
      · exact this.setOffers (o := none) (by simp) (by simp)
    · refine h.dep.put (n := n) rfl (fun _ _ => rfl) (fun _ _ _ _ => rfl) ?_ ?_ (h.dep.nft n k hk)
        (h.dep.renter n k hk)
      · intro m hm; exact Or.inl ⟨k, hk, hm⟩
      · obtain ⟨p1, p2, p3, p4⟩ := h.dep.ok n k hk
        exact ⟨p1, p2, p3, p4⟩
    · show FMap.sumBy _ (w.rent.contracts.insert n _) ≤ _
      rw [FMap.sumBy_insert]
      have hs := h.solv
      rw [owed_split hk] at hs
      exact hs
  | acceptTerms n f p m ch =>
    simp only [RentM.call, acceptTerms] at hx
    inv_ok at hx
    obtain ⟨k, s, hk, h1, h2, h3, h4, h5, h6, h7, rfl⟩ := hx
    have hu : k.duration = .sub s := by
      split at h1
      · rename_i e; simp at h1; subst h1; exact e
      · simp at h1
    have kw := h.q.con n k hk
    have kw' : ConWF c w.now { k with duration := .sub { s with newTerms := false } } := by
      obtain ⟨j1, j2, j3, j4, j5, j6, j7, j8, j9, j10, j11⟩ := kw
      rw [hu] at j2 j3 j4 j5 j6
      exact ⟨j1, j2, j3, allowsRent_sub j4, allowsCancel_sub j5, allowsCancel_sub j6, j7, j8, j9, j10, j11⟩
    refine ⟨?_, ?_, ?_⟩
    · exact h.q.terms hk (k' := { k with duration := .sub { s with newTerms := false } })
        rfl rfl rfl hu rfl kw'
    · refine h.dep.put (n := n) rfl (fun _ _ => rfl) (fun _ _ _ _ => rfl) ?_ ?_ (h.dep.nft n k hk)
        (h.dep.renter n k hk)
      · intro m hm; exact Or.inl ⟨k, hk, hm⟩
      · obtain ⟨p1, p2, p3, p4⟩ := h.dep.ok n k hk
        exact ⟨p1, p2, p3, p4⟩
    · show FMap.sumBy _ (w.rent.contracts.insert n _) ≤ _
      rw [FMap.sumBy_insert]
      have hs := h.solv
      rw [owed_split hk] at hs
      exact hs

end RentM
