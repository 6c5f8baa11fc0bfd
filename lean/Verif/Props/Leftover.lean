import Verif.Proofs.Leftover
import Verif.Props.Nft
import Verif.Props.Auction
import Verif.Props.Rent
import Verif.Props.Tee
import Verif.Props.Transmission
/-
Nothing outlives what it belongs to.
-/
open Spec

variable {c : Cfg} {w : World}

/-! ## C99 -/

/-- C99 (partial): every sale, auction, contract, protocol, delegation, secret, capsule, list of shards, collection
membership, schedule entry and list of consents belongs to something that exists.  Missing: `Spec.NftRest`, see
`C99_fails_commission` and `C99_fails_offers`. -/
theorem C99_nft_partial (hc : c.Ok) (hr : Reach c w) : NftTidy w := by
  have hi := hr.inv hc
  have hq := hi.rent.q
  have ex : ∀ {α} (f : Slice → Option α) (n : NFTId), (∀ b, f (Slice.blank b) = none) → f (slice w n) ≠ none →
      ∃ d, w.nfts.get n = some d ∧ GoodNft c (slice w n) d := by
    intro α f n hf h
    cases hn : w.nfts.get n with
    | none => exact absurd (by rw [(hi.good n).gone hn]; exact hf _) h
    | some d => exact ⟨d, rfl, (hi.good n).nft d hn⟩
  have ne : ∀ {α} (f : Slice → Option α) (n : NFTId), (∀ b, f (Slice.blank b) = none) → f (slice w n) ≠ none →
      w.nfts.get n ≠ none := by
    intro α f n hf h
    obtain ⟨d, hd, _⟩ := ex f n hf h
    rw [hd]; simp
  refine ⟨fun n h => ne Slice.sale n (fun _ => rfl) h, fun n h => ne Slice.auc n (fun _ => rfl) h,
    fun n h => ne Slice.con n (fun _ => rfl) h, fun n h => ne Slice.tr n (fun _ => rfl) h,
    fun n h => ne Slice.deleg n (fun _ => rfl) h, fun n h => (C13_data hc hr n).1.1 h, fun n h => ?_,
    fun n h => (C13_data hc hr n).2.1 h, fun n h => ?_, fun k col n hk hm => ((hr.coll hc).mem k col hk n).1 hm,
    (hr.coll hc).ex, fun n b h => (hr.auc hc).inQ n b h, fun n b h => ?_, fun n b h => ?_, fun n b h => ?_,
    fun n h => ?_⟩
  · obtain ⟨d, hd, g⟩ := ex Slice.secretShards n (fun _ => rfl) h
    exact ⟨d, hd, g.shards h⟩
  · obtain ⟨d, hd, g⟩ := ex Slice.capsuleShards n (fun _ => rfl) h
    exact ⟨d, hd, g.shards' h⟩
  · obtain ⟨k, h1, h2, _⟩ := hq.inA n b h
    exact ⟨k, h1, h2⟩
  · rcases h with h | h
    · obtain ⟨k, _, _, h1, h2, _⟩ := hq.inF n b h
      exact ⟨k, h1, h2⟩
    · obtain ⟨k, _, _, h1, h2, _⟩ := hq.inS n b h
      exact ⟨k, h1, h2⟩
  · obtain ⟨x, h1, _⟩ := hi.tr.inQ n b h
    rw [h1]; simp
  · cases hl : w.tr.consents.get n with
    | none => exact absurd hl h
    | some l =>
      obtain ⟨x, _, h1, _⟩ := hi.tr.cons n l hl
      rw [h1]; simp

/-- C99 (partial): nobody's offer to rent is left on a running contract.  Missing: offers on contracts that expired
unused, see `C99_fails_offers`. -/
theorem C99_offers_partial (hc : c.Ok) (hr : Reach c w) {n : NFTId} {k : Contract}
    (h : w.rent.contracts.get n = some k) (h1 : k.rentee ≠ none) : w.rent.offers.get n = none :=
  (hr.inv hc).rent.q.offers n k h h1

/-- C99: every request, cluster seat, assignment era and stake belongs to a registered or assigned operator, and
every other stake is on its way out. -/
theorem C99_tee (hr : Reach c w) : TeeTidy w := by
  have hi := hr.tinv
  refine ⟨fun op h => ?_, hi.unrData, fun op h h1 => h ((hi.clu op).2 h1), fun op h h1 => h ((hi.era op).2 h1), hi.back,
    fun op k h => ?_, fun op s h => ?_⟩
  · cases hu : w.tee.updates.get op with
    | none => exact absurd hu h
    | some e => exact hi.upd op e hu
  · obtain ⟨cl, h1, _⟩ := hi.mem op k h
    rw [h1]; simp
  · cases hu : s.unlocking with
    | true => exact Or.inl rfl
    | false => exact Or.inr ((hr.held op s h hu).imp id And.left)

/-- C99 (partial): if root approves no update of an enclave, every known enclave address is the current one of an
assigned operator.  Missing: approved updates, see `C99_fails_addresses`. -/
theorem C99_addresses_partial {w0 : World} (h0 : Genesis c w0) (l : List Op) (hl : ∀ o ∈ l, o.Ok c)
    (hn : ∀ o ∈ l, ∀ op, ¬ Spec.orders o (.approveUpdate op)) : TeeRest (run c w0 l) := by
  have hx : ∀ (l : List Op) (v : World), Reach c v → (∀ o ∈ l, o.Ok c) →
      (∀ o ∈ l, ∀ op, ¬ Spec.orders o (.approveUpdate op)) → TeeM.Exact v.tee → TeeM.Exact (run c v l).tee := by
    intro l
    induction l with
    | nil => intro v _ _ _ h; exact h
    | cons o t ih =>
      intro v hv hl hn h
      have ho := hl o (by simp)
      refine ih (step c v o) (hv.step o ho) (fun x hx => hl x (by simp [hx])) (fun x hx => hn x (by simp [hx])) ?_
      exact step_exact hv o ho (fun op h1 => hn o (by simp) op (orders_iff.2 h1)) h
  exact hx l w0 (.init h0) hl hn (by
    obtain ⟨_, _, _, _, e, _⟩ := h0.tee
    intro x op; simp [e])

/-- C99: reports and paid rewards are kept for the last `history` eras only: after the block hook nothing is
recorded about older ones. -/
theorem C99_pruned (hc : 2 ≤ c.history) {w0 : World} (h0 : Genesis c w0) (l : List Op) (hl : ∀ o ∈ l, o.Ok c)
    (hp : EraPaced c w0 l) {E : Era} (h : Recorded (run c w0 (l ++ [.hookTee])) E) :
    ∃ A, (run c w0 (l ++ [.hookTee])).active = some A ∧ E ≤ A ∧ A < E + c.history := by
  have hp' : EraPaced c w0 (l ++ [.hookTee]) := by
    constructor
    · intro l1 e l2 hs
      rcases List.eq_nil_or_concat l2 with rfl | ⟨l3, o, rfl⟩
      · have := List.append_inj_right' hs rfl
        simp at this
      · have hs' : l ++ [.hookTee] = (l1 ++ .era e :: l3) ++ [o] := by rw [hs]; simp
        exact hp.next l1 e l3 (List.append_inj_left' hs' rfl)
    · intro l1 e l2 e' l3 hs
      rcases List.eq_nil_or_concat l3 with rfl | ⟨l4, o, rfl⟩
      · have hs' : l ++ [.hookTee] = (l1 ++ .era e :: l2) ++ [.era e'] := by rw [hs]; simp
        have := List.append_inj_right' hs' rfl
        simp at this
      · have hs' : l ++ [.hookTee] = (l1 ++ .era e :: (l2 ++ .era e' :: l4)) ++ [o] := by rw [hs]; simp
        exact hp.hook l1 e l2 e' l4 (List.append_inj_left' hs' rfl)
  obtain ⟨A, h1, h2, _, h3⟩ := run_pruned hc h0 (l ++ [.hookTee])
    (fun o ho => by
      rcases List.mem_append.1 ho with ho | ho
      · exact hl o ho
      · simp at ho; subst ho; trivial) hp' h
  refine ⟨A, h1, h2, h3 ?_⟩
  intro l1 e l2 hs
  rcases List.eq_nil_or_concat l2 with rfl | ⟨l3, o, rfl⟩
  · have := List.append_inj_right' hs rfl
    simp at this
  · have hs' : l ++ [.hookTee] = (l1 ++ .era e :: l3) ++ [o] := by rw [hs]; simp
    have := List.append_inj_right' hs' rfl
    simp at this; subst this; simp

/-- C99 fails for commissions: the commission noted for an auction stays in storage for ever. -/
theorem C99_commission_stays (hc : c.Ok) (hr : Reach c w) {n : NFTId} (h : w.auc.auctions.get n ≠ none) (l : List Op)
    (hl : ∀ o ∈ l, o.Ok c) : (run c w l).auc.comm.get n ≠ none := by
  have h1 : w.auc.comm.get n ≠ none := by
    cases hx : w.auc.auctions.get n with
    | none => exact absurd hx h
    | some x =>
      obtain ⟨f, hf, _⟩ := ((hr.auc hc).ok n x hx).comm
      rw [hf]; simp
  exact run_inv (P := fun w => w.auc.comm.get n ≠ none) (fun w o _ ho h => step_comm w o ho h) hr h1 l hl

/-- a way to compute `Spec.EraPaced` -/
def pacedB (c : Cfg) (w : World) (ready : Bool) : List Op → Bool
  | [] => true
  | o :: t => (match o with
    | .era e => ready && decide (∀ a ∈ w.active, e ≤ a + 1)
    | _ => true) && pacedB c (step c w o) (match o with
    | .era _ => false
    | .hookTee => true
    | _ => ready) t

theorem pacedB_next {w : World} {r : Bool} {l : List Op} (h : pacedB c w r l = true) {l1 e l2}
    (hs : l = l1 ++ .era e :: l2) {a} (ha : (run c w l1).active = some a) : e ≤ a + 1 := by
  induction l1 generalizing w r l with
  | nil =>
    subst hs
    simp only [List.nil_append, pacedB, Bool.and_eq_true, decide_eq_true_eq] at h
    exact h.1.2 a ha
  | cons o t ih =>
    subst hs
    simp only [List.cons_append, pacedB, Bool.and_eq_true] at h
    exact ih h.2 rfl ha

theorem pacedB_wait {w : World} {l : List Op} (h : pacedB c w false l = true) {l2 e l3}
    (hs : l = l2 ++ .era e :: l3) : .hookTee ∈ l2 := by
  induction l2 generalizing w l with
  | nil => subst hs; simp [pacedB] at h
  | cons o t ih =>
    subst hs
    by_cases ho : o = .hookTee
    · subst ho; simp
    · simp only [List.cons_append, pacedB, Bool.and_eq_true] at h
      refine List.mem_cons_of_mem _ (ih (w := step c w o) ?_ rfl)
      cases o <;> first | exact h.2 | exact absurd rfl ho

theorem pacedB_hook {w : World} {r : Bool} {l : List Op} (h : pacedB c w r l = true) {l1 e l2 e' l3}
    (hs : l = l1 ++ .era e :: (l2 ++ .era e' :: l3)) : .hookTee ∈ l2 := by
  induction l1 generalizing w r l with
  | nil =>
    subst hs
    simp only [List.nil_append, pacedB, Bool.and_eq_true] at h
    exact pacedB_wait h.2 rfl
  | cons o t ih =>
    subst hs
    simp only [List.cons_append, pacedB, Bool.and_eq_true] at h
    exact ih h.2 rfl

theorem Spec.EraPaced.of {w : World} {l : List Op} (h : pacedB c w true l = true) : EraPaced c w l :=
  ⟨fun _ _ _ hs _ ha => pacedB_next h hs ha, fun _ _ _ _ _ hs => pacedB_hook h hs⟩

namespace Demo
/-- server 7 reports on operator 8 for era 5, and `k` more eras begin at the usual pace -/
abbrev paced (k : Nat) : List Op :=
  enclaves ++ [.hookTee, .era 6, .hookTee, by_ 7 (.tee (.submitReport 8 ⟨⟨50, 50, 50, 50, 50⟩, 7⟩))] ++
    ((List.range k).map fun i => [Op.era (7 + i), .hookTee]).flatten
/-- the operator is paid for era 5, and one more era begins -/
abbrev paidUp : List Op := paced 2 ++ [by_ 8 (.tee (.claim 5)), .era 9]
/-- an auction ends and its NFT is burned -/
abbrev sold : List Op := auctioned ++ blocks 10 ++ [by_ 2 (.nft (.burnNft 0))]
/-- account 2 offers to rent NFT 0, the contract expires unused and the NFT is burned -/
abbrev ignored : List Op :=
  [mint1, by_ 1 (.rent (.create 0 (.fixed 10) (.manual none) true (.tokens 100) .none .none)),
    by_ 2 (.rent (.makeOffer 0 0))] ++ ticks 20 ++ [.hookRent, by_ 1 (.nft (.burnNft 0))]
/-- the chain jumps from era 6 to era 11 -/
abbrev jump : List Op := report ++ [.era 11, .hookTee]
end Demo

-- just before the hook there is a report and a reward for era 5, after it there is not
example : 2 ≤ Demo.cfg.history ∧ Genesis Demo.cfg Demo.w0 ∧ (∀ o ∈ Demo.paidUp, o.Ok Demo.cfg) ∧
    EraPaced Demo.cfg Demo.w0 Demo.paidUp ∧
    (run Demo.cfg Demo.w0 Demo.paidUp).tee.reports.get (5, 8) ≠ none ∧
    (run Demo.cfg Demo.w0 Demo.paidUp).tee.claimed.get (5, 8) ≠ none ∧
    (run Demo.cfg Demo.w0 (Demo.paidUp ++ [.hookTee])).tee.reports.get (5, 8) = none ∧
    (run Demo.cfg Demo.w0 (Demo.paidUp ++ [.hookTee])).tee.claimed.get (5, 8) = none ∧
    Recorded (run Demo.cfg Demo.w0 (Demo.paced 2 ++ [.hookTee])) 5 :=
  ⟨by decide, Demo.genesis, by decide, .of (by decide), by decide, by decide, by decide, by decide,
    8, Or.inl (by decide)⟩

-- a running contract that had an offer
example : Reach Demo.cfg (Demo.at_ (Demo.ignored.take 3 ++ [Demo.by_ 1 (.rent (.acceptOffer 0 2))])) ∧
    (Demo.at_ (Demo.ignored.take 3)).rent.offers.get 0 = some [2] ∧
    (∃ k, (Demo.at_ (Demo.ignored.take 3 ++ [Demo.by_ 1 (.rent (.acceptOffer 0 2))])).rent.contracts.get 0 = some k ∧
      k.rentee ≠ none) :=
  ⟨Demo.reach _ (by decide), by decide, _, rfl, by decide⟩

-- an auction
example : Reach Demo.cfg (Demo.at_ auctioned) ∧ (Demo.at_ auctioned).auc.auctions.get 0 ≠ none :=
  ⟨Demo.reach _ (by decide), by decide⟩

-- operators whose enclave addresses were changed, but not by an approved update
example : Genesis Demo.cfg Demo.w0 ∧ (∀ o ∈ Demo.forced, o.Ok Demo.cfg) ∧
    (run Demo.cfg Demo.w0 Demo.forced).tee.accOp.get 28 = some 8 :=
  ⟨Demo.genesis, by decide, by decide⟩

/-- C99 fails for commissions: the auction is over and its NFT burned, and the commission is still in storage. -/
theorem C99_fails_commission : ∃ w, Reach Demo.cfg w ∧ w.auc.auctions.get 0 = none ∧ w.nfts.get 0 = none ∧
    w.auc.comm.get 0 ≠ none ∧ ¬ NftRest w :=
  have h : (Demo.at_ Demo.sold).auc.comm.get 0 ≠ none := by decide
  have h' : (Demo.at_ Demo.sold).auc.auctions.get 0 = none := by decide
  ⟨Demo.at_ Demo.sold, Demo.reach _ (by decide), h', by decide, h, fun r => r.commission 0 h h'⟩

/-- C99 fails for offers: the contract has expired and its NFT is burned, and the offer is still in storage. -/
theorem C99_fails_offers : ∃ w, Reach Demo.cfg w ∧ w.rent.contracts.get 0 = none ∧ w.nfts.get 0 = none ∧
    w.rent.offers.get 0 = some [2] :=
  ⟨Demo.at_ Demo.ignored, Demo.reach _ (by decide), by decide, by decide, by decide⟩

/-- C99 fails for enclave addresses: after an approved update the old address is still in storage. -/
theorem C99_fails_addresses : ∃ w, Reach Demo.cfg w ∧ w.tee.accOp.get 18 = some 8 ∧
    w.tee.data.get 8 = some ⟨28, [2]⟩ ∧ ¬ TeeRest w :=
  have h : (Demo.at_ Demo.moved).tee.accOp.get 18 = some 8 := by decide
  have h' : (Demo.at_ Demo.moved).tee.data.get 8 = some ⟨28, [2]⟩ := by decide
  ⟨Demo.at_ Demo.moved, Demo.reach _ (by decide), h, h', fun r => by
    obtain ⟨e, h1, h2⟩ := r 18 8 h
    rw [h'] at h1; simp at h1; subst h1; simp at h2⟩

/-- C99 fails for eras that are skipped: a report older than the history is still in storage after the hook, and no
later hook looks at its era again. -/
theorem C99_fails_eras : ∃ w, Reach Demo.cfg w ∧ w.active = some 11 ∧ 5 + Demo.cfg.history < 11 ∧
    w.tee.reports.get (5, 8) ≠ none ∧
    ∀ l : List Op, (∀ o ∈ l, o.Ok Demo.cfg) → (run Demo.cfg w l).tee.reports.get (5, 8) = w.tee.reports.get (5, 8) := by
  have hA : (Demo.at_ Demo.jump).active = some 11 := by decide
  have hr : Reach Demo.cfg (Demo.at_ Demo.jump) := Demo.reach _ (by decide)
  refine ⟨Demo.at_ Demo.jump, hr, hA, by decide, by decide, fun l hl => ?_⟩
  have key := run_inv (P := fun w => w.tee.reports.get (5, 8) = (Demo.at_ Demo.jump).tee.reports.get (5, 8) ∧
      ∃ A, w.active = some A ∧ 11 ≤ A) (fun w o _ ho h => by
    obtain ⟨h1, A, h2, h3⟩ := h
    obtain ⟨B, h4, h5⟩ := step_active w o ho h2
    refine ⟨?_, B, h4, by omega⟩
    rw [← h1]
    have hm := step_reports w o ho 5 8
    generalize (step Demo.cfg w o).tee.reports.get (5, 8) = y at hm ⊢
    generalize w.tee.reports.get (5, 8) = x at hm ⊢
    cases hm with
    | same => rfl
    | cleared _ h6 _ h8 =>
      rw [h2] at h6; simp at h6; subst h6
      have : Demo.cfg.history = 4 := rfl
      omega
    | reported _ _ _ _ _ h6 h7 _ => rw [h2] at h6; simp at h6; subst h6; omega) hr ⟨rfl, 11, hA, by omega⟩ l hl
  exact key.1

-- an NFT is sold and burned
example := C99_nft_partial Demo.cfg_ok (Demo.reach Demo.sold (by decide))

-- account 2 is rentee
example := C99_offers_partial Demo.cfg_ok
  (Demo.reach (Demo.ignored.take 3 ++ [Demo.by_ 1 (.rent (.acceptOffer 0 2))]) (by decide)) (n := 0)
  (k := ⟨some 0, 1, some 2, .fixed 10, .manual none, true, .tokens 100, .none, .none, 0⟩) rfl (by simp)

-- two operators, a claimed reward
example := C99_tee (Demo.reach Demo.paidUp (by decide))

-- root forces an update
example := C99_addresses_partial Demo.genesis Demo.forced (by decide)
  (fun o ho op ⟨g, x, e, _, h⟩ => by
    subst e
    simp [Demo.forced, Demo.enclaves] at ho
    rcases ho with h' | h' | h' | h' | h' | h' | h' <;> obtain ⟨-, rfl⟩ := h' <;> simp [innermost] at h)

-- the reports of era 5 are still kept
example := C99_pruned (by decide) Demo.genesis (Demo.paced 2) (by decide) (.of (by decide)) (E := 5)
  ⟨8, Or.inl (by decide)⟩

-- the auction is over and the NFT is burned
example := C99_commission_stays Demo.cfg_ok (Demo.reach auctioned (by decide)) (n := 0) (by decide)
  (blocks 10 ++ [Demo.by_ 2 (.nft (.burnNft 0))]) (by decide)
