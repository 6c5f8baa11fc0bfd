import Verif.Proofs.AucHook
/-
One step seen from one auction: what can happen to it, how its place in the schedule moves, and what
the hook pays out.
-/
variable {c : Cfg} {w w' : World} {a : AccountId}

namespace AucM

theorem removeBid_filter {l : List (AccountId × Balance)} (h : (l.map Prod.fst).Nodup) :
    removeBid a l = l.filter fun y => decide (y.1 ≠ a) := by
  induction l with
  | nil => rfl
  | cons y t ih =>
    obtain ⟨m, z⟩ := y
    simp only [List.map_cons, List.nodup_cons] at h
    simp only [removeBid]
    split
    · rename_i e
      subst e
      rw [List.filter_cons, if_neg (by simp)]
      refine (List.filter_eq_self.2 fun y hy => ?_).symm
      simp only [ne_eq, decide_not, Bool.not_eq_true', decide_eq_false_iff_not]
      intro e
      exact h.1 (e ▸ List.mem_map_of_mem hy)
    · rename_i e
      rw [List.filter_cons, if_pos (by simpa using e), ih h.2]

theorem insertBid_tail {l l' : List (AccountId × Balance)} {v dr}
    (h : insertBid c l a v = .ok (dr, l')) :
    l' = (if l.length < c.bidLimit then l else l.tail) ++ [(a, v)] := by
  rcases insertBid_ok h with ⟨_, rfl, hl⟩ | ⟨x, t, _, rfl, rfl, hl⟩
  · rw [if_pos hl]
  · rw [if_neg (by omega)]; rfl

/-- what can happen to the auction `x` of the NFT `d` -/
inductive Turn (c : Cfg) (w : World) (n : NFTId) (x : Auction) (d : NFTData) :
    Op → World → Prop where
  | stay {o : Op} {w' : World} : w'.auc.auctions.get n = some x → Turn c w n x d o w'
  | cancel {w' : World} : w.now < x.start → w'.auc.auctions.get n = none →
      w'.nfts.get n = some { d with st := { d.st with listed := false } } →
      Turn c w n x d (.call (.signed x.creator) (.auc (.cancel n))) w'
  | bid {a : AccountId} {v : Balance} {w' : World} : a ≠ x.creator → x.start ≤ w.now → c.ed < v → beats x v = true →
      w'.auc.auctions.get n = some { x with
        bids := (if (x.bids.filter fun y => decide (y.1 ≠ a)).length < c.bidLimit
          then x.bids.filter fun y => decide (y.1 ≠ a)
          else (x.bids.filter fun y => decide (y.1 ≠ a)).tail) ++ [(a, v)]
        fin := if x.fin - w.now < c.grace then x.fin + (c.grace - (x.fin - w.now)) else x.fin
        extended := x.extended || decide (x.fin - w.now < c.grace) } →
      Turn c w n x d (.call (.signed a) (.auc (.addBid n v))) w'
  | withdraw {a : AccountId} {w' : World} : c.ending < x.fin - w.now → (∃ v, (a, v) ∈ x.bids) →
      w'.auc.auctions.get n = some { x with bids := x.bids.filter fun y => decide (y.1 ≠ a) } →
      Turn c w n x d (.call (.signed a) (.auc (.removeBid n))) w'
  | end_ {top : AccountId × Balance} {w' : World} : x.extended = true → x.bids.getLast? = some top →
      w'.auc.auctions.get n = none →
      w'.nfts.get n = some { d with owner := top.1, st := { d.st with listed := false } } →
      Turn c w n x d (.call (.signed x.creator) (.auc (.end_ n))) w'
  | buy {a : AccountId} {p : Balance} {w' : World} : x.buyIt = some p → a ≠ x.creator → x.start ≤ w.now →
      (∀ h ∈ x.bids.getLast?, h.2 < p) → w'.auc.auctions.get n = none →
      w'.nfts.get n = some { d with owner := a, st := { d.st with listed := false } } →
      Turn c w n x d (.call (.signed a) (.auc (.buyItNow n p))) w'
  | won {top : AccountId × Balance} {w' : World} : x.fin ≤ w.now → x.bids.getLast? = some top → n ∈ Queue.ids w.auc.deadlines →
      w'.auc.auctions.get n = none →
      w'.nfts.get n = some { d with owner := top.1, st := { d.st with listed := false } } →
      Turn c w n x d .hookAuc w'
  | noBid {w' : World} : x.fin ≤ w.now → x.bids = [] → n ∈ Queue.ids w.auc.deadlines →
      w'.auc.auctions.get n = none →
      w'.nfts.get n = some { d with st := { d.st with listed := false } } → Turn c w n x d .hookAuc w'

theorem Act.turn {y : Call} (h : Act c w a y w') (hi : Inv c w) (hg : ∀ n, Good c (slice w n))
    {n x d} (hx : w.auc.auctions.get n = some x) (hd : w.nfts.get n = some d) :
    Turn c w n x d (.call (.signed a) (.auc y)) w' := by
  cases h with
  | @create m k s e p bi d' km q h1 h2 h3 h4 h5 h6 hd' hown hl hk hal hcov hq =>
    refine .stay ?_
    have hne : n ≠ m := by
      rintro rfl
      have := ((hg n).nft d' hd').listed.not.1 (by simp [hl])
      simp only [not_or, not_not] at this
      have h2 : w.auc.auctions.get n = none := this.2
      rw [hx] at h2; simp at h2
    simp [FMap.get_insert, hne, hx]
  | @cancel m d' x' hd' hx' h1 h2 =>
    by_cases e : n = m
    · subst e
      rw [hx] at hx'; simp at hx'; subst hx'
      rw [hd] at hd'; simp at hd'; subst hd'
      subst h1
      exact .cancel h2 (by simp) (by simp)
    · exact .stay (by simp [FMap.get_erase, e, hx])
  | @end_ m d' x' top b hd' hx' h1 h2 h3 h4 =>
    by_cases e : n = m
    · subst e
      rw [hx] at hx'; simp at hx'; subst hx'
      rw [hd] at hd'; simp at hd'; subst hd'
      subst h1
      exact .end_ h2 h3 (by simp) (by simp)
    · exact .stay (by simp [FMap.get_erase, e, hx])
  | @addBid m v x' b dr l q hx' h1 h2 h3 h4 h5 h6 h7 =>
    by_cases e : n = m
    · subst e
      rw [hx] at hx'; simp at hx'; subst hx'
      refine .bid (fun h => h1 h.symm) h2 h3 h4 ?_
      simp only [FMap.get_insert, if_true]
      rw [← removeBid_filter (hi.ok n x hx).one, ← insertBid_tail h6, extend_eq]
      simp only
      split <;> simp_all <;> omega
    · exact .stay (by simp [FMap.get_insert, e, hx])
  | @removeBid m x' v b hx' h1 h2 h3 =>
    by_cases e : n = m
    · subst e
      rw [hx] at hx'; simp at hx'; subst hx'
      refine .withdraw h1 ⟨v, findBid_mem h2⟩ ?_
      simp only [FMap.get_insert, if_true]
      rw [← removeBid_filter (hi.ok n x hx).one]
    · exact .stay (by simp [FMap.get_insert, e, hx])
  | @buyItNow m p d' x' b hd' hx' h1 h2 h3 h4 h5 =>
    by_cases e : n = m
    · subst e
      rw [hx] at hx'; simp at hx'; subst hx'
      rw [hd] at hd'; simp at hd'; subst hd'
      exact .buy h1 (fun h => h2 h.symm) h3 h4 (by simp) (by simp)
    · exact .stay (by simp [FMap.get_erase, e, hx])
  | claim => exact .stay hx

end AucM

open AucM in
/-- Everything that can happen to an auction in one step. -/
theorem step_auc_turn (hc : c.Ok) (hr : Reach c w) (o : Op) (ho : o.Ok c) {n x d}
    (hx : w.auc.auctions.get n = some x) (hd : w.nfts.get n = some d) :
    Turn c w n x d o (step c w o) := by
  rcases step_auc_case w o ho with ⟨a, y, rfl, ha, h⟩ | ⟨rfl, h⟩ | e
  · exact h.turn (hr.auc hc) (hr.inv hc).good hx hd
  · rcases (pops_at h (hr.auc hc) hx hd).1 with ⟨h1, _, _⟩ | ⟨h1, h2, h3, h4, h5, h6⟩ |
      ⟨h1, h2, h3, h4, h5, h6⟩ | ⟨_, _, _, _, h1, _⟩
    · exact .stay h1
    · exact .won h2 h1 h3 h5 h6
    · exact .noBid h2 h1 h3 h5 h6
    · exact .stay h1
  · exact .stay (by rw [e]; exact hx)

namespace Queue

theorem At.ins' {q : Queue} {n b i m e} (h : q.At n b i) :
    ∃ j, j ≤ i + 1 ∧ (Queue.ins m e q).At n b j := by
  induction q generalizing i with
  | nil => obtain ⟨pre, post, h, _⟩ := h; simp at h
  | cons y t ih =>
    obtain ⟨k, z⟩ := y
    simp only [Queue.ins]
    split
    · obtain ⟨pre, post, h, hl⟩ := h
      exact ⟨i + 1, by omega, (m, e) :: pre, post, by rw [h]; rfl, by simp [hl]⟩
    · obtain ⟨pre, post, h, hl⟩ := h
      cases pre with
      | nil =>
        simp only [List.nil_append, List.cons.injEq] at h
        exact ⟨0, by omega, [], Queue.ins m e t, by rw [h.1]; rfl, rfl⟩
      | cons u v =>
        simp only [List.cons_append, List.cons.injEq] at h
        simp only [List.length_cons] at hl
        obtain ⟨j, hj, pre', post', h', hl'⟩ := ih (i := v.length) ⟨v, post, h.2, rfl⟩
        exact ⟨j + 1, by omega, (k, z) :: pre', post', by rw [h']; rfl, by simp [hl']⟩

/-- postponing another entry does not move this one back -/
theorem At.update {lim : Nat} {q q' : Queue} (hq : q.WF) {n b i m e} (h : q.At n b i) (hm : m ≠ n)
    (he : ∀ z, (m, z) ∈ q → z ≤ e) (hu : q.update lim m e = .ok q') :
    ∃ j, j ≤ i ∧ q'.At n b j := by
  rcases update_ok hu with ⟨_, rfl⟩ | ⟨hin, rfl⟩
  · exact ⟨i, Nat.le_refl _, h⟩
  · obtain ⟨pre, post, rfl, hl, hp⟩ := h.sorted hq
    by_cases hmp : m ∈ ids pre
    · rw [remove_append, if_pos hmp]
      have hA : At (Queue.remove m pre ++ (n, b) :: post) n b (Queue.remove m pre).length :=
        ⟨_, _, rfl, rfl⟩
      obtain ⟨j, hj, h'⟩ := hA.ins' (m := m) (e := e)
      have := length_remove hmp
      exact ⟨j, by omega, h'⟩
    · obtain ⟨j, hj, h'⟩ := h.remove hm
      refine ⟨j, hj, h'.ins hq.remove ?_⟩
      obtain ⟨z, hz⟩ := mem_ids.1 hin
      have hle := he z hz
      have hz' : (m, z) ∈ post := by
        rcases List.mem_append.1 hz with hz | hz
        · exact absurd (mem_ids.2 ⟨z, hz⟩) hmp
        · rcases List.mem_cons.1 hz with hz | hz
          · simp at hz; exact absurd hz.1 hm
          · exact hz
      have := (List.pairwise_cons.1 (List.pairwise_append.1 hq.sorted).2.1).1 _ hz'
      simp only at this
      omega

end Queue

open AucM in
/-- A due entry keeps its place unless its own auction is touched or the hook runs. -/
theorem step_auc_at (hc : c.Ok) (hr : Reach c w) (o : Op) (ho : o.Ok c) {n b i}
    (h : Queue.At w.auc.deadlines n b i) (hb : b ≤ w.now) (h0 : o ≠ .hookAuc)
    (h1 : ∀ a, o ≠ .call (.signed a) (.auc (.end_ n)))
    (h2 : ∀ a p, o ≠ .call (.signed a) (.auc (.buyItNow n p)))
    (h3 : ∀ a v, o ≠ .call (.signed a) (.auc (.addBid n v))) :
    ∃ j, j ≤ i ∧ Queue.At (step c w o).auc.deadlines n b j := by
  have hi := hr.auc hc
  rcases step_auc_case w o ho with ⟨a, y, rfl, ha, hact⟩ | ⟨rfl, _⟩ | e
  · generalize step c w _ = w' at hact ⊢
    cases hact with
    | @create m k s e p bi d' km q g1 g2 g3 g4 g5 g6 hd' hown hl hk hal hcov hq =>
      obtain ⟨_, rfl⟩ := Queue.insert_some hq
      exact ⟨i, Nat.le_refl _, h.ins hi.wf (by omega)⟩
    | @cancel m d' x' hd' hx' g1 g2 =>
      refine h.remove ?_
      rintro rfl
      obtain ⟨x, hx, hf⟩ := hi.inQ _ b h.mem
      rw [hx] at hx'; simp at hx'; subst hx'
      have := (hi.ok _ x hx).times
      omega
    | end_ => exact h.remove fun e => h1 a (by rw [e])
    | buyItNow => exact h.remove fun e => h2 a _ (by rw [e])
    | @addBid m v x' b' dr l q hx' g1 g2 g3 g4 g5 g6 g7 =>
      have hm : m ≠ n := fun e => h3 a v (by rw [e])
      rw [extend_eq] at g7
      split at g7
      · simp only [updateDeadline] at g7
        refine h.update hi.wf hm (fun z hz => ?_) g7
        obtain ⟨x, hx, hf⟩ := hi.inQ m z hz
        rw [hx] at hx'; simp at hx'; subst hx'
        omega
      · simp only [updateDeadline, Except.ok.injEq] at g7
        subst g7; exact ⟨i, Nat.le_refl _, h⟩
    | removeBid => exact ⟨i, Nat.le_refl _, h⟩
    | claim => exact ⟨i, Nat.le_refl _, h⟩
  · exact absurd rfl h0
  · rw [e]; exact ⟨i, Nat.le_refl _, h⟩

/-! ## what the hook pays -/
namespace AucM

/-- what `y` is to receive when the auction `x` of `n` is settled to its highest bid -/
def proceeds (w : World) (n : NFTId) (x : Auction) (y : AccountId) : Balance :=
  match x.bids.getLast?, w.nfts.get n, w.mkt.mkts.get x.mkt, w.auc.comm.get n with
  | some top, some d, some k, some f =>
    gets y k.owner (MktM.feeOnOpt top.2 f) +
    gets y d.creator (d.royalty.mul (top.2 - MktM.feeOnOpt top.2 f)) +
    gets y x.creator (top.2 - MktM.feeOnOpt top.2 f -
      d.royalty.mul (top.2 - MktM.feeOnOpt top.2 f))
  | _, _, _, _ => 0

/-- what `y` is to receive from all auctions of `w` that are gone in `w'` -/
def paidOut (w w' : World) (y : AccountId) : Balance :=
  w.auc.auctions.sumBy fun n x => if w'.auc.auctions.get n = none then proceeds w n x y else 0

theorem proceeds_congr {w1 : World} {n x y} (h1 : w1.nfts.get n = w.nfts.get n) (h2 : w1.mkt = w.mkt)
    (h3 : w1.auc.comm = w.auc.comm) : proceeds w1 n x y = proceeds w n x y := by
  unfold proceeds; rw [h1, h2, h3]

/-- one settled auction out of the sum -/
theorem paidOut_head {w1 : World} {n x} (hx : w.auc.auctions.get n = some x)
    (h1 : w1.auc.auctions = w.auc.auctions.erase n) (h2 : w'.auc.auctions.get n = none)
    (h3 : ∀ m, m ≠ n → w1.nfts.get m = w.nfts.get m) (h4 : w1.mkt = w.mkt)
    (h5 : w1.auc.comm = w.auc.comm) (y : AccountId) :
    paidOut w w' y = proceeds w n x y + paidOut w1 w' y := by
  have e : paidOut w1 w' y = (w.auc.auctions.erase n).sumBy fun n x =>
      if w'.auc.auctions.get n = none then proceeds w n x y else 0 := by
    unfold paidOut
    rw [h1]
    refine FMap.sumBy_congr fun k v hk => ?_
    simp only [FMap.get_erase] at hk
    split at hk
    · simp at hk
    · rw [proceeds_congr (h3 k (by assumption)) h4 h5]
  rw [e]
  unfold paidOut
  rw [FMap.sumBy_split _ w.auc.auctions n, hx]
  simp only [h2, if_true]

theorem won_head {w1 : World} {n x} (hx : w.auc.auctions.get n = some x)
    (h1 : w1.auc.auctions = w.auc.auctions.erase n) (h2 : w'.auc.auctions.get n = none) {P} :
    won P w w' = (match x.bids.getLast? with | some top => wt1 P top.1 top.2 | none => 0) +
      won P w1 w' := by
  unfold won
  rw [FMap.sumBy_split _ w.auc.auctions n, hx, h1]
  simp only [h2, if_true]
  cases x.bids.getLast? <;> rfl

/-- what one run of the hook does to the balances -/
structure HookPaid (c : Cfg) (w w' : World) : Prop where
  others : ∀ y, y ≠ c.aucPot → w'.bal.freeOf y = w.bal.freeOf y + paidOut w w' y
  pot : ∃ δ, w'.bal.freeOf c.aucPot + won (fun _ => true) w w' + δ =
    w.bal.freeOf c.aucPot + paidOut w w' c.aucPot ∧
    (δ = 0 ∨ w'.bal.freeOf c.aucPot = 0 ∧ δ < c.ed) ∧
    (w.bal.freeOf c.aucPot = 0 → δ = 0 ∧ w'.bal.freeOf c.aucPot = 0)

theorem pops_paid (h : Relation.ReflTransGen (Pop c) w w') (hi : Inv c w) (hn : HasNft w)
    (hset : Settled w w') : HookPaid c w w' := by
  induction h using Relation.ReflTransGen.head_induction_on with
  | refl =>
    have h0 : ∀ y, paidOut w' w' y = 0 := fun y => FMap.sumBy_zero fun k v hk => by simp [hk]
    have h1 : won (fun _ => true) w' w' = 0 := FMap.sumBy_zero fun k v hk => by simp [hk]
    exact ⟨fun y _ => by rw [h0]; rfl, 0, by rw [h0, h1], Or.inl rfl, fun h => ⟨rfl, h⟩⟩
  | @head w0 w1 h1 h2 ih =>
    have hi1 := hi.pop h1
    have hn1 := hn.pop h1
    obtain ⟨m, e, t, hq, he, ht⟩ := h1.head
    have hm : m ∈ Queue.ids w0.auc.deadlines := by rw [hq]; simp [Queue.ids]
    have hm1 : m ∉ Queue.ids w1.auc.deadlines := by
      have := hi.wf; rw [hq] at this; rw [ht]; exact this.head
    have hsub : ∀ k, k ∈ Queue.ids w'.auc.deadlines → k ∈ Queue.ids w1.auc.deadlines := by
      intro k hk
      clear ih hset
      induction h2 with
      | refl => exact hk
      | tail _ h4 ih => exact ih (h4.ids_sub hk)
    have hgone' : w'.auc.auctions.get m = none := hset m hm fun h => hm1 (hsub m h)
    have hgone : w1.auc.auctions.get m = none := by
      cases h : w1.auc.auctions.get m with
      | none => rfl
      | some x =>
        obtain ⟨d, hd⟩ := hn1 m x h
        rcases (pops_at h2 hi1 h hd).1 with ⟨e1, _, _⟩ | ⟨_, _, e3, _⟩ | ⟨_, _, e3, _⟩ | ⟨_, _, e3, _⟩
        · rw [e1] at hgone'; simp at hgone'
        · exact absurd e3 hm1
        · exact absurd e3 hm1
        · exact absurd e3 hm1
    obtain ⟨i1, δ1, i2, i3, i4⟩ := ih hi1 hn1 fun n h3 h4 => hset n (h1.ids_sub h3) h4
    have key : ∀ x, w0.auc.auctions.get m = some x → w1.auc.auctions = w0.auc.auctions.erase m →
        (∀ k, k ≠ m → w1.nfts.get k = w0.nfts.get k) →
        (∀ y, paidOut w0 w' y = proceeds w0 m x y + paidOut w1 w' y) ∧
        AucM.won (fun _ => true) w0 w' =
          (match x.bids.getLast? with | some top => wt1 (fun _ => true) top.1 top.2 | none => 0) +
          AucM.won (fun _ => true) w1 w' :=
      fun x e1 e2 e3 => ⟨paidOut_head e1 e2 hgone' e3 h1.mkt h1.comm, won_head e1 e2 hgone'⟩
    generalize paidOut w1 w' = P1 at *
    generalize AucM.won (fun _ => true) w1 w' = W1 at *
    cases h1 with
    | @won n e' t' x d top b hq' he' hx hd htop hp =>
      rw [hq] at hq'; simp at hq'; obtain ⟨⟨rfl, rfl⟩, rfl⟩ := hq'
      have hok := hi.ok m x hx
      have hbid := hok.bid top (List.mem_of_getLast? htop)
      obtain ⟨k, f, cm, r, rest, δ, hk, hf, e1, e2, e3, p1, p2, p3, p4⟩ := payForNft_paid hp
      have hle : cm ≤ top.2 := by rw [e1]; exact hok.cuts (by omega) hf
      have hrl : r ≤ top.2 - cm := by rw [e2]; exact d.royalty.mul_le _
      obtain ⟨hP, hW⟩ := key x hx rfl (fun k hk => by simp [FMap.get_insert, hk])
      have hpr : ∀ y, proceeds w0 m x y =
          gets y k.owner cm + gets y d.creator r + gets y x.creator rest := by
        intro y; unfold proceeds; rw [htop, hd, hk, hf]; simp only [← e1, ← e2, ← e3]
      rw [htop] at hW
      simp only [wt1, if_true] at hW
      replace i1 : ∀ y, y ≠ c.aucPot → w'.bal.freeOf y = b.freeOf y + P1 y := i1
      replace i2 : w'.bal.freeOf c.aucPot + W1 + δ1 = b.freeOf c.aucPot + P1 c.aucPot := i2
      replace i4 : b.freeOf c.aucPot = 0 → δ1 = 0 ∧ w'.bal.freeOf c.aucPot = 0 := i4
      refine ⟨fun y hy => ?_, δ + δ1, ?_, ?_, ?_⟩
      · rw [i1 y hy, hP y, hpr y, p1 y hy]; omega
      · rw [hP, hW, hpr]; omega
      · rcases p3 with p3 | ⟨p3, p5, _⟩
        · rcases i3 with i3 | ⟨i3, i5⟩
          · left; omega
          · right; exact ⟨i3, by omega⟩
        · have := i4 p3
          right; exact ⟨this.2, by omega⟩
      · intro h0
        have h3 := p4 h0
        have h4 := i4 h3.2
        exact ⟨by omega, h4.2⟩
    | @noBid n e' t' x d hq' he' hx hd hb =>
      rw [hq] at hq'; simp at hq'; obtain ⟨⟨rfl, rfl⟩, rfl⟩ := hq'
      obtain ⟨hP, hW⟩ := key x hx rfl (fun k hk => by simp [FMap.get_insert, hk])
      have hpr : ∀ y, proceeds w0 m x y = 0 := by intro y; unfold proceeds; simp [hb]
      rw [hb] at hW
      simp only [List.getLast?_nil, Nat.zero_add] at hW
      replace i1 : ∀ y, y ≠ c.aucPot → w'.bal.freeOf y = w0.bal.freeOf y + P1 y := i1
      replace i2 : w'.bal.freeOf c.aucPot + W1 + δ1 = w0.bal.freeOf c.aucPot + P1 c.aucPot := i2
      refine ⟨fun y hy => ?_, δ1, ?_, i3, i4⟩
      · rw [i1 y hy, hP y, hpr y]; omega
      · rw [hP, hW, hpr]; omega
    | @missed n e' t' x d top b err hq' he' hx hd htop hp =>
      rw [hq] at hq'; simp at hq'; obtain ⟨⟨rfl, rfl⟩, rfl⟩ := hq'
      simp only at hgone; rw [hx] at hgone; simp at hgone
    | @stray n e' t' hq' he' h =>
      rw [hq] at hq'; simp at hq'; obtain ⟨⟨rfl, rfl⟩, rfl⟩ := hq'
      exfalso
      obtain ⟨x, hx, _⟩ := hi.inQ m e (by rw [hq]; simp)
      obtain ⟨d, hd⟩ := hn m x hx
      rcases h with h | h
      · rw [hx] at h; simp at h
      · rw [hd] at h; simp at h

end AucM
