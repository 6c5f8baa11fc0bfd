import Verif.Model.Code
import Verif.Proofs.SliceMkt
import Verif.Proofs.RentLive
/-
The lists and loops as written compute what the recursive functions of the model compute.
-/
namespace Code
variable {α : Type}

/-! ## lists -/

theorem vecRemove_cons (x : α) (l : List α) (i : Nat) :
    vecRemove (x :: l) (i + 1) = (vecRemove l i).map fun r => (r.1, x :: r.2) := by
  simp only [vecRemove, List.getElem?_cons_succ]
  cases l[i]? <;> simp [Except.map]

theorem position_cons (p : α → Bool) (x : α) (l : List α) :
    position p (x :: l) = if p x then some 0 else (position p l).map (· + 1) := by
  simp [position, List.findIdx?_cons]

theorem position_le {p : α → Bool} {l : List α} {i : Nat} (h : position p l = some i) : i < l.length := by
  simp only [position, List.findIdx?_eq_some_iff_getElem] at h
  exact h.1

theorem get_eq (q : Queue) (n : NFTId) : get q n = .ok (Queue.find n q) := by
  induction q with
  | nil => rfl
  | cons x t ih =>
    obtain ⟨m, b⟩ := x
    simp only [get, position_cons, Queue.find, beq_iff_eq] at ih ⊢
    by_cases h : m = n
    · simp [h]
    · simp only [h, if_false]
      cases hp : position (fun x : NFTId × Block => x.1 == n) t with
      | none => rw [hp] at ih; exact ih
      | some i => rw [hp] at ih; simpa using ih

theorem remove_eq (q : Queue) (n : NFTId) : remove q n = .ok (Queue.has q n, Queue.remove n q) := by
  induction q with
  | nil => rfl
  | cons x t ih =>
    obtain ⟨m, b⟩ := x
    simp only [remove, position_cons, Queue.has, Queue.find, Queue.remove, beq_iff_eq] at ih ⊢
    by_cases h : m = n
    · simp [h, vecRemove]
    · simp only [h, if_false]
      cases hp : position (fun x : NFTId × Block => x.1 == n) t with
      | none => rw [hp] at ih; simp at ih ⊢; exact ⟨ih.1, ih.2⟩
      | some i =>
        rw [hp] at ih
        simp only [Option.map_some, vecRemove_cons]
        cases hv : vecRemove t i with
        | error e => simp [hv] at ih
        | ok r => simp [hv] at ih; simp [Except.map, ih.1, ih.2]

theorem ins_eq (q : Queue) (n : NFTId) (b : Block) :
    let i := (position (fun x => decide (x.2 > b)) q).getD q.length
    i ≤ q.length ∧ q.take i ++ (n, b) :: q.drop i = Queue.ins n b q := by
  induction q with
  | nil => simp [position, Queue.ins]
  | cons x t ih =>
    obtain ⟨m, y⟩ := x
    simp only [position_cons, Queue.ins, decide_eq_true_eq] at ih ⊢
    by_cases h : y > b
    · simp [h]
    · simp only [h, if_false]
      have e : (Option.map (· + 1) (position (fun x : NFTId × Block => decide (x.2 > b)) t)).getD ((m, y) :: t).length =
          (position (fun x : NFTId × Block => decide (x.2 > b)) t).getD t.length + 1 := by
        cases position (fun x : NFTId × Block => decide (x.2 > b)) t <;> simp
      rw [e]
      refine ⟨by simpa using ih.1, ?_⟩
      simp only [List.take_succ_cons, List.drop_succ_cons, List.cons_append, ih.2]

theorem insert_eq (limit : Nat) (q : Queue) (n : NFTId) (b : Block) : insert limit q n b = .ok (Queue.insert limit q n b) := by
  have h := ins_eq q n b
  simp only at h
  simp only [insert, tryInsert, Queue.insert]
  by_cases hl : q.length < limit
  · rw [if_pos hl, if_pos hl, if_pos h.1, h.2]
  · rw [if_neg hl, if_neg hl]

theorem update_eq (limit : Nat) (q : Queue) (n : NFTId) (b : Block) :
    update limit q n b = (Queue.update limit q n b).map fun q' => (Queue.has q n, q') := by
  simp only [update, remove_eq, Queue.update, insert_eq]
  by_cases h : Queue.has q n = true
  · simp only [h, if_true]
    show (do let q' ← expectSome (Queue.insert limit (Queue.remove n q) n b) "Cannot happen."; pure (true, q')) = _
    cases Queue.insert limit (Queue.remove n q) n b <;> rfl
  · rw [if_neg h]
    have h' : Queue.has q n = false := by simpa using h
    have hr : Queue.remove n q = q := by
      clear h
      induction q with
      | nil => rfl
      | cons x t ih =>
        obtain ⟨m, y⟩ := x
        simp only [Queue.has, Queue.find] at h' ih
        by_cases e : m = n
        · simp [e] at h'
        · rw [if_neg e] at h'
          simp only [Queue.remove, if_neg e, ih h']
    show (if Queue.has q n = true then _ else _) = _
    rw [if_neg h, hr, h']
    rfl

theorem popNext_eq (q : Queue) (now : Block) :
    popNext q now = .ok (match Queue.popNext q now with | some r => (some r.1, r.2) | none => (none, q)) := by
  cases q with
  | nil => rfl
  | cons x t =>
    obtain ⟨n, b⟩ := x
    simp only [popNext, List.getElem?_cons_zero, remove_eq, Queue.popNext]
    by_cases h : b ≤ now
    · simp only [if_pos h]; rfl
    · simp only [if_neg h]

theorem popFront_eq (q : Queue) (now : Block) : popFront q now = popNext q now := by
  rw [popNext_eq]
  cases q with
  | nil => rfl
  | cons x t =>
    obtain ⟨n, b⟩ := x
    simp only [popFront, List.getElem?_cons_zero, Queue.popNext_cons]
    by_cases h : b ≤ now
    · simp only [if_pos h]; rfl
    · simp only [if_neg h]

theorem next_eq (q : Queue) (now : Block) : next q now = (Queue.popNext q now).map (·.1) := by
  cases q with
  | nil => rfl
  | cons x t =>
    obtain ⟨n, b⟩ := x
    simp only [next, List.getElem?_cons_zero, Queue.popNext]
    split <;> rfl

/-! ## bids -/

theorem insertNewBid_eq (c : Cfg) (l : List (AccountId × Balance)) (who : AccountId) (v : Balance)
    (hl : l.length ≤ c.bidLimit) (e : Err → Err) (he : ∀ s, e (.panic s) = .panic "") :
    (insertNewBid c.bidLimit l who v).mapError e = (AucM.insertBid c l who v).mapError e := by
  simp only [insertNewBid, AucM.insertBid]
  by_cases h : c.bidLimit ≤ l.length
  · rw [if_pos h, if_pos h]
    cases l with
    | nil => simp [vecRemove, bind, Except.bind, Except.mapError, he]
    | cons x t =>
      have : t.length < c.bidLimit := by simp only [List.length_cons] at hl; omega
      simp only [vecRemove, List.getElem?_cons_zero, List.take_zero, List.nil_append, List.drop_succ_cons, List.drop_zero, bind,
        Except.bind, tryPush, if_pos this, expectSome]
      rfl
  · rw [if_neg h, if_neg h]
    have : l.length < c.bidLimit := by omega
    simp only [bind, Except.bind, tryPush, if_pos this, expectSome]
    rfl

theorem removeHighestBid_eq (l : List (AccountId × Balance)) :
    removeHighestBid l = .ok (l.getLast?, l.dropLast) := by
  rcases List.eq_nil_or_concat l with rfl | ⟨t, x, rfl⟩
  · rfl
  · have h : (t ++ [x]).length = t.length + 1 := by simp
    simp only [List.concat_eq_append]
    unfold removeHighestBid
    split
    · next h' => omega
    · next n h' =>
      have : n = t.length := by omega
      subst this
      simp [vecRemove, bind, Except.bind, pure, Except.pure]

theorem removeBid_eq (l : List (AccountId × Balance)) (who : AccountId) :
    removeBid l who = .ok ((AucM.findBid who l).map fun v => (who, v), AucM.removeBid who l) := by
  induction l with
  | nil => rfl
  | cons x t ih =>
    obtain ⟨a, v⟩ := x
    simp only [removeBid, position_cons, AucM.findBid, AucM.removeBid, beq_iff_eq] at ih ⊢
    by_cases h : a = who
    · simp [h, vecRemove, bind, Except.bind, pure, Except.pure]
    · simp only [h, if_false]
      cases hp : position (fun x : AccountId × Balance => x.1 == who) t with
      | none => rw [hp] at ih; simp at ih ⊢; exact ⟨ih.1, ih.2⟩
      | some i =>
        rw [hp] at ih
        simp only [Option.map_some, vecRemove_cons]
        cases hv : vecRemove t i with
        | error e => simp [hv, bind, Except.bind] at ih
        | ok r =>
          simp [hv, bind, Except.bind, pure, Except.pure] at ih
          simp [Except.map, bind, Except.bind, pure, Except.pure, ih.1, ih.2]

theorem findBid_eq (l : List (AccountId × Balance)) (who : AccountId) :
    findBid l who = (AucM.findBid who l).map fun v => (who, v) := by
  induction l with
  | nil => rfl
  | cons x t ih =>
    obtain ⟨a, v⟩ := x
    simp only [findBid, List.find?_cons, AucM.findBid] at ih ⊢
    by_cases h : a = who
    · simp [h]
    · have e : (a == who) = false := by simpa using h
      simp [h, e, ih]

/-! ## loops -/

section
variable {σ : Type} {turn : σ → Turn σ}

theorem Loop.det {s a b : σ} (ha : Loop turn s a) (hb : Loop turn s b) : a = b := by
  induction ha with
  | over h => cases hb with
    | over => rfl
    | leave h' => rw [h] at h'; cases h'
    | again h' => rw [h] at h'; cases h'
  | leave h => cases hb with
    | over h' => rw [h] at h'; cases h'
    | leave h' => rw [h] at h'; cases h'; rfl
    | again h' => rw [h] at h'; cases h'
  | again h _ ih => cases hb with
    | over h' => rw [h] at h'; cases h'
    | leave h' => rw [h] at h'; cases h'
    | again h' hb => rw [h] at h'; cases h'; exact ih hb

end

variable (c : Cfg)

theorem pop_due {n : NFTId} {b now : Block} (t : Queue) (h : b ≤ now) : popNext ((n, b) :: t) now = .ok (some n, t) := by
  rw [popNext_eq, Queue.popNext_cons, if_pos h]

theorem pop_later {n : NFTId} {b now : Block} (t : Queue) (h : ¬ b ≤ now) :
    popNext ((n, b) :: t) now = .ok (none, (n, b) :: t) := by
  rw [popNext_eq, Queue.popNext_cons, if_neg h]

theorem pop_nil (now : Block) : popNext [] now = .ok (none, []) := rfl

theorem payForNft_bids (w : World) (n : NFTId) (src : AccountId) (v : Balance) (d : NFTData) (a : Auction)
    (l : List (AccountId × Balance)) : AucM.payForNft c w n src v d { a with bids := l } = AucM.payForNft c w n src v d a := rfl

/-- one turn of the auctions' loop is one settlement -/
theorem aucTurn_due (w : World) (n : NFTId) (b : Block) (t : Queue) (k : Nat) (h : b ≤ w.now) :
    aucTurn c w.now (w, (n, b) :: t, k) =
      if (AucM.settleOne c w n).2 then Locals.counted c.aucActions (AucM.settleOne c w n).1 t k
      else .again ((AucM.settleOne c w n).1, t, k) := by
  unfold aucTurn AucM.settleOne
  simp only [pop_due t h]
  rcases (w.auc.auctions.get n).eq_none_or_eq_some with ha | ⟨a, ha⟩
  · simp only [ha]; rfl
  · rcases (w.nfts.get n).eq_none_or_eq_some with hn | ⟨d, hn⟩
    · simp only [ha, hn]; rfl
    · simp only [ha, hn, removeHighestBid_eq]
      rcases (a.bids.getLast?).eq_none_or_eq_some with hl | ⟨⟨x, y⟩, hl⟩
      · simp only [hl, if_true]; rfl
      · have hp : ∃ bal r, AucM.payForNft c w n c.aucPot y d a = (bal, r) := ⟨_, _, rfl⟩
        obtain ⟨bal, _ | u, hp⟩ := hp
        · simp only [hl, payForNft_bids, hp]; rfl
        · simp only [hl, payForNft_bids, hp, if_true]; rfl

theorem aucLoop (w : World) (q : Queue) (k : Nat) :
    ∃ k', Loop (aucTurn c w.now) (w, q, k) ((AucM.hookLoop c w q k).1, (AucM.hookLoop c w q k).2, k') := by
  induction q generalizing w k with
  | nil => exact ⟨k, .over (by simp only [aucTurn, pop_nil])⟩
  | cons x t ih =>
    obtain ⟨n, b⟩ := x
    by_cases h : b ≤ w.now
    · have ht := aucTurn_due c w n b t k h
      have hw := AucM.settleOne_now (c := c) w n
      simp only [AucM.hookLoop, if_pos h]
      by_cases h2 : (AucM.settleOne c w n).2 = true
      · rw [if_pos h2, Locals.counted] at ht
        rw [if_pos h2]
        by_cases h3 : c.aucActions ≤ k + 1
        · rw [if_pos h3] at ht ⊢
          exact ⟨_, .leave ht⟩
        · rw [if_neg h3] at ht ⊢
          obtain ⟨k', hk⟩ := ih (AucM.settleOne c w n).1 (k + 1)
          rw [hw] at hk
          exact ⟨k', .again ht hk⟩
      · rw [if_neg h2] at ht ⊢
        obtain ⟨k', hk⟩ := ih (AucM.settleOne c w n).1 k
        rw [hw] at hk
        exact ⟨k', .again ht hk⟩
    · refine ⟨k, ?_⟩
      simp only [AucM.hookLoop, if_neg h]
      exact .over (by simp only [aucTurn, pop_later t h])

theorem finishLoop (now : Block) (hf : ∀ w n, (RentM.handleFinished c n w).1.now = w.now) (w : World) (q : Queue) (k : Nat)
    (hn : w.now = now) : Loop (finishTurn c now) (w, q, k) (RentM.finishLoop c w q k) := by
  induction q generalizing w k with
  | nil => exact .over (by simp only [finishTurn, pop_nil])
  | cons x t ih =>
    obtain ⟨n, b⟩ := x
    subst hn
    by_cases h : b ≤ w.now
    · simp only [RentM.finishLoop, if_pos h]
      have ht : finishTurn c w.now (w, (n, b) :: t, k) = Locals.counted c.rentActions (RentM.handleFinished c n w).1 t k := by
        simp only [finishTurn, pop_due t h]
      rw [Locals.counted] at ht
      by_cases h3 : c.rentActions ≤ k + 1
      · rw [if_pos h3] at ht ⊢
        exact .leave ht
      · rw [if_neg h3] at ht ⊢
        exact .again ht (ih _ _ (hf w n))
    · simp only [RentM.finishLoop, if_neg h]
      exact .over (by simp only [finishTurn, pop_later t h])

theorem subTurn_due (w : World) (n : NFTId) (b : Block) (t : Queue) (k : Nat) (h : b ≤ w.now) :
    subTurn c w.now (w, (n, b) :: t, k) =
      Locals.counted c.rentActions (RentM.subOne c w n t).1 (RentM.subOne c w n t).2 k := by
  simp only [subTurn, pop_due t h, RentM.subOne]
  generalize RentM.handleSub c w n = r
  obtain ⟨w', _ | b'⟩ := r
  · rfl
  · simp only [insert_eq]
    cases Queue.insert c.rentLimit t n b' <;> rfl

theorem subLoop (now : Block) (hs : ∀ w n t, (RentM.subOne c w n t).1.now = w.now) (fuel : Nat) (w : World) (q : Queue) (k : Nat)
    (hn : w.now = now) (hk : c.rentActions ≤ k + fuel) (hp : 0 < fuel) :
    Loop (subTurn c now) (w, q, k) (RentM.subLoop c w q k fuel) := by
  induction fuel generalizing w q k with
  | zero => omega
  | succ fuel ih =>
    subst hn
    cases q with
    | nil => exact .over (by simp only [subTurn, pop_nil])
    | cons x t =>
      obtain ⟨n, b⟩ := x
      by_cases h : b ≤ w.now
      · have ht := subTurn_due c w n b t k h
        rw [Locals.counted] at ht
        simp only [RentM.subLoop, if_pos h]
        by_cases h3 : c.rentActions ≤ k + 1
        · rw [if_pos h3] at ht ⊢
          exact .leave ht
        · rw [if_neg h3] at ht ⊢
          exact .again ht (ih _ _ _ (hs w n t) (by omega) (by omega))
      · simp only [RentM.subLoop, if_neg h]
        exact .over (by simp only [subTurn, pop_later t h])

theorem transmit_now {w w' : World} {n : NFTId} (h : TrM.transmit w n = .ok w') : w'.now = w.now := by
  simp only [TrM.transmit] at h
  inv_ok at h
  obtain ⟨_, _, _, _, rfl⟩ := h
  rfl

theorem ok_or {α : Type} (x : Except Err α) : (∃ e, x = .error e) ∨ ∃ a, x = .ok a := by
  cases x with
  | error e => exact .inl ⟨e, rfl⟩
  | ok a => exact .inr ⟨a, rfl⟩

theorem hookOne_now (w : World) (n : NFTId) : (TrM.hookOne w n).1.now = w.now := by
  unfold TrM.hookOne
  rcases ok_or (TrM.transmit w n) with ⟨e, h⟩ | ⟨w', h⟩
  · simp only [h]; rfl
  · simp only [h]; exact (show (w'.ev _).now = w'.now from rfl).trans (transmit_now h)

theorem trTurn_due (w : World) (n : NFTId) (b : Block) (t : Queue) (k : Nat) (h : b ≤ w.now) :
    trTurn c w.now (w, (n, b) :: t, k) =
      let k' := if (TrM.hookOne w n).2 then k + 1 else k
      if c.trActions ≤ k' then .leave ((TrM.hookOne w n).1, t, k') else .again ((TrM.hookOne w n).1, t, k') := by
  unfold trTurn TrM.hookOne
  simp only [popFront_eq, pop_due t h]
  rcases ok_or (TrM.transmit w n) with ⟨e, h⟩ | ⟨w', h⟩
  · simp only [h, Bool.false_eq_true, if_false, ge_iff_le]
  · simp only [h, if_true, ge_iff_le]

theorem trLoop (w : World) (q : Queue) (k : Nat) : Loop (trTurn c w.now) (w, q, k) (TrM.hookLoop c w q k) := by
  induction q generalizing w k with
  | nil => exact .over (by simp only [trTurn, popFront_eq, pop_nil])
  | cons x t ih =>
    obtain ⟨n, b⟩ := x
    by_cases h : b ≤ w.now
    · have ht := trTurn_due c w n b t k h
      simp only [TrM.hookLoop, if_pos h]
      simp only at ht
      generalize (if (TrM.hookOne w n).2 = true then k + 1 else k) = k' at ht ⊢
      by_cases h3 : c.trActions ≤ k'
      · rw [if_pos h3] at ht ⊢
        exact .leave ht
      · rw [if_neg h3] at ht ⊢
        have := ih (TrM.hookOne w n).1 k'
        rw [hookOne_now] at this
        exact .again ht this
    · simp only [TrM.hookLoop, if_neg h]
      exact .over (by simp only [trTurn, popFront_eq, pop_later t h])

theorem aucHook (w : World) : AucHook c w (AucM.hook c w) := by
  obtain ⟨k', h⟩ := aucLoop c w w.auc.deadlines 0
  exact ⟨_, h, rfl⟩

theorem trHook (w : World) : TrHook c w (TrM.hook c w) := ⟨_, trLoop c w w.tr.queue 0, rfl⟩

theorem rentHook (w : World) : RentHook c w (RentM.hook c w) := by
  refine ⟨_, _, _, finishLoop c w.now (fun w n => RentM.handleFinished_now w n) w _ 0 rfl,
    subLoop c w.now (fun w n t => RentM.subOne_now w n t) (max 1 (c.rentActions - (RentM.finishLoop c w w.rent.fixedQ 0).2.2)) _ _ _
      (RentM.finishLoop_now ..) (by omega) (by omega),
    finishLoop c w.now (fun w n => RentM.handleFinished_now w n) _ _ _ ?_, rfl⟩
  rw [RentM.subLoop_now, RentM.finishLoop_now]

theorem AucHook.det {w a b : World} (ha : AucHook c w a) (hb : AucHook c w b) : a = b := by
  obtain ⟨s, hs, rfl⟩ := ha
  obtain ⟨t, ht, rfl⟩ := hb
  rw [hs.det ht]

theorem TrHook.det {w a b : World} (ha : TrHook c w a) (hb : TrHook c w b) : a = b := by
  obtain ⟨s, hs, rfl⟩ := ha
  obtain ⟨t, ht, rfl⟩ := hb
  rw [hs.det ht]

theorem RentHook.det {w a b : World} (ha : RentHook c w a) (hb : RentHook c w b) : a = b := by
  obtain ⟨f, s, x, hf, hs, hx, rfl⟩ := ha
  obtain ⟨f', s', x', hf', hs', hx', rfl⟩ := hb
  obtain rfl := hf.det hf'
  obtain rfl := hs.det hs'
  obtain rfl := hx.det hx'
  rfl

theorem insert_split (q : Queue) (n : NFTId) (b : Block) :
    Queue.ins n b q = q.takeWhile (fun x => decide (x.2 ≤ b)) ++ (n, b) :: q.dropWhile (fun x => decide (x.2 ≤ b)) := by
  induction q with
  | nil => rfl
  | cons x t ih =>
    obtain ⟨m, y⟩ := x
    simp only [Queue.ins]
    by_cases h : y > b
    · have : ¬ y ≤ b := by omega
      simp [h, this]
    · have : y ≤ b := by omega
      simp [h, this, ih]

end Code
