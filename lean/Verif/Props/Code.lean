import Verif.Proofs.Code
import Verif.Props.Rent
/-
C129: the work at the start of a block ends, and the lists it works on do what their names say.

`Verif/Model/Code.lean` writes the vectors and the `while let` loops down as they stand in the code.  A loop is a relation that
holds of its first and its last state; a loop that does not end, or panics, relates its first state to nothing.
-/

/-- The auctions' work at the start of a block ends, in exactly one state, without a panic; that state is the one the rest of
this development speaks of.  No assumption is made on what is stored. -/
theorem C129_auctions (c : Cfg) (w w' : World) : Code.AucHook c w w' ↔ w' = AucM.hook c w :=
  ⟨fun h => h.det c (Code.aucHook c w), fun h => h ▸ Code.aucHook c w⟩

/-- The same for the rents, whose middle loop puts entries back on the schedule it reads from. -/
theorem C129_rents (c : Cfg) (w w' : World) : Code.RentHook c w w' ↔ w' = RentM.hook c w :=
  ⟨fun h => h.det c (Code.rentHook c w), fun h => h ▸ Code.rentHook c w⟩

/-- The same for the transmissions. -/
theorem C129_transmissions (c : Cfg) (w w' : World) : Code.TrHook c w w' ↔ w' = TrM.hook c w :=
  ⟨fun h => h.det c (Code.trHook c w), fun h => h ▸ Code.trHook c w⟩

/-- An entry put on a schedule with room goes behind all that are due no later at the front and before the first that is due
later; nothing else moves.  A full schedule refuses.  Nothing panics. -/
theorem C129_insert (limit : Nat) (q : Queue) (n : NFTId) (b : Block) :
    Code.insert limit q n b = .ok (if q.length < limit then
      some (q.takeWhile (fun x => decide (x.2 ≤ b)) ++ (n, b) :: q.dropWhile (fun x => decide (x.2 ≤ b))) else none) ∧
    Code.insert limit q n b = .ok (Queue.insert limit q n b) := by
  refine ⟨?_, Code.insert_eq limit q n b⟩
  rw [Code.insert_eq, Queue.insert, Code.insert_split]

/-- What is taken from a schedule is its front, if due, and only the front; both ways of writing this agree. -/
theorem C129_pop (q : Queue) (now : Block) :
    Code.popNext q now = .ok (match q with
      | [] => (none, [])
      | (n, b) :: t => if b ≤ now then (some n, t) else (none, (n, b) :: t)) ∧
    Code.popFront q now = Code.popNext q now ∧
    (∀ r, Code.popNext q now = .ok r → Code.next q now = r.1) := by
  have h : Code.popNext q now = .ok (match q with
      | [] => (none, [])
      | (n, b) :: t => if b ≤ now then (some n, t) else (none, (n, b) :: t)) := by
    cases q with
    | nil => rfl
    | cons x t =>
      obtain ⟨n, b⟩ := x
      by_cases h : b ≤ now
      · rw [Code.pop_due t h]; simp only [if_pos h]
      · rw [Code.pop_later t h]; simp only [if_neg h]
  refine ⟨h, Code.popFront_eq q now, fun r hr => ?_⟩
  rw [h] at hr
  cases hr
  cases q with
  | nil => rfl
  | cons x t =>
    obtain ⟨n, b⟩ := x
    simp only [Code.next, List.getElem?_cons_zero]
    split <;> rfl

/-- Reading, removing and moving an NFT's entry concerns its first entry only.  Nothing panics but moving on a schedule over its
limit, and only as in the rest of the development. -/
theorem C129_entry (limit : Nat) (q : Queue) (n : NFTId) (b : Block) :
    Code.get q n = .ok ((q.find? fun x => x.1 == n).map (·.2)) ∧
    Code.remove q n = .ok (q.any fun x => x.1 == n, q.eraseP fun x => x.1 == n) ∧
    Code.get q n = .ok (Queue.find n q) ∧ Code.remove q n = .ok (Queue.has q n, Queue.remove n q) ∧
    Code.update limit q n b = (Queue.update limit q n b).map (fun q' => (Queue.has q n, q')) ∧
    (q.length ≤ limit → ∃ r, Code.update limit q n b = .ok r) := by
  have hf : Queue.find n q = (q.find? fun x => x.1 == n).map (·.2) := by
    induction q with
    | nil => rfl
    | cons x t ih =>
      obtain ⟨m, y⟩ := x
      simp only [Queue.find, List.find?_cons]
      by_cases h : m = n
      · simp [h]
      · have e : (m == n) = false := by simpa using h
        simp [h, e, ih]
  have hr : Queue.remove n q = q.eraseP fun x => x.1 == n := by
    clear hf
    induction q with
    | nil => rfl
    | cons x t ih =>
      obtain ⟨m, y⟩ := x
      simp only [Queue.remove, List.eraseP_cons]
      by_cases h : m = n
      · simp [h]
      · have e : (m == n) = false := by simpa using h
        simp [h, e, ih]
  have ha : Queue.has q n = q.any fun x => x.1 == n := by
    simp only [Queue.has, hf, Option.isSome_map]
    rw [Bool.eq_iff_iff, List.find?_isSome, List.any_eq_true]
  refine ⟨by rw [Code.get_eq, hf], by rw [Code.remove_eq, hr, ha], Code.get_eq q n, Code.remove_eq q n, Code.update_eq limit q n b,
    fun hl => ?_⟩
  rw [Code.update_eq, Queue.update]
  by_cases h : Queue.has q n = true
  · rw [if_pos h]
    have : (Queue.remove n q).length < limit := by
      rw [hr]
      rw [ha] at h
      obtain ⟨x, hx, hn⟩ := List.any_eq_true.1 h
      have hpos : 0 < q.length := List.length_pos_of_mem hx
      have := List.length_eraseP_of_mem (p := fun x : NFTId × Block => x.1 == n) hx hn
      omega
    simp only [Queue.insert, if_pos this, expectSome]
    exact ⟨_, rfl⟩
  · rw [if_neg h]
    exact ⟨_, rfl⟩

/-- The bids of an auction: the highest is the last; a bidder's bid is the first under their name; a new bid goes to the end, and
from a full list the first, and only the first, goes.  Nothing panics if the limit is not zero. -/
theorem C129_bids (c : Cfg) (l : List (AccountId × Balance)) (who : AccountId) (v : Balance) :
    Code.removeHighestBid l = .ok (l.getLast?, l.dropLast) ∧
    Code.findBid l who = (AucM.findBid who l).map (fun v => (who, v)) ∧
    Code.removeBid l who = .ok (l.find? (fun x => x.1 == who), l.eraseP fun x => x.1 == who) ∧
    Code.removeBid l who = .ok ((AucM.findBid who l).map (fun v => (who, v)), AucM.removeBid who l) ∧
    (l.length ≤ c.bidLimit → 0 < c.bidLimit →
      Code.insertNewBid c.bidLimit l who v = AucM.insertBid c l who v ∧
      Code.insertNewBid c.bidLimit l who v =
        .ok (if c.bidLimit ≤ l.length then (l.head?, l.tail ++ [(who, v)]) else (none, l ++ [(who, v)]))) := by
  have hr : AucM.removeBid who l = l.eraseP fun x => x.1 == who := by
    induction l with
    | nil => rfl
    | cons x t ih =>
      obtain ⟨m, y⟩ := x
      simp only [AucM.removeBid, List.eraseP_cons]
      by_cases h : m = who
      · simp [h]
      · have e : (m == who) = false := by simpa using h
        simp [h, e, ih]
  refine ⟨Code.removeHighestBid_eq l, Code.findBid_eq l who, ?_, Code.removeBid_eq l who, fun hl hp => ?_⟩
  · rw [Code.removeBid_eq, hr, ← Code.findBid_eq]; rfl
  · have e : Code.insertNewBid c.bidLimit l who v =
        .ok (if c.bidLimit ≤ l.length then (l.head?, l.tail ++ [(who, v)]) else (none, l ++ [(who, v)])) := by
      simp only [Code.insertNewBid]
      by_cases h : c.bidLimit ≤ l.length
      · rw [if_pos h, if_pos h]
        cases l with
        | nil => simp at h; omega
        | cons x t =>
          have : t.length < c.bidLimit := by simp only [List.length_cons] at hl; omega
          simp [Code.vecRemove, Code.tryPush, this, expectSome, bind, Except.bind, pure, Except.pure]
      · rw [if_neg h, if_neg h]
        have : l.length < c.bidLimit := by omega
        simp [Code.tryPush, this, expectSome, bind, Except.bind, pure, Except.pure]
    refine ⟨?_, e⟩
    rw [e]
    unfold AucM.insertBid
    by_cases h : c.bidLimit ≤ l.length
    · rw [if_pos h, if_pos h]
      cases l with
      | nil => simp at h; omega
      | cons x t => rfl
    · rw [if_neg h, if_neg h]

/-- Setting a flag of an NFT's state sets that flag and no other; a state is no more than its flags. -/
theorem C129_flags (s : NFTState) (f : Code.Flag) (v : Bool) :
    (∀ g : Code.Flag, g.of ((Code.setState s f v).getD s) = if g = f then v else g.of s) ∧
    (∀ s' : NFTState, (∀ g : Code.Flag, g.of s' = g.of s) → s' = s) := by
  constructor
  · intro g
    simp only [Code.setState]
    by_cases h : f.of s = v
    · rw [if_pos h]
      by_cases hg : g = f
      · rw [if_pos hg, hg]; exact h
      · rw [if_neg hg]; rfl
    · rw [if_neg h]
      cases f <;> cases g <;> rfl
  · intro s' h
    obtain ⟨a1, a2, a3, a4, a5, a6, a7, a8, a9⟩ := s
    obtain ⟨b1, b2, b3, b4, b5, b6, b7, b8, b9⟩ := s'
    have h1 := h .capsule; have h2 := h .isListed; have h3 := h .secret; have h4 := h .delegated; have h5 := h .soulbound
    have h6 := h .secretSyncing; have h7 := h .rented; have h8 := h .capsuleSyncing; have h9 := h .isTransmission
    simp only [Code.Flag.of] at h1 h2 h3 h4 h5 h6 h7 h8 h9
    simp [h1, h2, h3, h4, h5, h6, h7, h8, h9]

/-- The check for a list of flags passes just if none of them is set, and otherwise names the first that is. -/
theorem C129_check (s : NFTState) (l : List Code.Flag) :
    (Code.notInState s l = .ok () ↔ ∀ f ∈ l, f.of s = false) ∧
    (∀ f, Code.notInState s l = .error f ↔ l.find? (fun f => f.of s) = some f) ∧
    (Code.notInState s Code.invalidState = .ok () ↔ RentM.valid s = true) := by
  have h1 : ∀ l, Code.notInState s l = .ok () ↔ ∀ f ∈ l, f.of s = false := by
    intro l
    induction l with
    | nil => simp [Code.notInState]
    | cons g t ih =>
      simp only [Code.notInState]
      by_cases h : g.of s = true
      · simp [h]
      · have h' : g.of s = false := by simpa using h
        simp [h', ih]
  refine ⟨h1 l, fun f => ?_, ?_⟩
  · induction l with
    | nil => simp [Code.notInState]
    | cons g t ih =>
      simp only [Code.notInState, List.find?_cons]
      by_cases h : g.of s = true
      · simp [h]
      · have h' : g.of s = false := by simpa using h
        simp [h', ih]
  · rw [h1]
    simp [Code.invalidState, Code.Flag.of, RentM.valid, and_assoc]

/-! ## cases -/

/-- in a reachable state, when the next block begins, the loops end a contract -/
example : Reach Demo.cfg (Demo.at_ (rented ++ Demo.ticks 9)) ∧
    ∀ w', Code.RentHook Demo.cfg { Demo.at_ (rented ++ Demo.ticks 9) with now := 10 } w' →
      (Demo.at_ (rented ++ Demo.ticks 9)).rent.contracts.get 0 ≠ none ∧ w'.rent.contracts.get 0 = none :=
  ⟨Demo.reach _ (by decide), fun w' h => by
    rw [C129_rents] at h
    subst h
    exact ⟨by decide +kernel, by decide +kernel⟩⟩

/-- the entry goes behind the equal one; the full schedule refuses; the front goes only when due -/
example : Code.insert 3 [(7, 2), (8, 5)] 9 2 = .ok (some [(7, 2), (9, 2), (8, 5)]) ∧
    Code.insert 2 [(7, 2), (8, 5)] 9 2 = .ok none ∧ Code.popNext [(7, 2), (8, 5)] 1 = .ok (none, [(7, 2), (8, 5)]) ∧
    Code.popNext [(7, 2), (8, 5)] 2 = .ok (some 7, [(8, 5)]) := ⟨rfl, rfl, rfl, rfl⟩

/-- a full list of bids loses its first -/
example : Code.insertNewBid 2 [(1, 10), (2, 20)] 3 30 = .ok (some (1, 10), [(2, 20), (3, 30)]) := rfl
