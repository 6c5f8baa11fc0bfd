import Verif.Model.Step
/-
The lists and loops of the code as they are written: bounded vectors with positions, and `while let` loops.  The other files of
the model use recursive functions instead; `Verif/Props/Code.lean` shows that they compute the same.
-/
namespace Code

/-! ## vectors -/

variable {α : Type}

/-- `self.0.iter().position(p)` -/
def position (p : α → Bool) (l : List α) : Option Nat := l.findIdx? p

/-- `Vec::remove(i)`: the element and the rest; panics out of range -/
def vecRemove (l : List α) (i : Nat) : Except Err (α × List α) :=
  match l[i]? with
  | some x => .ok (x, l.take i ++ l.drop (i + 1))
  | none => .error (.panic "removal index should be < len")

/-- `BoundedVec::try_insert(i, x)`: `Err` when full; `Vec::insert` panics beyond the end -/
def tryInsert (limit : Nat) (l : List α) (i : Nat) (x : α) : Except Err (Option (List α)) :=
  if l.length < limit then
    if i ≤ l.length then .ok (some (l.take i ++ x :: l.drop i)) else .error (.panic "insertion index should be <= len")
  else .ok none

/-- `BoundedVec::try_push(x)`: `Err` when full -/
def tryPush (limit : Nat) (l : List α) (x : α) : Option (List α) := if l.length < limit then some (l ++ [x]) else none

/-! ## schedules

`DeadlineList`, auction/src/types.rs 250-319, `Queue`, rent/src/types.rs 339-405, and `Queue`,
transmission-protocols/src/types.rs 191-290. -/

/-- `get`, rent/src/types.rs 343-350 and transmission-protocols/src/types.rs 203-210 -/
def get (q : Queue) (n : NFTId) : Except Err (Option Block) :=
  match position (fun x => x.1 == n) q with
  | some i =>
    match q[i]? with
    | some x => .ok (some x.2)
    | none => .error (.panic "index out of bounds")
  | none => .ok none

/-- `insert`, auction/src/types.rs 254-262, rent/src/types.rs 356-364, transmission-protocols/src/types.rs 218-226; `none` is
`Err(())` -/
def insert (limit : Nat) (q : Queue) (n : NFTId) (b : Block) : Except Err (Option Queue) :=
  let index := position (fun x => decide (x.2 > b)) q
  let index := index.getD q.length
  tryInsert limit q index (n, b)

/-- `remove`, auction/src/types.rs 264-272, rent/src/types.rs 366-374, transmission-protocols/src/types.rs 229-237 -/
def remove (q : Queue) (n : NFTId) : Except Err (Bool × Queue) :=
  match position (fun x => x.1 == n) q with
  | some i =>
    match vecRemove q i with
    | .ok x => .ok (true, x.2)
    | .error e => .error e
  | none => .ok (false, q)

/-- `update`, auction/src/types.rs 274-282, rent/src/types.rs 376-384, transmission-protocols/src/types.rs 240-248 -/
def update (limit : Nat) (q : Queue) (n : NFTId) (b : Block) : Except Err (Bool × Queue) := do
  let r ← remove q n
  if r.1 then
    let q' ← expectSome (← insert limit r.2 n b) "Cannot happen."
    pure (true, q')
  else pure (false, r.2)

/-- `next`, auction/src/types.rs 284-291, rent/src/types.rs 386-393, transmission-protocols/src/types.rs 251-258 -/
def next (q : Queue) (now : Block) : Option NFTId :=
  match q[0]? with
  | none => none
  | some front => if front.2 ≤ now then some front.1 else none

/-- `pop_next`, auction/src/types.rs 293-302 and rent/src/types.rs 395-404: the first entry of the front's NFT is removed -/
def popNext (q : Queue) (now : Block) : Except Err (Option NFTId × Queue) :=
  match q[0]? with
  | none => .ok (none, q)
  | some front =>
    if front.2 ≤ now then do
      let r ← remove q front.1
      pure (some front.1, r.2)
    else .ok (none, q)

/-- `pop_next`, transmission-protocols/src/types.rs 261-269: the front itself is removed -/
def popFront (q : Queue) (now : Block) : Except Err (Option NFTId × Queue) :=
  match q[0]? with
  | none => .ok (none, q)
  | some front =>
    if front.2 ≤ now then do
      let r ← vecRemove q 0
      pure (some r.1.1, r.2)
    else .ok (none, q)

/-! ## bids: `BidderList`, auction/src/types.rs 134-238 -/

/-- `insert_new_bid`, auction/src/types.rs 156-171 -/
def insertNewBid (limit : Nat) (l : List (AccountId × Balance)) (who : AccountId) (v : Balance) :
    Except Err (Option (AccountId × Balance) × List (AccountId × Balance)) :=
  if limit ≤ l.length then do
    let r ← vecRemove l 0
    let l' ← expectSome (tryPush limit r.2 (who, v)) "Cannot happen."
    pure (some r.1, l')
  else do
    let l' ← expectSome (tryPush limit l (who, v)) "Cannot happen."
    pure (none, l')

/-- `remove_highest_bid`, auction/src/types.rs 194-199 -/
def removeHighestBid (l : List (AccountId × Balance)) : Except Err (Option (AccountId × Balance) × List (AccountId × Balance)) :=
  match l.length with
  | 0 => .ok (none, l)
  | n + 1 => do
    let r ← vecRemove l n
    pure (some r.1, r.2)

/-- `remove_bid`, auction/src/types.rs 202-207 -/
def removeBid (l : List (AccountId × Balance)) (who : AccountId) :
    Except Err (Option (AccountId × Balance) × List (AccountId × Balance)) :=
  match position (fun x => x.1 == who) l with
  | some i => do
    let r ← vecRemove l i
    pure (some r.1, r.2)
  | none => .ok (none, l)

/-- `find_bid`, auction/src/types.rs 210-215 -/
def findBid (l : List (AccountId × Balance)) (who : AccountId) : Option (AccountId × Balance) := l.find? fun x => x.1 == who

/-! ## flags: primitives/src/nfts.rs -/

/-- `NFTStateModifiers`, primitives/src/nfts.rs 32-48 -/
inductive Flag where
  | capsule
  | isListed
  | secret
  | delegated
  | soulbound
  | secretSyncing
  | rented
  | capsuleSyncing
  | isTransmission
deriving DecidableEq

/-- the field a modifier stands for, primitives/src/nfts.rs 170-180 -/
def Flag.of (s : NFTState) : Flag → Bool
  | .capsule => s.capsule
  | .isListed => s.listed
  | .secret => s.secret
  | .delegated => s.delegated
  | .soulbound => s.soulbound
  | .secretSyncing => s.syncSecret
  | .rented => s.rented
  | .capsuleSyncing => s.syncCapsule
  | .isTransmission => s.transmission

/-- `not_in_state`, primitives/src/nfts.rs 168-187: the first of the flags that is set -/
def notInState (s : NFTState) : List Flag → Except Flag Unit
  | [] => .ok ()
  | f :: t => if f.of s = true then .error f else notInState s t

/-- `set_state`, primitives/src/nfts.rs 189-218; `none` when nothing is to be done -/
def setState (s : NFTState) (f : Flag) (active : Bool) : Option NFTState :=
  if f.of s = active then none
  else some <| match f with
    | .capsule => { s with capsule := active }
    | .isListed => { s with listed := active }
    | .secret => { s with secret := active }
    | .delegated => { s with delegated := active }
    | .soulbound => { s with soulbound := active }
    | .secretSyncing => { s with syncSecret := active }
    | .rented => { s with rented := active }
    | .capsuleSyncing => { s with syncCapsule := active }
    | .isTransmission => { s with transmission := active }

/-- `invalid_state`, rent/src/lib.rs 1084-1086 -/
def invalidState : List Flag :=
  [.isListed, .delegated, .soulbound, .secretSyncing, .rented, .capsuleSyncing, .isTransmission]

/-! ## loops -/

/-- What one turn of a loop does: the loop is over (the pattern of `while let` does not match), the turn ends in `break`, or the
loop goes on.  A panic in the turn is `crash`. -/
inductive Turn (σ : Type) where
  | over
  | leave (s : σ)
  | again (s : σ)
  | crash

/-- `while let … { … }`: from `s` the loop ends in `s'`.  A loop that goes on for ever or panics ends in no state. -/
inductive Loop {σ : Type} (turn : σ → Turn σ) : σ → σ → Prop where
  | over {s : σ} : turn s = .over → Loop turn s s
  | leave {s s' : σ} : turn s = .leave s' → Loop turn s s'
  | again {s s' s'' : σ} : turn s = .again s' → Loop turn s' s'' → Loop turn s s''

variable (c : Cfg)

/-- the state of the world, the copy of the schedule and the number of actions so far -/
abbrev Locals := World × Queue × Nat

/-- a turn that does at least the counted action, and the test at its end -/
def Locals.counted (limit : Nat) (w : World) (q : Queue) (k : Nat) : Turn Locals :=
  if k + 1 ≥ limit then .leave (w, q, k + 1) else .again (w, q, k + 1)

/-- the end of a turn of the auctions' loop, auction/src/lib.rs 169-179: the NFT is written back, the auction removed -/
def aucEnd (w : World) (q : Queue) (k : Nat) (n : NFTId) (d : NFTData) : Turn Locals :=
  let d := { d with st := { d.st with listed := false } }
  let w := w.putNft n d
  let w := { w with auc := { w.auc with auctions := w.auc.auctions.erase n } }
  Locals.counted c.aucActions w q k

/-- a turn of the auctions' loop, auction/src/lib.rs 134-180.  The number of reads for the weight is in `Weights.lean`. -/
def aucTurn (now : Block) : Locals → Turn Locals
  | (w, deadlines, actions) =>
    match popNext deadlines now with
    | .error _ => .crash
    | .ok (none, _) => .over
    | .ok (some n, q) =>
      match w.auc.auctions.get n with
      | none => .again (w, q, actions)
      | some auction =>
        match w.nfts.get n with
        | none => .again (w, q, actions)
        | some nft =>
          match removeHighestBid auction.bids with
          | .error _ => .crash
          | .ok (some (newOwner, paid), rest) =>
            let auction := { auction with bids := rest }
            match AucM.payForNft c w n c.aucPot paid nft auction with
            | (b, .error _) => .again (w.putBal b, q, actions)
            | (b, .ok ()) =>
              let w := w.putBal b
              let w := { w with auc := { w.auc with claims := AucM.addClaims w.auc.claims auction.bids } }
              let nft := { nft with owner := newOwner }
              let w := w.ev (.auctionCompleted n (some newOwner) (some paid))
              aucEnd c w q actions n nft
          | .ok (none, _) => aucEnd c (w.ev (.auctionCompleted n none none)) q actions n nft

/-- `on_initialize`, auction/src/lib.rs 124-184, ends in `w'` -/
def AucHook (w w' : World) : Prop :=
  ∃ s, Loop (aucTurn c w.now) (w, w.auc.deadlines, 0) s ∧ w' = { s.1 with auc := { s.1.auc with deadlines := s.2.1 } }

/-- a turn of the loops for fixed and for offered contracts, rent/src/lib.rs 293-306 and 329-341 (the events are in
`Events.lean`) -/
def finishTurn (now : Block) : Locals → Turn Locals
  | (w, q, k) =>
    match popNext q now with
    | .error _ => .crash
    | .ok (none, _) => .over
    | .ok (some n, q) => Locals.counted c.rentActions (RentM.handleFinished c n w).1 q k

/-- a turn of the loop for subscriptions, rent/src/lib.rs 309-326 -/
def subTurn (now : Block) : Locals → Turn Locals
  | (w, q, k) =>
    match popNext q now with
    | .error _ => .crash
    | .ok (none, _) => .over
    | .ok (some n, q) =>
      match RentM.handleSub c w n with
      | (w, some b) =>
        match insert c.rentLimit q n b with
        | .error _ => .crash
        | .ok none => Locals.counted c.rentActions w q k
        | .ok (some q) => Locals.counted c.rentActions w q k
      | (w, none) => Locals.counted c.rentActions (RentM.handleFinished c n w).1 q k

/-- `on_initialize`, rent/src/lib.rs 284-347, ends in `w'` -/
def RentHook (w w' : World) : Prop :=
  ∃ f s a, Loop (finishTurn c w.now) (w, w.rent.fixedQ, 0) f ∧ Loop (subTurn c w.now) (f.1, w.rent.subQ, f.2.2) s ∧
    Loop (finishTurn c w.now) (s.1, w.rent.availQ, s.2.2) a ∧
    w' = if a.2.2 > 0 then { a.1 with rent := { a.1.rent with fixedQ := f.2.1, subQ := s.2.1, availQ := a.2.1 } } else a.1

/-- a turn of the transmissions' loop, transmission-protocols/src/lib.rs 176-196 -/
def trTurn (now : Block) : Locals → Turn Locals
  | (w, q, k) =>
    match popFront q now with
    | .error _ => .crash
    | .ok (none, _) => .over
    | .ok (some n, q) =>
      let r := match TrM.transmit w n with
        | .ok w => (w.ev (.transmitted n), k + 1)
        | .error _ => (w.ev (.transmissionError n), k)
      if r.2 ≥ c.trActions then .leave (r.1, q, r.2) else .again (r.1, q, r.2)

/-- `on_initialize`, transmission-protocols/src/lib.rs 167-202, ends in `w'` -/
def TrHook (w w' : World) : Prop :=
  ∃ s, Loop (trTurn c w.now) (w, w.tr.queue, 0) s ∧
    w' = if s.2.2 > 0 then { s.1 with tr := { s.1.tr with queue := s.2.1 } } else s.1

end Code
