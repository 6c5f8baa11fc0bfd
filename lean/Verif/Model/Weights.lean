import Verif.Model.Step
/-
The weights that the block hooks report: numbers of storage reads and writes, `T::DbWeight::get().reads_writes(read, write)`.
The sizes by which calls are charged are in CallSize; what benchmarks make of them (the weights.rs files) is not modelled.
-/
variable (c : Cfg)

namespace AucM

/-- reads and writes counted for one due auction, auction/src/lib.rs 135-174: nothing if it is skipped -/
def settleWeight (w : World) (n : NFTId) : Nat × Nat :=
  match w.auc.auctions.get n with
  | none => (0, 0)
  | some a =>
    match w.nfts.get n with
    | none => (0, 0)
    | some d =>
      match a.bids.getLast? with
      | some top =>
        match payForNft c w n c.aucPot top.2 d a with
        | (_, .error _) => (0, 0)
        | (_, .ok ()) => (a.bids.dropLast.length + 3, 2)
      | none => (3, 2)

/-- Reads and writes counted in the loop of `on_initialize`, auction/src/lib.rs 134-180; goes along with `hookLoop`. -/
def loopWeight (w : World) : Queue → Nat → Nat × Nat
  | [], _ => (0, 0)
  | (n, b) :: t, k =>
    if b ≤ w.now then
      let x := settleWeight c w n
      let r := settleOne c w n
      let y :=
        if r.2 then
          if c.aucActions ≤ k + 1 then (0, 0) else loopWeight r.1 t (k + 1)
        else loopWeight r.1 t k
      (x.1 + y.1, x.2 + y.2)
    else (0, 0)

/-- the weight `on_initialize` returns, auction/src/lib.rs 125-126 and 183 -/
def weight (w : World) : Nat × Nat :=
  let x := loopWeight c w w.auc.deadlines 0
  (1 + x.1, x.2)

end AucM

namespace RentM

/-- The weight `on_initialize` returns, rent/src/lib.rs 284-347.  Each loop adds the same for every action, so the numbers
follow from how often the loops have counted: 3 reads each, 4 writes for fixed contracts, 2 for subscriptions, 5 for
available ones. -/
def weight (w : World) : Nat × Nat :=
  let f := finishLoop c w w.rent.fixedQ 0
  let s := subLoop c f.1 w.rent.subQ f.2.2 (max 1 (c.rentActions - f.2.2))
  let a := finishLoop c s.1 w.rent.availQ s.2.2
  (1 + 3 * a.2.2,
    4 * f.2.2 + 2 * (s.2.2 - f.2.2) + 5 * (a.2.2 - s.2.2) + if 0 < a.2.2 then 1 else 0)

end RentM

namespace TrM

/-- The weight `on_initialize` returns, transmission-protocols/src/lib.rs 167-202: 2 reads and 2 writes for each counted
action and a write of the queue. -/
def weight (w : World) : Nat × Nat :=
  let k := (hookLoop c w w.tr.queue 0).2.2
  (2 + 2 * k, 2 * k + if 0 < k then 1 else 0)

end TrM

namespace TeeM

/-- the weight `on_initialize` returns, tee/src/lib.rs 260-283: one read if there is an active era and never a write -/
def weight (w : World) : Nat × Nat := (if w.active.isSome then 1 else 0, 0)

end TeeM
