import Verif.Model.Step
/-
The sizes by which calls are charged: the arguments of the weight functions in the `#[pallet::weight]` attributes.
What the weight functions make of them is left to benchmarks and not modelled.  The casts to `u32` are left out; the
lists are bounded by constants of that type.
-/

namespace NftM

/-- the length of a collection's list, 1 if there is no collection, nft/src/lib.rs 447-457, 902-912, 1055-1065 and 826-832 -/
def collSize (w : World) (k : Option CollId) : Nat :=
  match k with
  | none => 1
  | some k =>
    match w.nft.colls.get k with
    | some x => x.nfts.length
    | none => 1

/-- nft/src/lib.rs; `burn_nft` at 481-497 -/
def callSize (w : World) : Call → Option Nat
  | .createNft _ _ k _ => some (collSize w k)
  | .createSecret _ _ _ k _ => some (collSize w k)
  | .createCapsule _ _ _ k _ => some (collSize w k)
  | .burnNft n =>
    match w.nfts.get n with
    | some d => some (collSize w d.coll)
    | none => some 1
  | .addToColl _ k => some (collSize w (some k))
  | _ => none

end NftM

namespace AucM

/-- number of bidders, auction/src/lib.rs 507 and 571 -/
def bidders (w : World) (n : NFTId) : Nat :=
  match w.auc.auctions.get n with
  | some x => x.bids.length
  | none => 0

/-- auction/src/lib.rs 341, 450, 475, 505-511, 569-575, 605, 644 -/
def callSize (w : World) : Call → Option Nat
  | .create .. => some w.auc.deadlines.length
  | .cancel _ => some w.auc.deadlines.length
  | .end_ _ => some w.auc.deadlines.length
  | .addBid n _ => some (bidders w n)
  | .removeBid n => some (bidders w n)
  | .buyItNow .. => some w.auc.deadlines.length
  | .claim => none

end AucM

namespace RentM

/-- `RentingQueues::size`, rent/src/types.rs 447-450 -/
def queuesSize (w : World) : Nat := w.rent.fixedQ.length + w.rent.subQ.length + w.rent.availQ.length

/-- rent/src/lib.rs 354, 483, 513, 573, 636, 723, 776, 804, 865 -/
def callSize (w : World) : Call → Option Nat
  | .retractOffer n =>
    match w.rent.offers.get n with
    | some l => some l.length
    | none => some 0
  | _ => some (queuesSize w)

end RentM

/-- The size by which a call is charged, if there is one.  The calls of transmission-protocols, lib.rs 308, 425, 477
and 522, go by the length of the queue, transmission-protocols/src/types.rs 213-215.  The calls of the other pallets
have a constant weight; `mandate` adds the weight of the call inside, which is dispatched as root and has no size
either (mandate/src/lib.rs). -/
def callSize (w : World) : Call → Option Nat
  | .nft x => NftM.callSize w x
  | .auc x => AucM.callSize w x
  | .rent x => RentM.callSize w x
  | .tr _ => some w.tr.queue.length
  | _ => none
