import Verif.Props.ScopeSpec
/-
Specification for C109: what the hooks that run at the start of a block are about.
-/
namespace Spec

/-- the pallets that act at the start of a block -/
inductive Hook where
  | auction
  | rent
  | transmission
  | tee
deriving DecidableEq

/-- the operation -/
def Hook.op : Hook → Op
  | .auction => .hookAuc
  | .rent => .hookRent
  | .transmission => .hookTr
  | .tee => .hookTee

/-- the hooks that move tokens -/
def Hook.money : Hook → Bool
  | .auction | .rent => true
  | _ => false

/-- running the hooks of a list, one after the other -/
def hooks (c : Cfg) (w : World) (l : List Hook) : World := run c w (l.map Hook.op)

/-- the NFTs of a schedule whose time has come -/
def dueBy (now : Block) (q : List (NFTId × Block)) : List NFTId := (q.filter (·.2 ≤ now)).map (·.1)

/-- the NFTs a contract's parties have deposited -/
def depositedNfts (w : World) (n : NFTId) : List Item :=
  match w.rent.contracts.get n with
  | some k =>
    (match k.renterFee with | .nft m => [.nft m] | _ => []) ++
    (match k.rentee, k.renteeFee with | some _, .nft m => [.nft m] | _, _ => [])
  | none => []

/-- What a hook is about: its schedule, and what belongs to the NFTs whose time has come. -/
def hookUses (c : Cfg) (w : World) : Hook → List Item
  | .auction => [.auctions, .account c.aucPot] ++
      (dueBy w.now w.auc.deadlines).flatMap fun n => .nft n :: auctionPayees w n ++ refunds w n
  | .rent => [.rents, .account c.rentPot] ++
      (dueBy w.now w.rent.fixedQ ++ dueBy w.now w.rent.subQ ++ dueBy w.now w.rent.availQ).flatMap fun n =>
        .nft n :: parties w n ++ depositedNfts w n
  | .transmission => .transmissions :: (dueBy w.now w.tr.queue).map .nft
  | .tee => [.tee]

/-- what a hook may change: all of that but marketplaces, and the total issuance -/
def hookTouches (c : Cfg) (w : World) (k : Hook) : List Item :=
  .supply :: (hookUses c w k).filter fun i => match i with | .market _ => false | _ => true

/-- two hooks do not meet: neither may change what the other is about -/
def HooksApart (c : Cfg) (w : World) (j k : Hook) : Prop :=
  (∀ i ∈ hookTouches c w j, i ∉ hookUses c w k) ∧ ∀ i ∈ hookTouches c w k, i ∉ hookUses c w j

instance (c : Cfg) (w : World) (j k : Hook) : Decidable (HooksApart c w j k) := by unfold HooksApart; infer_instance

/-- the same state in all pieces -/
def SameState (w1 w2 : World) : Prop := Settings w1 w2 ∧ ∀ i, same w1 w2 i

end Spec
