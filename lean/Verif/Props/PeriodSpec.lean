import Verif.Props.ObserverSpec
/-
For how long rentees have paid, told from events.  Refers to the model's records and events, not to its calls or hooks.
-/
namespace Spec

/-- for how long one payment of rent lasts -/
def term (k : Contract) : Block :=
  match k.duration with
  | .fixed d => d
  | .sub u => u.period

/-- the NFT whose rent an event says is paid -/
def rentPaid : Event → Option NFTId
  | .contractStarted n _ => some n
  | .periodStarted n => some n
  | _ => none

/-- Until when the rent of each NFT is paid, after an event of block `now`. -/
def paidNext (now : Block) (v : View) (d : NFTId → Block) (e : Event) : NFTId → Block :=
  match rentPaid e with
  | some n => fun m => if m = n then now + (v.contract n).elim 0 term else d m
  | none => d

/-- Until when the rent of each NFT is paid, after a series of events; `v` and `d` are the books and the answer before. -/
def paidUntil (c : Cfg) (v : View) (d : NFTId → Block) : List (Block × Event) → NFTId → Block
  | [] => d
  | (now, e) :: l => paidUntil c (see c.rentPot c.grace now v e) (paidNext now v d e) l

end Spec
