import Verif.Props.LooserSpec
/-
What C146 speaks of: a chain whose runtime is upgraded again and again.
-/
namespace Spec

/-- another number of auctions and of transmissions that are dealt with per block -/
abbrev tuned (c : Cfg) (i j : Nat) : Cfg := { c with aucActions := i, trActions := j }

/-- Worlds of a chain whose runtime is upgraded again and again, each time with looser limits or with other numbers of
auctions and transmissions per block, higher or lower; `c` is the configuration in force. -/
inductive Tuned : Cfg → World → Prop where
  | init {c : Cfg} {w : World} : Genesis c w → Tuned c w
  | step {c : Cfg} {w : World} (o : Op) : Tuned c w → 0 < c.aucActions → 0 < c.trActions → o.Ok c → Tuned c (step c w o)
  | loosen {c c' : Cfg} {w : World} : Tuned c w → Looser c c' → Tuned c' w
  | tune {c : Cfg} {w : World} (i j : Nat) : Tuned c w → Tuned (tuned c i j) w

end Spec
