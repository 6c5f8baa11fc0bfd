import Verif.Model.Step
/-
C119: configurations that differ in limits only.
-/
namespace Spec

/-- `c'` differs from `c` only in limits, and allows at least as much: longer lists and queues, a wider range of
durations, an earlier withdrawal of stakes and a later withdrawal of bids. -/
structure Looser (c c' : Cfg) : Prop where
  /-- what is not a limit is the same -/
  ed : c'.ed = c.ed
  shards : c'.shards = c.shards
  grace : c'.grace = c.grace
  bidLimit : c'.bidLimit = c.bidLimit
  aucActions : c'.aucActions = c.aucActions
  aucPot : c'.aucPot = c.aucPot
  rentActions : c'.rentActions = c.rentActions
  rentAvail : c'.rentAvail = c.rentAvail
  rentMaxDur : c'.rentMaxDur = c.rentMaxDur
  rentPot : c'.rentPot = c.rentPot
  trActions : c'.trActions = c.trActions
  teePot : c'.teePot = c.teePot
  history : c'.history = c.history
  chain : c'.chain = c.chain
  proposalLife : c'.proposalLife = c.proposalLife
  rewPot : c'.rewPot = c.rewPot
  /-- shorter minimal times -/
  minDur : c'.minDur ≤ c.minDur
  ending : c'.ending ≤ c.ending
  bonding : c'.bonding ≤ c.bonding
  /-- higher limits -/
  collLimit : c.collLimit ≤ c'.collLimit
  maxDur : c.maxDur ≤ c'.maxDur
  maxDelay : c.maxDelay ≤ c'.maxDelay
  aucLimit : c.aucLimit ≤ c'.aucLimit
  rentLimit : c.rentLimit ≤ c'.rentLimit
  rentAccounts : c.rentAccounts ≤ c'.rentAccounts
  trMaxDur : c.trMaxDur ≤ c'.trMaxDur
  trConsents : c.trConsents ≤ c'.trConsents
  trLimit : c.trLimit ≤ c'.trLimit
  clusterSize : c.clusterSize ≤ c'.clusterSize
  teeList : c.teeList ≤ c'.teeList
  relayerLimit : c.relayerLimit ≤ c'.relayerLimit

/-- not a mandate, which succeeds whether or not the call inside is accepted -/
def NoMandate : Call → Prop
  | .mandate _ => False
  | _ => True

/-- Worlds of a chain whose runtime is upgraded again and again, each time with looser limits; `c` is the
configuration in force. -/
inductive Upgraded : Cfg → World → Prop where
  | init {c : Cfg} {w : World} : Genesis c w → Upgraded c w
  | step {c : Cfg} {w : World} (o : Op) : Upgraded c w → o.Ok c → Upgraded c (step c w o)
  | upgrade {c c' : Cfg} {w : World} : Upgraded c w → Looser c c' → Upgraded c' w

end Spec
