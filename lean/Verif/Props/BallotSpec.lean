import Verif.Model.Step
/-
C127: decisions that several accounts take together.
-/
namespace Spec

/-- something that several accounts decide together -/
inductive Ballot where
  /-- relayers about an incoming transfer -/
  | transfer (k : ChainId) (t : Transfer)
  /-- the listed accounts about the transmission of an NFT -/
  | transmission (n : NFTId)
  /-- enclaves about the shards of a secret -/
  | secret (n : NFTId)
  /-- enclaves about the shards of a capsule -/
  | capsule (n : NFTId)

/-- taking part -/
def Ballot.vote : Ballot → Call
  | .transfer k t => .br (.vote k t)
  | .transmission n => .tr (.addConsent n)
  | .secret n => .nft (.addSecretShard n)
  | .capsule n => .nft (.addCapsuleShard n)

/-- accounts take part one after the other, some of them in vain -/
def Ballot.held (b : Ballot) (c : Cfg) (w : World) (l : List AccountId) : World :=
  run c w (l.map fun a => .call (.signed a) b.vote)

/-- everything but the record of who took part and the record of events -/
def Ballot.others (w : World) : Ballot → World
  | .transfer k t => { w with br := { w.br with votes := w.br.votes.erase (k, t) }, evs := [] }
  | .transmission n => { w with tr := { w.tr with consents := w.tr.consents.erase n }, evs := [] }
  | .secret n => { w with nft := { w.nft with secretShards := w.nft.secretShards.erase n }, evs := [] }
  | .capsule n => { w with nft := { w.nft with capsuleShards := w.nft.capsuleShards.erase n }, evs := [] }

/-- what the record says apart from names: how many took part; for a transfer also until when and whether it is approved -/
def Ballot.count (w : World) : Ballot → Option (Nat × Block × Bool)
  | .transfer k t => (w.br.votes.get (k, t)).map fun p => (p.votes.length, p.expiry, p.approved)
  | .transmission n => (w.tr.consents.get n).map fun l => (l.length, 0, false)
  | .secret n => (w.nft.secretShards.get n).map fun l => (l.length, 0, false)
  | .capsule n => (w.nft.capsuleShards.get n).map fun l => (l.length, 0, false)

/-- the enclaves among the accounts work in one cluster -/
def OneCluster (w : World) (l : List AccountId) : Prop :=
  ∀ a ∈ l, ∀ b ∈ l, ∀ p q k k', w.tee.accOp.get a = some p → w.tee.accOp.get b = some q → w.tee.opCluster.get p = some k →
    w.tee.opCluster.get q = some k' → k = k'

/-- when it takes enclaves to decide, they work in one cluster -/
def Ballot.Fair (w : World) (l : List AccountId) : Ballot → Prop
  | .transfer _ _ => True
  | .transmission _ => True
  | .secret _ => OneCluster w l
  | .capsule _ => OneCluster w l

end Spec
