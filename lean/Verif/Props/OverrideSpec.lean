import Verif.Model.Step
/-
C124: which calls replace what another call has set.
-/
namespace Spec

/-- the second of two changes to a field of a marketplace replaces the first -/
def Replaces {α : Type} : ConfigOp α → ConfigOp α → Prop
  | .noop, _ => True
  | _, .noop => False
  | _, _ => True

/-- The second call sets what the first one has set, perhaps to another value. -/
inductive Overrides : Call → Call → Prop
  | royalty {n r r'} : Overrides (.nft (.setRoyalty n r)) (.nft (.setRoyalty n r'))
  | delegate {n r r'} : Overrides (.nft (.delegateNft n r)) (.nft (.delegateNft n r'))
  | capsuleData {n x x'} : Overrides (.nft (.setCapsuleData n x)) (.nft (.setCapsuleData n x'))
  | collData {k x x'} : Overrides (.nft (.setCollData k x)) (.nft (.setCollData k x'))
  | mktKind {m k k'} : Overrides (.mkt (.setKind m k)) (.mkt (.setKind m k'))
  /-- every field the first one changes is changed by the second -/
  | mktConfig {m f l a o k f' l' a' o' k'} : Replaces f f' → Replaces l l' → Replaces a a' → Replaces o o' → Replaces k k' →
      Overrides (.mkt (.setConfig m f l a o k)) (.mkt (.setConfig m f' l' a' o' k'))
  /-- a higher bid -/
  | bid {n v v'} : v < v' → Overrides (.auc (.addBid n v)) (.auc (.addBid n v'))
  /-- new terms, if the terms before left room for that -/
  | terms {n f p m f' p' m' ch'} : Overrides (.rent (.changeTerms n f p m true)) (.rent (.changeTerms n f' p' m' ch'))
  | timer {n b b'} : Overrides (.tr (.resetTimer n b)) (.tr (.resetTimer n b'))
  /-- a report on the same operator in the name of the same server -/
  | report {op r r'} : r.by_ = r'.by_ → Overrides (.tee (.submitReport op r)) (.tee (.submitReport op r'))
  | nftFee {x x'} : Overrides (.root (.nftFee x)) (.root (.nftFee x'))
  | secretFee {x x'} : Overrides (.root (.secretFee x)) (.root (.secretFee x'))
  | capsuleFee {x x'} : Overrides (.root (.capsuleFee x)) (.root (.capsuleFee x'))
  | mktFee {x x'} : Overrides (.root (.mktFee x)) (.root (.mktFee x'))
  | trFee {k x x'} : Overrides (.root (.trFee k x)) (.root (.trFee k x'))
  | weights {x x'} : Overrides (.root (.tee (.setWeights x))) (.root (.tee (.setWeights x')))
  | staking {x x'} : Overrides (.root (.tee (.setStakingAmount x))) (.root (.tee (.setStakingAmount x')))
  | pool {x x'} : Overrides (.root (.tee (.setPool x))) (.root (.tee (.setPool x')))
  | era {op e e'} : Overrides (.root (.tee (.setAssignedEra op e))) (.root (.tee (.setAssignedEra op e')))
  | cluster {k t t'} : Overrides (.root (.tee (.updateCluster k t))) (.root (.tee (.updateCluster k t')))
  | server {a t t'} : Overrides (.root (.tee (.setServerType a t))) (.root (.tee (.setServerType a t')))
  | threshold {t t'} : Overrides (.ext (.setThreshold t)) (.ext (.setThreshold t'))
  | relayers {l l'} : Overrides (.ext (.setRelayers l)) (.ext (.setRelayers l'))
  /-- a higher nonce -/
  | nonce {k n n'} : n < n' → Overrides (.ext (.setNonce k n)) (.ext (.setNonce k n'))
  | bridgeFee {x x'} : Overrides (.ext (.setFee x)) (.ext (.setFee x'))
  | extra {x x'} : Overrides (.ext (.setExtra x)) (.ext (.setExtra x'))

/-- the result of a call without the record of events -/
def outcome : Except Err World → Except Err World
  | .ok w => .ok { w with evs := [] }
  | .error e => .error e

end Spec
