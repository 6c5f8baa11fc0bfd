import Verif.Model.Step
/-
C126: calls that combine others.
-/
namespace Spec

/-- calls made one after the other, all of them or none -/
def batch (c : Cfg) (w : World) : List (Origin × Call) → Except Err World
  | [] => .ok w
  | (o, x) :: t => (dispatch c x o w).bind fun w' => batch c w' t

/-- the calls are accepted and lead to the state `v`, apart from the record of events -/
def Leads (c : Cfg) (w : World) (l : List (Origin × Call)) (v : World) : Prop :=
  ∃ w', batch c w l = .ok w' ∧ { w' with evs := [] } = v

/-- one change of a field after another -/
def thenOp {α : Type} : ConfigOp α → ConfigOp α → ConfigOp α
  | x, .noop => x
  | _, y => y

/-- `Splits c w o x l`: in state `w` the call `x` of `o` is meant as a short form of the calls `l`. -/
inductive Splits (c : Cfg) (w : World) : Origin → Call → List (Origin × Call) → Prop
  /-- a secret NFT is an NFT to which a secret is added -/
  | secret {a d s r k sb} : Splits c w (.signed a) (.nft (.createSecret d s r k sb))
      [(.signed a, .nft (.createNft d r k sb)), (.signed a, .nft (.addSecret w.nft.nextNft s))]
  /-- a capsule is an NFT that is converted -/
  | capsule {a d s r k sb} : Splits c w (.signed a) (.nft (.createCapsule d s r k sb))
      [(.signed a, .nft (.createNft d r k sb)), (.signed a, .nft (.toCapsule w.nft.nextNft s))]
  /-- an NFT created in a collection is one that is added to it -/
  | inColl {a d r k sb} : Splits c w (.signed a) (.nft (.createNft d r (some k) sb))
      [(.signed a, .nft (.createNft d r none sb)), (.signed a, .nft (.addToColl w.nft.nextNft k))]
  /-- a collection created with a limit is one that is limited afterwards -/
  | limited {a d l} : Splits c w (.signed a) (.nft (.createColl d (some l)))
      [(.signed a, .nft (.createColl d none)), (.signed a, .nft (.limitColl w.nft.nextColl l))]
  /-- a delegation without recipient is one to oneself -/
  | undelegate {a n} : Splits c w (.signed a) (.nft (.delegateNft n none)) [(.signed a, .nft (.delegateNft n (some a)))]
  /-- handing an NFT that is not soulbound to a third account by way of a second one -/
  | hand {a b r n d} : w.nfts.get n = some d → d.st.soulbound = false → a ≠ b → b ≠ r → a ≠ r →
      Splits c w (.signed a) (.nft (.transferNft n r))
      [(.signed a, .nft (.transferNft n b)), (.signed b, .nft (.transferNft n r))]
  /-- handing a marketplace to a third account by way of a second one -/
  | handMkt {a b r m} : a ≠ b → b ≠ r → a ≠ r → Splits c w (.signed a) (.mkt (.setOwner m r))
      [(.signed a, .mkt (.setOwner m b)), (.signed b, .mkt (.setOwner m r))]
  /-- two changes of a marketplace's configuration in one -/
  | config {a m f f' l l' x x' o o' k k'} : Splits c w (.signed a)
      (.mkt (.setConfig m (thenOp f f') (thenOp l l') (thenOp x x') (thenOp o o') (thenOp k k')))
      [(.signed a, .mkt (.setConfig m f l x o k)), (.signed a, .mkt (.setConfig m f' l' x' o' k'))]
  /-- a higher bid is a bid withdrawn and made anew, as long as bids may be withdrawn and the pallet's account is
  not left with dust -/
  | rebid {a n v z u} : w.auc.auctions.get n = some z → (a, u) ∈ z.bids → u < v → c.ending < z.fin - w.now →
      u + c.ed ≤ w.bal.freeOf c.aucPot ∨ w.bal.freeOf c.aucPot = u →
      Splits c w (.signed a) (.auc (.addBid n v)) [(.signed a, .auc (.removeBid n)), (.signed a, .auc (.addBid n v))]
  /-- root removes a registration as its operator would -/
  | dropRegistration {op} : w.tee.data.get op = none →
      Splits c w .root (.root (.tee (.removeRegistration op))) [(.signed op, .tee .unregister)]
  /-- root rejects an update as its operator would withdraw it -/
  | dropUpdate {op} : Splits c w .root (.root (.tee (.rejectUpdate op))) [(.signed op, .tee .cancelUpdate)]
  /-- a forced removal is a request to leave that is approved -/
  | forceRemove {op} : op ∉ w.tee.unregs → w.tee.unregs.length < c.teeList →
      Splits c w .root (.root (.tee (.forceRemove op)))
      [(.signed op, .tee .unregister), (.root, .root (.tee (.approveUnregister op)))]
  /-- address and URI forced at once or one after the other -/
  | forceAddrUri {op x u} : Splits c w .root (.root (.tee (.forceUpdate op (some x) (some u))))
      [(.root, .root (.tee (.forceUpdate op (some x) none))), (.root, .root (.tee (.forceUpdate op none (some u))))]
  | forceUriAddr {op x u} : Splits c w .root (.root (.tee (.forceUpdate op (some x) (some u))))
      [(.root, .root (.tee (.forceUpdate op none (some u)))), (.root, .root (.tee (.forceUpdate op (some x) none)))]
  /-- a forced change of the URI is a requested one that is approved -/
  | forceUri {op e u} : w.tee.data.get op = some e → w.tee.updates.get op = none →
      Splits c w .root (.root (.tee (.forceUpdate op none (some u))))
      [(.signed op, .tee (.update e.addr u)), (.root, .root (.tee (.approveUpdate op)))]
  /-- a mandate of a mandate is a mandate -/
  | mandate {o x} : Splits c w o (.mandate (.mandate x)) [(o, .mandate x)]

end Spec
