import Verif.Props.ObserverSpec
/-
What events tell about tokens that change hands.  Refers to the model's records and events, not to its calls or hooks.
-/
namespace Spec

/-- One payment; without a payee it goes to the collector of fees. -/
structure Payment where
  payer : AccountId
  payee : Option AccountId
  amount : Balance

/-- The fees that governance sets and that the events of charged calls do not name. -/
@[ext] structure Tariff where
  secret : Balance
  capsule : Balance
  marketplace : Balance
  atBlock : Balance
  atBlockWithReset : Balance
  onConsent : Balance
  onConsentAtBlock : Balance

/-- the tariff the chain stores -/
def tariff (w : World) : Tariff where
  secret := w.nft.secretFee
  capsule := w.nft.capsuleFee
  marketplace := w.mkt.fee
  atBlock := w.tr.feeAt
  atBlockWithReset := w.tr.feeReset
  onConsent := w.tr.feeConsent
  onConsentAtBlock := w.tr.feeConsentAt

/-- the tariff after an event -/
def Tariff.see (t : Tariff) : Event → Tariff
  | .secretFeeSet x => { t with secret := x }
  | .capsuleFeeSet x => { t with capsule := x }
  | .mktFeeSet x => { t with marketplace := x }
  | .protocolFeeSet .atBlock x => { t with atBlock := x }
  | .protocolFeeSet .atBlockWithReset x => { t with atBlockWithReset := x }
  | .protocolFeeSet .onConsent x => { t with onConsent := x }
  | .protocolFeeSet .onConsentAtBlock x => { t with onConsentAtBlock := x }
  | _ => t

/-- the fee for a protocol -/
def Tariff.protocol (t : Tariff) : Protocol → Balance
  | .atBlock _ => t.atBlock
  | .atBlockWithReset _ => t.atBlockWithReset
  | .onConsent .. => t.onConsent
  | .onConsentAtBlock .. => t.onConsentAtBlock

/-- a fee on a price: a flat amount or a share -/
def charge (price : Balance) : Option CompoundFee → Balance
  | none => 0
  | some (.flat x) => x
  | some (.percentage p) => p.mul price

/-- the tokens of a deposit -/
def inTokens : CancelFee → Balance
  | .fixed x => x
  | .flexible x => x
  | _ => 0

/-- the tokens of a rent -/
def rentInTokens : RentFee → Balance
  | .tokens x => x
  | _ => 0

/-- how much of a deposit its owner gets back when revoking at block `now`: of a flexible deposit the elapsed percentage of
the full duration, of others nothing -/
def earned (k : Contract) (now : Block) : CancelFee → Balance
  | .flexible x =>
    let total := match k.duration with
      | .fixed d => d
      | .sub u => u.maxDur
    (Permill.fromPercent (min ((now - k.start.getD 0) * 100) (2 ^ 32 - 1) / total)).mul x
  | _ => 0

/-- the deposits of both parties go back to them -/
def givenBack (pot : AccountId) (k : Contract) : List Payment :=
  ⟨pot, some k.renter, inTokens k.renterFee⟩ ::
    match k.rentee with
    | some r => [⟨pot, some r, inTokens k.renteeFee⟩]
    | none => []

/-- The payments an event stands for, given the books before it.  `auctionPot` and `rentPot` are the accounts of the auction
and the rent pallet. -/
def payments (auctionPot rentPot : AccountId) (now : Block) (t : Tariff) (v : View) : Event → List Payment
  | .nftCreated _ a _ _ _ _ fee => [⟨a, none, fee⟩]
  | .secretAdded n _ => (v.nft n).elim [] fun d => [⟨d.owner, none, t.secret⟩]
  | .toCapsule n _ => (v.nft n).elim [] fun d => [⟨d.owner, none, t.capsule⟩]
  | .mktCreated _ a _ => [⟨a, none, t.marketplace⟩]
  | .protocolSet n _ p _ => (v.nft n).elim [] fun d => [⟨d.owner, none, t.protocol p⟩]
  | .listed n m price _ =>
    match v.nft n, v.mkt m with
    | some d, some k => [⟨d.owner, some k.owner, charge price k.listing⟩]
    | _, _ => []
  | .sold n m a price x y =>
    match v.nft n, v.mkt m, v.sale n with
    | some d, some k, some s =>
      [⟨a, some k.owner, x⟩, ⟨a, some d.creator, y⟩, ⟨a, some s.seller, price - x - y⟩]
    | _, _, _ => []
  | .auctionCompleted n (some a) (some price) (some (x, y, z)) =>
    match v.nft n, v.auction n with
    | some d, some u =>
      -- the winner has paid with the bid, a buyer pays now
      let payer := if (a, price) ∈ u.bids then auctionPot else a
      (v.mkt u.mkt).elim [] fun k =>
        [⟨payer, some k.owner, x⟩, ⟨payer, some d.creator, y⟩, ⟨payer, some u.creator, z⟩]
    | _, _ => []
  | .bidAdded n a x =>
    -- what an earlier bid has paid already counts
    [⟨a, some auctionPot, x - ((((v.auction n).elim [] (·.bids)).filter (·.1 = a)).map (·.2)).sum⟩]
  | .bidRemoved _ a x => [⟨auctionPot, some a, x⟩]
  | .balanceClaimed a x => [⟨auctionPot, some a, x⟩]
  | .contractCreated _ a _ _ _ _ x _ => [⟨a, some rentPot, inTokens x⟩]
  | .contractStarted n a => (v.contract n).elim [] fun k =>
      [⟨a, some k.renter, rentInTokens k.rentFee⟩, ⟨a, some rentPot, inTokens k.renteeFee⟩]
  | .periodStarted n => (v.contract n).elim [] fun k => (k.rentee).elim [] fun a =>
      [⟨a, some k.renter, rentInTokens k.rentFee⟩]
  | .contractRevoked n a => (v.contract n).elim [] fun k =>
      let other := if k.renter = a then k.rentee.getD a else k.renter
      let own := if k.renter = a then k.renterFee else k.renteeFee
      let their := if k.renter = a then k.renteeFee else k.renterFee
      [⟨rentPot, some other, inTokens their⟩, ⟨rentPot, some a, earned k now own⟩,
        ⟨rentPot, some other, inTokens own - earned k now own⟩]
  | .contractCanceled n | .contractEnded n | .contractExpired n => (v.contract n).elim [] (givenBack rentPot)
  | _ => []

/-- What an account pays and what it gets. -/
def outgo (x : AccountId) (l : List Payment) : Balance := ((l.filter (·.payer = x)).map (·.amount)).sum
def income (x : AccountId) (l : List Payment) : Balance := ((l.filter (·.payee = some x)).map (·.amount)).sum

/-- what goes to the collector of fees -/
def toCollector (l : List Payment) : Balance := ((l.filter (·.payee = none)).map (·.amount)).sum

/-- The payments that a series of events stands for, if the books and the tariff were `v` and `t` before. -/
def ledger (c : Cfg) (t : Tariff) (v : View) : List (Block × Event) → List Payment
  | [] => []
  | (now, e) :: l => payments c.aucPot c.rentPot now t v e ++ ledger c (t.see e) (see c.rentPot c.grace now v e) l

/-- Operations that move tokens outside the five pallets: plain transfers, the bridge, claimed TEE rewards, transaction
fees, era rewards and what other pallets mint. -/
def Elsewhere : Op → Prop
  | .call (.signed _) (.bal ..) => True
  | .call (.signed _) (.br _) => True
  | .call (.signed _) (.tee (.claim _)) => True
  | .txFee .. => True
  | .eraPayout .. => True
  | .mint .. => True
  | _ => False

end Spec
