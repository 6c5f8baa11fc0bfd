import Verif.Props.RefuseSpec
import Verif.Props.Authority
import Verif.Props.LockSpec
import Verif.Props.CashSpec
import Verif.Props.Operate
/-
Exactly when a call is accepted: whose it is (`Spec.Entitled`, C79), what state its object is in (`Spec.Refuse.Fit`, C87),
whether there is room, and whether all payments can be made.  Refers to the model's records only.
-/
namespace Spec.Accept

/-- what accounts hold, and how much of it is locked -/
structure Purse where
  free : AccountId → Balance
  locked : AccountId → Balance

/-- the balances the chain stores -/
def purse (b : Bal) : Purse := ⟨b.freeOf, Spec.locked b⟩

/-- A payment that a call makes.  Without a payee it is a fee or is burnt. -/
structure Due where
  payer : AccountId
  payee : Option AccountId
  amount : Balance
  /-- the payer may be left with nothing -/
  mayEmpty : Bool

/-- nothing moves -/
def Due.Idle (d : Due) : Prop := d.amount = 0 ∨ d.payee = some d.payer

instance (d : Due) : Decidable d.Idle := by unfold Due.Idle; infer_instance

/-- The payer has the amount besides what is locked, and an existential deposit remains unless the account may be emptied
and nothing on it is locked.  The payee has an existential deposit afterwards. -/
def Due.Can (ed : Balance) (p : Purse) (d : Due) : Prop :=
  d.Idle ∨ (d.amount + p.locked d.payer ≤ p.free d.payer ∧
    (d.amount + ed ≤ p.free d.payer ∨ (d.mayEmpty = true ∧ p.locked d.payer = 0)) ∧
    ∀ y, d.payee = some y → ed ≤ p.free y + d.amount)

/-- The payment is made; less than an existential deposit does not remain. -/
def Due.after (ed : Balance) (p : Purse) (d : Due) : Purse :=
  let rest := p.free d.payer - d.amount
  if d.Idle then p else ⟨fun x =>
    if x = d.payer then (if rest < ed then 0 else rest)
    else if d.payee = (some x) then p.free x + d.amount else p.free x, p.locked⟩

/-- all payments can be made, one after the other -/
def CanPayAll (ed : Balance) (p : Purse) : List Due → Prop
  | [] => True
  | d :: t => d.Can ed p ∧ CanPayAll ed (d.after ed p) t

/-- a fee paid by `a` -/
def fee (a : AccountId) (v : Balance) : Due := ⟨a, none, v, false⟩

/-- a payment by a user, who must keep an existential deposit -/
def pays (a b : AccountId) (v : Balance) : Due := ⟨a, some b, v, false⟩

/-- a payment that may empty the payer's account -/
def paysAll (a b : AccountId) (v : Balance) : Due := ⟨a, some b, v, true⟩

/-- the sale of an NFT for `v`: commission to the marketplace's owner, royalty to the creator, the rest to the seller -/
def saleOf (v : Balance) (f : Option CompoundFee) (royalty : Permill) (market creator seller : AccountId) :
    List (AccountId × Balance) :=
  let x := charge v f
  let y := royalty.mul (v - x)
  [(market, x), (creator, y), (seller, v - x - y)]

/-- the payments for an auctioned NFT -/
def auctionDues (w : World) (n : NFTId) (v : Balance) (pay : AccountId → Balance → Due) : List Due :=
  match w.auc.auctions.get n, w.nfts.get n, w.auc.comm.get n with
  | some x, some d, some f => (w.mkt.mkts.get x.mkt).elim [] fun m =>
      (saleOf v f d.royalty m.owner d.creator x.creator).map fun z => pay z.1 z.2
  | _, _, _ => []

/-- what `a` has bid -/
def bidOf (x : Auction) (a : AccountId) : Balance := (x.bids.find? (·.1 = a)).elim 0 (·.2)

/-- rent and deposit of the one who rents -/
def rentDues (c : Cfg) (w : World) (n : NFTId) (r : AccountId) : List Due :=
  (w.rent.contracts.get n).elim [] fun k =>
    [pays r k.renter (rentInTokens k.rentFee), pays r c.rentPot (inTokens k.renteeFee)]

/-- the payments that a call of `a` makes, in their order -/
def dues (c : Cfg) (w : World) (a : AccountId) : Call → List Due
  | .nft (.createNft ..) => [fee a w.nft.fee]
  | .nft (.createSecret ..) => [fee a w.nft.fee, fee a w.nft.secretFee]
  | .nft (.createCapsule ..) => [fee a w.nft.fee, fee a w.nft.capsuleFee]
  | .nft (.addSecret ..) => [fee a w.nft.secretFee]
  | .nft (.toCapsule ..) => [fee a w.nft.capsuleFee]
  | .mkt (.create _) => [fee a w.mkt.fee]
  | .mkt (.list _ m p) => (w.mkt.mkts.get m).elim [] fun k => [pays a k.owner (charge p k.listing)]
  | .mkt (.buy n p) =>
    match w.nfts.get n, w.mkt.sales.get n with
    | some d, some s => (w.mkt.mkts.get s.mkt).elim [] fun m =>
        (saleOf p s.commission d.royalty m.owner d.creator s.seller).map fun z => pays a z.1 z.2
    | _, _ => []
  | .auc (.end_ n) => (w.auc.auctions.get n).elim [] fun x => (x.bids.getLast?).elim [] fun y =>
      auctionDues w n y.2 (paysAll c.aucPot)
  | .auc (.buyItNow n p) => auctionDues w n p (pays a)
  | .auc (.addBid n v) => (w.auc.auctions.get n).elim [] fun x =>
      -- only what the bid exceeds one's earlier bid by
      [pays a c.aucPot (v - bidOf x a)]
  | .auc (.removeBid n) => (w.auc.auctions.get n).elim [] fun x => [paysAll c.aucPot a (bidOf x a)]
  | .auc .claim => (w.auc.claims.get a).elim [] fun v => [paysAll c.aucPot a v]
  | .rent (.create _ _ _ _ _ x _) => [pays a c.rentPot (inTokens x)]
  | .rent (.rent n _) => rentDues c w n a
  | .rent (.acceptOffer n r) => rentDues c w n r
  | .rent (.revoke n) => (w.rent.contracts.get n).elim [] fun k =>
      let other := if k.renter = a then k.rentee.getD a else k.renter
      let own := if k.renter = a then k.renterFee else k.renteeFee
      let their := if k.renter = a then k.renteeFee else k.renterFee
      [paysAll c.rentPot other (inTokens their), paysAll c.rentPot a (earned k w.now own),
        paysAll c.rentPot other (inTokens own - earned k w.now own)]
  | .tr (.set _ _ p _) => [fee a (protocolFee w p)]
  | .tee (.claim e) => [paysAll c.teePot a (reward w e a)]
  | .br (.deposit v _ _) => [fee a w.br.fee, ⟨a, none, v, true⟩]
  | .bal b v l => [⟨a, some b, v, l = .allowDeath⟩]
  | _ => []

/-- `a` has `v` tokens that are not locked -/
def Holds (w : World) (a : AccountId) (v : Balance) : Prop := v = 0 ∨ v + Spec.locked w.bal a ≤ w.bal.freeOf a

/-- there is a place in the rent pallet's list for a contract of this kind -/
def RentRoom (c : Cfg) (w : World) : Duration → Prop
  | .fixed _ => w.rent.fixedQ.length < c.rentLimit
  | .sub _ => w.rent.subQ.length < c.rentLimit

/-- numbers, places and means are left -/
def Room (c : Cfg) (w : World) (a : AccountId) : Call → Prop
  | .nft (.createNft ..) => w.nft.nextNft < 2 ^ 32 - 1
  | .nft (.createSecret ..) => w.nft.nextNft < 2 ^ 32 - 1
  | .nft (.createCapsule ..) => w.nft.nextNft < 2 ^ 32 - 1
  | .nft (.createColl ..) => w.nft.nextColl < 2 ^ 32 - 1
  | .mkt (.create _) => w.mkt.next < 2 ^ 32 - 1
  | .rent (.rent n _) => ∃ k, w.rent.contracts.get n = some k ∧ Refuse.CanGive w a k ∧ RentRoom c w k.duration
  | .rent (.acceptOffer n r) => ∃ k, w.rent.contracts.get n = some k ∧ Refuse.CanGive w r k ∧ RentRoom c w k.duration
  | .rent (.makeOffer n _) => ∃ k, w.rent.contracts.get n = some k ∧
      let x := rentInTokens k.rentFee
      let y := inTokens k.renteeFee
      Holds w a x ∧ Holds w a y ∧ Holds w a ((x + y) % 2 ^ 128)
  | .tr (.set _ _ p _) => (∀ b, p = .atBlock b ∨ p = .atBlockWithReset b → w.tr.queue.length < c.trLimit)
  | .tr (.addConsent n) => ∀ t l k e, w.tr.trans.get n = some t → t.protocol = .onConsentAtBlock l k e →
      -- enough consents, for a date in the future
      k ≤ ((w.tr.consents.get n).getD []).length + 1 → w.now < e → w.tr.queue.length < c.trLimit
  | .tee (.register _ _) => Holds w a w.tee.stakingAmount
  | .tee .bondExtra => ∃ s, w.tee.ledger.get a = some s ∧ Holds w a (w.tee.stakingAmount - s.staked)
  | .tee (.submitReport op r) => ∀ e, w.active = some e →
      let l := (w.tee.reports.get (e - 1, op)).getD []
      (∃ x ∈ l, x.by_ = r.by_) ∨ l.length < c.teeList
  -- nothing can be claimed for era 0
  | .tee (.claim e) => 0 < e
  | .br (.vote _ _) => 0 < c.relayerLimit
  | _ => True

/-- the same for calls of root -/
def RoomRoot (w : World) : TeeM.RootCall → Prop
  | .createCluster _ => w.tee.nextCluster < 2 ^ 32 - 1
  | .forceRemove op => w.tee.ledger.get op ≠ none
  | _ => True

/-- the only call of root that can crash: there is no number left for another cluster -/
def Crashes (w : World) : Call → Prop
  | .root (.tee (.createCluster _)) => 2 ^ 32 - 1 ≤ w.tee.nextCluster
  | .mandate x => Crashes w x
  | _ => False

/-- nonces have 64 bits -/
def NonceFits : BrM.ExtCall → Prop
  | .setNonce _ x => x < 2 ^ 64
  | _ => True

/-- When a call is accepted.  A mandate is accepted whatever becomes of the call in it. -/
def Accepts (c : Cfg) (w : World) : Origin → Call → Prop
  | .signed a, x => Entitled w a x ∧ Refuse.Fit c w a x ∧ Room c w a x ∧ CanPayAll c.ed (purse w.bal) (dues c w a x)
  | .root, .root (.tee x) => Refuse.FitRoot c w x ∧ RoomRoot w x
  | .root, .root _ => True
  | .root, .ext x => Refuse.FitExt c w x ∧ NonceFits x
  | .ext, .ext x => Refuse.FitExt c w x ∧ NonceFits x
  | .root, .mandate x => ¬ Crashes w x
  | .ext, .mandate x => ¬ Crashes w x
  | _, _ => False

/-- an order to lower one of the fees -/
def LowersFee (w : World) : Call → Prop
  | .root (.nftFee y) => y ≤ w.nft.fee
  | .root (.secretFee y) => y ≤ w.nft.secretFee
  | .root (.capsuleFee y) => y ≤ w.nft.capsuleFee
  | .root (.mktFee y) => y ≤ w.mkt.fee
  | .root (.trFee k y) => y ≤ match k with
      | .atBlock => w.tr.feeAt
      | .atBlockWithReset => w.tr.feeReset
      | .onConsent => w.tr.feeConsent
      | .onConsentAtBlock => w.tr.feeConsentAt
  | .ext (.setFee y) => y ≤ w.br.fee
  | _ => False

end Spec.Accept
