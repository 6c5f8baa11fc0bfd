import Verif.Model.Step
/-
What an NFT is being used for, and the ways from one use to another (C100).
-/
namespace Spec

/-- what an NFT can be used for -/
inductive Use where
  /-- there is no such NFT -/
  | absent
  /-- its owner may do with it what they like -/
  | free
  | sale
  | auction
  /-- to be rented -/
  | offered
  | rented
  /-- delegated to another account -/
  | lent
  | transmission
deriving DecidableEq

/-- The records of NFT `n` say that it is used for that. -/
def Is (w : World) (n : NFTId) : Use → Prop
  | .absent => w.nfts.get n = none
  | .free => w.nfts.get n ≠ none ∧ w.mkt.sales.get n = none ∧ w.auc.auctions.get n = none ∧
      w.rent.contracts.get n = none ∧ w.nft.deleg.get n = none ∧ w.tr.trans.get n = none
  | .sale => w.mkt.sales.get n ≠ none
  | .auction => w.auc.auctions.get n ≠ none
  | .offered => ∃ k, w.rent.contracts.get n = some k ∧ k.rentee = none
  | .rented => ∃ k r, w.rent.contracts.get n = some k ∧ k.rentee = some r
  | .lent => w.nft.deleg.get n ≠ none
  | .transmission => w.tr.trans.get n ≠ none

/-- the calls that make NFTs -/
def makes : NftM.Call → Prop
  | .createNft .. => True
  | .createSecret .. => True
  | .createCapsule .. => True
  | _ => False

/-- The ways from one use of NFT `n` to another, with who may take them and when. -/
inductive Edge (c : Cfg) (w : World) (n : NFTId) : Use → Use → Op → Prop
  | mint {a : AccountId} {x : NftM.Call} : makes x → n = w.nft.nextNft →
      Edge c w n .absent .free (.call (.signed a) (.nft x))
  | burn {d : NFTData} : w.nfts.get n = some d →
      Edge c w n .free .absent (.call (.signed d.owner) (.nft (.burnNft n)))
  -- sales
  | list {d : NFTData} {m : MktId} {p : Balance} : w.nfts.get n = some d →
      Edge c w n .free .sale (.call (.signed d.owner) (.mkt (.list n m p)))
  | unlist {d : NFTData} : w.nfts.get n = some d →
      Edge c w n .sale .free (.call (.signed d.owner) (.mkt (.unlist n)))
  | buy {s : Sale} {a : AccountId} : w.mkt.sales.get n = some s → a ≠ s.seller →
      Edge c w n .sale .free (.call (.signed a) (.mkt (.buy n s.price)))
  -- auctions
  | auction {d : NFTData} {m : MktId} {s e : Block} {p : Balance} {bi : Option Balance} :
      w.nfts.get n = some d → w.now ≤ s → s < e →
      Edge c w n .free .auction (.call (.signed d.owner) (.auc (.create n m s e p bi)))
  | cancelAuction {x : Auction} : w.auc.auctions.get n = some x → w.now < x.start →
      Edge c w n .auction .free (.call (.signed x.creator) (.auc (.cancel n)))
  | endAuction {x : Auction} : w.auc.auctions.get n = some x → x.extended = true → x.bids ≠ [] →
      Edge c w n .auction .free (.call (.signed x.creator) (.auc (.end_ n)))
  | buyNow {x : Auction} {a : AccountId} {p : Balance} : w.auc.auctions.get n = some x → x.buyIt = some p →
      a ≠ x.creator → x.start ≤ w.now → Edge c w n .auction .free (.call (.signed a) (.auc (.buyItNow n p)))
  | auctionOver {x : Auction} : w.auc.auctions.get n = some x → x.fin ≤ w.now →
      Edge c w n .auction .free .hookAuc
  -- rent
  | offer {d : NFTData} {dur : DurationInput} {acc : Acceptance} {rv : Bool} {rf : RentFee} {f g : CancelFee} :
      w.nfts.get n = some d →
      Edge c w n .free .offered (.call (.signed d.owner) (.rent (.create n dur acc rv rf f g)))
  | cancelOffer {k : Contract} : w.rent.contracts.get n = some k →
      Edge c w n .offered .free (.call (.signed k.renter) (.rent (.cancel n)))
  | expire {k : Contract} : w.rent.contracts.get n = some k → k.creation + c.rentAvail ≤ w.now →
      Edge c w n .offered .free .hookRent
  | rent {k : Contract} {a : AccountId} : w.rent.contracts.get n = some k → a ≠ k.renter →
      Edge c w n .offered .rented (.call (.signed a) (.rent (.rent n k.creation)))
  | acceptOffer {k : Contract} {r : AccountId} {l : List AccountId} : w.rent.contracts.get n = some k →
      w.rent.offers.get n = some l → r ∈ l →
      Edge c w n .offered .rented (.call (.signed k.renter) (.rent (.acceptOffer n r)))
  | giveBack {k : Contract} {r : AccountId} : w.rent.contracts.get n = some k → k.rentee = some r →
      Edge c w n .rented .free (.call (.signed r) (.rent (.revoke n)))
  | takeBack {k : Contract} : w.rent.contracts.get n = some k → k.renterCanRevoke = true →
      Edge c w n .rented .free (.call (.signed k.renter) (.rent (.revoke n)))
  | fixedOver {k : Contract} {s d : Block} : w.rent.contracts.get n = some k → k.start = some s →
      k.duration = .fixed d → s + d ≤ w.now → Edge c w n .rented .free .hookRent
  /-- a period of the subscription ends now -/
  | periodOver {k : Contract} {u : Subscription} {b : Block} : w.rent.contracts.get n = some k →
      k.duration = .sub u → (n, b) ∈ w.rent.subQ → b ≤ w.now → Edge c w n .rented .free .hookRent
  -- delegation
  | lend {d : NFTData} {r : AccountId} : w.nfts.get n = some d → r ≠ d.owner →
      Edge c w n .free .lent (.call (.signed d.owner) (.nft (.delegateNft n (some r))))
  | takeHome {d : NFTData} {r : Option AccountId} : w.nfts.get n = some d → r = none ∨ r = some d.owner →
      Edge c w n .lent .free (.call (.signed d.owner) (.nft (.delegateNft n r)))
  -- transmission
  | bequeath {d : NFTData} {r : AccountId} {p : Protocol} {k : Cancellation} : w.nfts.get n = some d → r ≠ d.owner →
      Edge c w n .free .transmission (.call (.signed d.owner) (.tr (.set n r p k)))
  | withdraw {d : NFTData} {x : Transmission} : w.nfts.get n = some d → w.tr.trans.get n = some x →
      TrM.cancellable w.now x.cancellation = true →
      Edge c w n .transmission .free (.call (.signed d.owner) (.tr (.remove n)))
  | lastConsent {x : Transmission} {y : List AccountId × Nat} {a : AccountId} : w.tr.trans.get n = some x →
      TrM.consentData x.protocol = some y → a ∈ y.1 → y.2 ≤ ((w.tr.consents.get n).getD []).length + 1 →
      Edge c w n .transmission .free (.call (.signed a) (.tr (.addConsent n)))
  | due {x : Transmission} {b : Block} : w.tr.trans.get n = some x → TrM.endBlock x.protocol = some b →
      b ≤ w.now → Edge c w n .transmission .free .hookTr

end Spec
