import Verif.Model.Step
/-
When a call may be accepted at all, apart from who signs it (that is `Spec.Entitled`, C79) and from what the account can
pay.  Refers to the model's records only.
-/
namespace Spec.Refuse

/-- not in use: not listed, delegated, rented or in transmission -/
def Idle (d : NFTData) : Prop :=
  d.st.listed = false ∧ d.st.delegated = false ∧ d.st.rented = false ∧ d.st.transmission = false

/-- no enclave is still expected to send a share of its secret or capsule -/
def Synced (d : NFTData) : Prop := d.st.syncSecret = false ∧ d.st.syncCapsule = false

/-- a soulbound NFT moves only from its creator -/
def Movable (d : NFTData) : Prop := d.st.soulbound = true → d.creator = d.owner

/-- the NFT exists, and this holds of it -/
def Nft (w : World) (n : NFTId) (P : NFTData → Prop) : Prop := ∃ d, w.nfts.get n = some d ∧ P d

/-- the collection is open, and below its own limit and the limit for all -/
def HasRoom (c : Cfg) (w : World) (k : CollId) : Prop := ∃ x, w.nft.colls.get k = some x ∧ x.closed = false ∧
  x.nfts.length < c.collLimit ∧ ∀ l, x.limit = some l → x.nfts.length < l

/-- the marketplace lets `a` list an NFT of this collection: a public one if neither is on its lists, a private one if one
of them is -/
def Admits (m : Mkt) (a : AccountId) (coll : Option CollId) : Prop :=
  let named := (∃ l, m.accounts = some l ∧ a ∈ l) ∨ (∃ l k, m.colls = some l ∧ coll = some k ∧ k ∈ l)
  match m.kind with
  | .pub => ¬ named
  | .priv => named

/-- NFT `n` may be put up for sale in marketplace `m` for at least `p` -/
def Sellable (w : World) (a : AccountId) (n : NFTId) (m : MktId) (p : Balance) : Prop :=
  Nft w n fun d => Idle d ∧ Synced d ∧ Movable d ∧ ∃ k, w.mkt.mkts.get m = some k ∧ Admits k a d.coll ∧
    ∀ x, k.commission = some (.flat x) → x ≤ p

/-- another share can be added: those sent so far are fewer than needed, from the same cluster, and none from operator
`s.2` -/
def TakesShare (c : Cfg) (l : List (ClusterId × AccountId)) (s : ClusterId × AccountId) : Prop :=
  l.length < c.shards ∧ s ∉ l ∧ ∀ x, l.head? = some x → x.1 = s.1

/-- an NFT that can be given away or pledged in a rent contract -/
def Pledgeable (d : NFTData) : Prop := Idle d ∧ Synced d ∧ d.st.soulbound = false

/-- the NFT to be paid as rent -/
def rentIn : RentFee → Option NFTId
  | .nft n => some n
  | .tokens _ => none

/-- the tokens to be paid as rent -/
def rentPrice : RentFee → Balance
  | .nft _ => 0
  | .tokens x => x

/-- the NFT to be deposited -/
def depositIn : CancelFee → Option NFTId
  | .nft n => some n
  | _ => none

/-- the tokens to be deposited -/
def depositPrice : CancelFee → Balance
  | .fixed x => x
  | .flexible x => x
  | _ => 0

/-- period and total length of a rent -/
def periodOf (limit : Block) : DurationInput → Block × Block
  | .fixed d => (d, d)
  | .sub p m _ => (p, m.getD limit)

/-- the rentee has the NFTs they must give, and these can be given -/
def CanGive (w : World) (a : AccountId) (k : Contract) : Prop :=
  (∀ n, rentIn k.rentFee = some n → Nft w n fun d => d.owner = a ∧ Pledgeable d) ∧
  (∀ n, depositIn k.renteeFee = some n → Nft w n fun d => d.owner = a ∧ Pledgeable d)

/-- the block a protocol names -/
def dateOf : Protocol → Option Block
  | .atBlock b => some b
  | .atBlockWithReset b => some b
  | .onConsent _ _ => none
  | .onConsentAtBlock _ _ b => some b

/-- the consent list and threshold of a protocol make sense -/
def Consentable (limit : Nat) : Protocol → Prop
  | .onConsent l t => l.Nodup ∧ l.length ≤ limit ∧ 0 < t ∧ t ≤ l.length
  | .onConsentAtBlock l t _ => l.Nodup ∧ l.length ≤ limit ∧ 0 < t ∧ t ≤ l.length
  | _ => True

/-- What must hold for a signed call to be accepted, apart from who signs it and what they can pay. -/
def Fit (c : Cfg) (w : World) (a : AccountId) : Call → Prop
  | .nft (.createNft _ _ k _) => ∀ x, k = some x → HasRoom c w x
  | .nft (.createSecret _ _ _ k _) => ∀ x, k = some x → HasRoom c w x
  | .nft (.createCapsule _ _ _ k _) => ∀ x, k = some x → HasRoom c w x
  | .nft (.burnNft n) => Nft w n Idle
  | .nft (.transferNft n r) => r ≠ a ∧ Nft w n fun d => Idle d ∧ Synced d ∧ Movable d
  | .nft (.delegateNft n _) => Nft w n fun d =>
      d.st.listed = false ∧ d.st.rented = false ∧ d.st.transmission = false ∧ Synced d
  | .nft (.setRoyalty n _) => Nft w n fun d => Idle d ∧ Synced d
  | .nft (.createColl _ l) => ∀ x, l = some x → x ≤ c.collLimit
  | .nft (.burnColl k) => ∃ x, w.nft.colls.get k = some x ∧ x.nfts = []
  | .nft (.closeColl k) => ∃ x, w.nft.colls.get k = some x
  | .nft (.limitColl k l) => ∃ x, w.nft.colls.get k = some x ∧ x.limit = none ∧ x.closed = false ∧
      x.nfts.length ≤ l ∧ l ≤ c.collLimit
  | .nft (.setCollData k _) => ∃ x, w.nft.colls.get k = some x
  | .nft (.addToColl n k) => HasRoom c w k ∧ Nft w n fun d => d.coll = none
  | .nft (.addSecret n _) => Nft w n fun d => Idle d ∧ d.st.secret = false ∧ d.st.syncCapsule = false
  | .nft (.toCapsule n _) => Nft w n fun d => Idle d ∧ d.st.capsule = false ∧ d.st.syncSecret = false
  | .nft (.setCapsuleData n _) => Nft w n fun d =>
      d.st.capsule = true ∧ d.st.listed = false ∧ d.st.rented = false ∧ d.st.delegated = false ∧ Synced d
  | .nft (.notifyKey n) => Nft w n fun d => d.st.capsule = true ∧ Idle d ∧ Synced d
  | .nft (.addSecretShard n) => (Nft w n fun d => d.st.secret = true ∧ d.st.syncSecret = true) ∧
      ∃ op k, w.tee.accOp.get a = some op ∧ w.tee.opCluster.get op = some k ∧
        TakesShare c ((w.nft.secretShards.get n).getD []) (k, op)
  | .nft (.addCapsuleShard n) => (Nft w n fun d => d.st.capsule = true ∧ d.st.syncCapsule = true) ∧
      ∃ op k, w.tee.accOp.get a = some op ∧ w.tee.opCluster.get op = some k ∧
        TakesShare c ((w.nft.capsuleShards.get n).getD []) (k, op)
  | .mkt (.create _) => True
  | .mkt (.setOwner m r) => r ≠ a ∧ ∃ x, w.mkt.mkts.get m = some x
  | .mkt (.setKind m _) => ∃ x, w.mkt.mkts.get m = some x
  | .mkt (.setConfig m ..) => ∃ x, w.mkt.mkts.get m = some x
  | .mkt (.list n m p) => Sellable w a n m p
  | .mkt (.unlist n) => ∃ s, w.mkt.sales.get n = some s
  | .mkt (.buy n p) => ∃ s, w.mkt.sales.get n = some s ∧ p ≤ w.bal.freeOf a ∧
      ∀ x, s.commission = some (.flat x) → x ≤ s.price
  | .auc (.create n m s e p b) => Sellable w a n m p ∧ w.now ≤ s ∧ s ≤ w.now + c.maxDelay ∧
      s < e ∧ s + c.minDur ≤ e ∧ e ≤ s + c.maxDur ∧ (∀ x, b = some x → p < x) ∧ w.auc.deadlines.length < c.aucLimit
  | .auc (.cancel n) => ∃ x, w.auc.auctions.get n = some x ∧ w.now < x.start
  | .auc (.end_ n) => ∃ x, w.auc.auctions.get n = some x ∧ x.extended = true ∧ x.bids ≠ []
  | .auc (.addBid n v) => ∃ x, w.auc.auctions.get n = some x ∧ x.start ≤ w.now ∧ c.ed < v ∧
      (x.bids = [] → x.startPrice < v) ∧ ∀ y, x.bids.getLast? = some y → y.2 < v
  | .auc (.removeBid n) => ∃ x, w.auc.auctions.get n = some x ∧ w.now + c.ending < x.fin
  | .auc (.buyItNow n p) => ∃ x, w.auc.auctions.get n = some x ∧ x.start ≤ w.now ∧
      ∀ y, x.bids.getLast? = some y → y.2 < p
  | .auc .claim => True
  | .rent (.create n d _ _ f x y) => Nft w n Pledgeable ∧
      w.rent.fixedQ.length + w.rent.subQ.length + w.rent.availQ.length < c.rentLimit ∧
      (let t := periodOf c.rentMaxDur d
       0 < t.1 ∧ t.1 ≤ c.rentMaxDur ∧ 0 < t.2 ∧ t.2 ≤ c.rentMaxDur) ∧
      (∀ p m ch, d = .sub p m ch → (∀ z, f ≠ .nft z) ∧ (∀ z, x ≠ .flexible z) ∧ ∀ z, y ≠ .flexible z) ∧
      (∀ m, rentIn f = some m → Nft w m fun _ => True) ∧ (∀ m, depositIn y = some m → Nft w m fun _ => True) ∧
      (∀ m, depositIn x = some m → Nft w m fun e => e.owner = a ∧ Pledgeable e) ∧
      (depositPrice x = 0 ∨ c.ed < depositPrice x) ∧ (depositPrice y = 0 ∨ c.ed < depositPrice y)
  | .rent (.cancel n) => ∃ k, w.rent.contracts.get n = some k ∧ k.rentee = none
  | .rent (.revoke n) => ∃ k, w.rent.contracts.get n = some k ∧ k.rentee ≠ none
  | .rent (.rent n _) => ∃ k, w.rent.contracts.get n = some k ∧ k.rentee = none
  | .rent (.makeOffer n _) => a ∉ (w.rent.offers.get n).getD [] ∧ ((w.rent.offers.get n).getD []).length < c.rentAccounts ∧
      ∃ k, w.rent.contracts.get n = some k ∧ k.start = none ∧ CanGive w a k ∧
        rentPrice k.rentFee ≤ w.bal.freeOf a ∧ depositPrice k.renteeFee ≤ w.bal.freeOf a
  | .rent (.acceptOffer n _) => ∃ k, w.rent.contracts.get n = some k
  | .rent (.retractOffer _) => True
  | .rent (.changeTerms n _ p m _) => (∃ k s, w.rent.contracts.get n = some k ∧ k.duration = .sub s ∧ s.changeable = true) ∧
      0 < p ∧ p ≤ c.rentMaxDur ∧ ∀ x, m = some x → 0 < x ∧ x ≤ c.rentMaxDur
  | .rent (.acceptTerms n f p m ch) => ∃ k s, w.rent.contracts.get n = some k ∧ k.duration = .sub s ∧ s.newTerms = true ∧
      k.rentFee = .tokens f ∧ s.period = p ∧ s.changeable = ch ∧ ∀ x, m = some x → s.maxDur = x
  | .tr (.set n r p k) => r ≠ a ∧ (Nft w n fun d => Idle d ∧ Synced d ∧ Movable d) ∧
      (∀ b, dateOf p = some b → w.now < b ∧ b ≤ w.now + c.trMaxDur) ∧ Consentable c.trConsents p ∧
      ∀ b, k = .untilBlock b → w.now < b
  | .tr (.remove n) => (Nft w n fun d => d.st.transmission = true) ∧ ∃ t, w.tr.trans.get n = some t ∧
      (t.cancellation = .anytime ∨ ∃ b, t.cancellation = .untilBlock b ∧ w.now ≤ b)
  | .tr (.resetTimer n b) => (Nft w n fun d => d.st.transmission = true) ∧ w.now < b ∧ b ≤ w.now + c.trMaxDur ∧
      ∃ t e, w.tr.trans.get n = some t ∧ t.protocol = .atBlockWithReset e
  | .tr (.addConsent n) => (Nft w n fun d => d.st.transmission = true) ∧ a ∉ (w.tr.consents.get n).getD [] ∧
      ∃ t, w.tr.trans.get n = some t ∧ (∀ l k e, t.protocol = .onConsentAtBlock l k e → w.tr.queue.find n = none)
  | .tee (.register b u) => u ≠ [] ∧ b ≠ a ∧ w.tee.accOp.get b = none ∧ w.tee.ledger.get a = none ∧
      w.tee.stakingAmount ≤ w.bal.freeOf a
  | .tee .unregister => w.tee.data.get a ≠ none → a ∉ w.tee.unregs ∧ w.tee.unregs.length < c.teeList
  | .tee (.update b u) => u ≠ [] ∧ b ≠ a ∧ w.tee.updates.get a = none ∧
      ∀ e, w.tee.data.get a = some e → e.addr = b ∨ w.tee.accOp.get b = none
  | .tee .cancelUpdate => True
  | .tee .withdraw => ∃ s, w.tee.ledger.get a = some s ∧ c.bonding ≤ w.now - s.unbondedAt
  | .tee (.submitReport op _) => w.tee.data.get op ≠ none ∧ w.active ≠ none
  | .tee (.claim e) => w.tee.claimed.get (e, a) = none ∧ ∃ now since, w.active = some now ∧
      w.tee.assignedEra.get a = some since ∧ since ≤ e ∧ e + 2 < now ∧ now < e + c.history
  | .tee .bondExtra => ∃ s, w.tee.ledger.get a = some s ∧ s.staked < w.tee.stakingAmount ∧
      w.tee.stakingAmount - s.staked ≤ w.bal.freeOf a
  | .tee .refundExcess => ∃ s, w.tee.ledger.get a = some s ∧ w.tee.stakingAmount < s.staked
  | .br (.vote k t) => w.br.nonces.get k ≠ none ∧ ∀ p, w.br.votes.get (k, t) = some p →
      p.approved = false ∧ w.now < p.expiry ∧ a ∉ p.votes ∧ p.votes.length < c.relayerLimit
  | .br (.deposit _ _ d) => w.br.nonces.get d ≠ none
  | .bal .. => True
  | .root _ => False
  | .ext _ => False
  | .mandate _ => False

/-- What must hold for a root call to be accepted. -/
def FitRoot (c : Cfg) (w : World) : TeeM.RootCall → Prop
  | .assign op k _ => w.active ≠ none ∧ w.tee.data.get op = none ∧
      (∃ e, w.tee.registrations.get op = some e ∧ w.tee.accOp.get e.addr = none) ∧
      ∃ x, w.tee.clusters.get k = some x ∧ x.enclaves.length < c.clusterSize
  | .removeRegistration op => w.tee.registrations.get op ≠ none
  | .rejectUpdate op => w.tee.updates.get op ≠ none
  | .approveUnregister op => op ∈ w.tee.unregs ∧ w.tee.data.get op ≠ none
  | .forceRemove op => w.tee.data.get op ≠ none
  | .approveUpdate op => ∃ e u, w.tee.data.get op = some e ∧ w.tee.updates.get op = some u ∧
      (e.addr = u.addr ∨ w.tee.accOp.get u.addr = none)
  | .forceUpdate op b u => (b ≠ none ∨ u ≠ none) ∧ u ≠ some [] ∧ b ≠ some op ∧
      ∃ e, w.tee.data.get op = some e ∧ ∀ x, b = some x → e.addr = x ∨ w.tee.accOp.get x = none
  | .createCluster _ => True
  | .updateCluster k _ => w.tee.clusters.get k ≠ none
  | .removeCluster k => ∃ x, w.tee.clusters.get k = some x ∧ x.enclaves = []
  | .registerServer s => (∀ x ∈ w.tee.servers, x.addr ≠ s.addr) ∧ w.tee.servers.length < c.teeList
  | .unregisterServer b => ∃ x ∈ w.tee.servers, x.addr = b
  | .setServerType b _ => ∃ x ∈ w.tee.servers, x.addr = b
  | .setAssignedEra op _ => w.tee.assignedEra.get op ≠ none
  | .setWeights _ => True
  | .setStakingAmount _ => True
  | .setPool _ => True

/-- What must hold for a call of the committee to be accepted. -/
def FitExt (c : Cfg) (w : World) : BrM.ExtCall → Prop
  | .setThreshold t => 0 < t
  | .addChain k => k ≠ c.chain ∧ w.br.nonces.get k = none
  | .setNonce k x => ∃ y, w.br.nonces.get k = some y ∧ y < x
  | _ => True

/-- What must hold for a call of any origin to be accepted; a mandated call is one by root. -/
def Fits (c : Cfg) (w : World) : Origin → Call → Prop
  | .signed a, x => Fit c w a x
  | .root, .root (.tee x) => FitRoot c w x
  | .root, .root _ => True
  | .root, .ext x => FitExt c w x
  | .ext, .ext x => FitExt c w x
  | .root, .mandate x => Fits c w .root x
  | .ext, .mandate x => Fits c w .root x
  | _, _ => False

end Spec.Refuse
