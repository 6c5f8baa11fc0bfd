import Verif.Model.Nft
import Verif.Model.Auction
import Verif.Model.Bridge
/-
The chain as a state machine: origins, calls, operations and reachable worlds.
-/

/-- Origins.  `ext` is whatever satisfies `ExternalOrigin` (a committee); root is assumed to satisfy
it too, which is how the pallets' mocks and the usual `EitherOf<EnsureRoot, _>` configure it. -/
inductive Origin where
  | signed (a : AccountId)
  | root
  | ext
deriving DecidableEq

/-- Dispatchables with `ensure_root`. -/
inductive RootCall where
  | nftFee (x : Balance)
  | secretFee (x : Balance)
  | capsuleFee (x : Balance)
  | mktFee (x : Balance)
  | trFee (k : ProtocolKind) (x : Balance)
  | tee (r : TeeM.RootCall)

/-- All calls. -/
inductive Call where
  | nft (x : NftM.Call)
  | mkt (x : MktM.Call)
  | auc (x : AucM.Call)
  | rent (x : RentM.Call)
  | tr (x : TrM.Call)
  | tee (x : TeeM.Call)
  | br (x : BrM.Call)
  /-- `pallet_balances::transfer_allow_death`/`transfer_keep_alive` -/
  | bal (dst : AccountId) (v : Balance) (l : Live)
  | root (x : RootCall)
  | ext (x : BrM.ExtCall)
  | mandate (x : Call)

variable (c : Cfg)

/-- signed calls of all pallets -/
def signedCall (w : World) (a : AccountId) : Call → Except Err World
  | .nft x => NftM.call c w a x
  | .mkt x => MktM.call c w a x
  | .auc x => AucM.call c w a x
  | .rent x => RentM.call c w a x
  | .tr x => TrM.call c w a x
  | .tee x => TeeM.call c w a x
  | .br x => BrM.call c w a x
  | .bal dst v l => (w.bal.transfer c.ed a dst v l).map w.putBal
  | .root _ => .error (.e "BadOrigin")
  | .ext _ => .error (.e "BadOrigin")
  | .mandate _ => .error (.e "BadOrigin")

/-- root calls -/
def rootCall (w : World) : RootCall → Except Err World
  | .nftFee x => .ok (NftM.setMintFee w x)
  | .secretFee x => .ok (NftM.setSecretFee w x)
  | .capsuleFee x => .ok (NftM.setCapsuleFee w x)
  | .mktFee x => .ok (MktM.setMintFee w x)
  | .trFee k x => .ok (TrM.setFee w k x)
  | .tee r => TeeM.root c w r

/-- What `mandate` leaves behind, mandate/src/lib.rs 61-74: it succeeds even if the inner call does
not, which is then rolled back by its own storage layer; a panic of the inner call is not caught. -/
def mandateResult (w : World) : Except Err World → Except Err World
  | .ok w' => .ok (w'.ev (.mandated true))
  | .error (.e _) => .ok (w.ev (.mandated false))
  | .error (.panic s) => .error (.panic s)

/-- `RuntimeCall::dispatch_bypass_filter(origin)` -/
def dispatch : Call → Origin → World → Except Err World
  | .mandate x, .root, w => mandateResult w (dispatch x .root w)
  | .mandate x, .ext, w => mandateResult w (dispatch x .root w)
  | .root x, .root, w => rootCall c w x
  | .ext x, .root, w => BrM.ext c w x
  | .ext x, .ext, w => BrM.ext c w x
  | x, .signed a, w => signedCall c w a x
  | _, _, _ => .error (.e "BadOrigin")

/-- Everything that can happen to the chain. -/
inductive Op where
  /-- an extrinsic -/
  | call (o : Origin) (x : Call)
  /-- the `on_initialize` hooks of the four pallets that have one -/
  | hookAuc
  | hookRent
  | hookTr
  | hookTee
  /-- the next block begins -/
  | tick
  /-- the staking pallet's active era becomes `e` (never decreases) -/
  | era (e : Era)
  /-- fees and tip of a transaction are charged and handed to `OnUnbalanced` -/
  | txFee (payer : AccountId) (fee tip : Balance) (author : Option AccountId)
  /-- the staking pallet calls `EraPayout::era_payout` -/
  | eraPayout
  /-- a pallet outside /repo mints to an account (staking rewards) -/
  | mint (a : AccountId) (v : Balance)
  /-- pallets outside /repo change their locks on an account -/
  | lock (a : AccountId) (v : Balance)

/-- an extrinsic that fails leaves no trace -/
def orSame (w : World) : Except Err World → World
  | .ok w' => w'
  | .error _ => w

/-- one operation -/
def step (w : World) : Op → World
  | .call o x => orSame w (dispatch c x o w)
  | .hookAuc => AucM.hook c w
  | .hookRent => RentM.hook c w
  | .hookTr => TrM.hook c w
  | .hookTee => TeeM.hook c w
  | .tick => { w with now := w.now + 1 }
  | .era e => if ∀ a ∈ w.active, a ≤ e then { w with active := some e } else w
  | .txFee p f t a => orSame w (RewM.txFee c w p f t a)
  | .eraPayout => (RewM.eraPayout c w).1
  | .mint a v => w.putBal (w.bal.mint c.ed a v)
  | .lock a v => w.putBal { w.bal with other := w.bal.other.insert a v }

/-- The accounts an operation needs keys of, or outside pallets put locks on, are not pallet
accounts: those are hashes nobody has a key for. -/
def Op.Ok : Op → Prop
  | .call (.signed a) _ => ¬ c.pot a
  | .txFee p _ _ _ => ¬ c.pot p
  | .lock a _ => ¬ c.pot a
  | _ => True

/-- executing a list of operations -/
def run (w : World) : List Op → World
  | [] => w
  | o :: t => run (step c w o) t

/-- Balances before anything happened: no TEE lock, no lock on pallet accounts, every account has at
least the existential deposit, and the issuance is what accounts and fee collector hold. -/
structure Bal.Init (b : Bal) : Prop where
  tee : b.tee = .empty
  pots : ∀ a, c.pot a → (b.other.get a).getD 0 = 0
  ed : ∀ a v, b.free.get a = some v → c.ed ≤ v
  sum : b.issuance = b.free.sumBy (fun _ v => v) + b.collected
  max : b.issuance ≤ U128MAX

/-- The start: no NFT, collection, marketplace, auction, contract, enclave, chain; all configurable
fees and amounts are arbitrary. -/
structure Genesis (w : World) : Prop where
  bal : w.bal.Init c
  nfts : w.nfts = .empty
  nft : w.nft.nextNft = 0 ∧ w.nft.nextColl = 0 ∧ w.nft.colls = .empty ∧ w.nft.deleg = .empty ∧
    w.nft.secretData = .empty ∧ w.nft.secretShards = .empty ∧ w.nft.capsuleData = .empty ∧
    w.nft.capsuleShards = .empty
  mkt : w.mkt.next = 0 ∧ w.mkt.mkts = .empty ∧ w.mkt.sales = .empty
  auc : w.auc.auctions = .empty ∧ w.auc.deadlines = [] ∧ w.auc.claims = .empty ∧
    w.auc.comm = .empty
  rent : w.rent.contracts = .empty ∧ w.rent.fixedQ = [] ∧ w.rent.subQ = [] ∧ w.rent.availQ = [] ∧
    w.rent.offers = .empty
  tr : w.tr.trans = .empty ∧ w.tr.consents = .empty ∧ w.tr.queue = []
  tee : w.tee.registrations = .empty ∧ w.tee.unregs = [] ∧ w.tee.updates = .empty ∧
    w.tee.data = .empty ∧ w.tee.accOp = .empty ∧ w.tee.clusters = .empty ∧
    w.tee.nextCluster = 0 ∧ w.tee.opCluster = .empty ∧ w.tee.servers = [] ∧
    w.tee.ledger = .empty ∧ w.tee.reports = .empty ∧ w.tee.claimed = .empty ∧
    w.tee.assignedEra = .empty
  br : w.br.nonces = .empty ∧ w.br.votes = .empty
  rew : w.rew.acc = 0
  evs : w.evs = []

/-- Worlds reachable from a genesis by any operations. -/
inductive Reach : World → Prop where
  | init {w : World} : Genesis c w → Reach w
  | step {w : World} (o : Op) : Reach w → o.Ok c → Reach (step c w o)
