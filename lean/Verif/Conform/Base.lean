import Verif.Model.Events
import Verif.Model.TeeEvents
import Verif.Model.BrEvents
/-
Replaying the unit tests of /repo on the model.

These are tests of the model, not proofs about it: they show that on the inputs the project's own tests use, the model
gives the results those tests expect of the code.  Each `example` names the test function it replays.

Tests build a genesis from a list of balances and start in block 1.  `assert_noop!` has two parts: the error, which is
compared here, and that storage is unchanged, which holds in the model for every failing call (`C01`).  Errors of
`pallet_balances` have other names in the model: `LiquidityRestrictions/KeepAlive` stands for `KeepAlive` and
`LiquidityRestrictions`.
-/
namespace Conform

/-- One step of a test. -/
inductive Act where
  /-- an operation; a call must succeed -/
  | op (o : Op)
  /-- the test writes to storage directly -/
  | poke (f : World → World)

/-- `assert_ok!(Pallet::call(origin(a), ..))` -/
abbrev sg (a : AccountId) (x : Call) : Act := .op (.call (.signed a) x)
/-- `assert_ok!(Pallet::call(root(), ..))` -/
abbrev rt (x : Call) : Act := .op (.call .root x)

variable (c : Cfg)

/-- one step; `none` if a call fails -/
def act (w : World) : Act → Option World
  | .op (.call o x) =>
    match dispatch c x o w with
    | .ok w' => some w'
    | .error _ => none
  | .op o => some (step c w o)
  | .poke f => some (f w)

/-- all steps; `none` if some call fails -/
def play (w : World) : List Act → Option World
  | [] => some w
  | a :: t => (act c w a).bind fun w' => play w' t

/-- what an observation gives after the steps; `none` if some call fails -/
def see {α : Type} (w : World) (l : List Act) (f : World → α) : Option α := (play c w l).map f

/-- the error of a call that comes after the steps; `none` if the call succeeds or some step fails -/
def fails (w : World) (l : List Act) (o : Origin) (x : Call) : Option Err :=
  match play c w l with
  | none => none
  | some w' =>
    match dispatch c x o w' with
    | .ok _ => none
    | .error e => some e

/-- the events of the last operation -/
def lastEvents (w : World) (l : List Act) (o : Op) : Option (List Event) :=
  match play c w l with
  | none => none
  | some w' =>
    match act c w' (.op o) with
    | none => none
    | some _ => some (emit c w' o)

/-- `System::assert_last_event` for a call that must succeed -/
def lastEvent (w : World) (l : List Act) (o : Origin) (x : Call) : Option Event :=
  (lastEvents c w l (.call o x)).bind (·.getLast?)

/-- a list of balances as a map -/
def table (l : List (AccountId × Balance)) : FMap AccountId Balance :=
  l.foldl (fun m x => m.insert x.1 x.2) .empty

/-- `ExtBuilder::new_build(balances)`: block 1, all fees and amounts zero, no era -/
def blank (l : List (AccountId × Balance)) : World where
  now := 1
  active := none
  bal := {
    free := table l, tee := .empty, other := .empty, issuance := (l.map (·.2)).sum, collected := 0 }
  nfts := .empty
  nft := {
    fee := 0, secretFee := 0, capsuleFee := 0, nextNft := 0, nextColl := 0, colls := .empty,
    deleg := .empty, secretData := .empty, secretShards := .empty, capsuleData := .empty,
    capsuleShards := .empty }
  mkt := {
    fee := 0, next := 0, mkts := .empty, sales := .empty }
  auc := {
    auctions := .empty, deadlines := [], claims := .empty, comm := .empty }
  rent := {
    contracts := .empty, fixedQ := [], subQ := [], availQ := [], offers := .empty }
  tr := {
    feeAt := 0, feeReset := 0, feeConsent := 0, feeConsentAt := 0, trans := .empty,
    consents := .empty, queue := [] }
  tee := {
    registrations := .empty, unregs := [], updates := .empty, data := .empty,
    accOp := .empty, clusters := .empty, nextCluster := 0, opCluster := .empty, servers := [],
    stakingAmount := 0, ledger := .empty, reports := .empty, weights := ⟨0, 0, 0, 0, 0⟩,
    pool := 0, claimed := .empty, assignedEra := .empty }
  br := {
    nonces := .empty, threshold := 0, relayers := [], votes := .empty, fee := 0 }
  rew := {
    extra := 0, acc := 0 }
  evs := []

/-- a configuration; each mock overrides what it sets -/
def cfg0 : Cfg where
  ed := 1
  shards := 2
  collLimit := 10
  minDur := 100
  maxDur := 1000
  maxDelay := 50
  grace := 5
  ending := 10
  bidLimit := 3
  aucLimit := 10
  aucActions := 10
  aucPot := 1001
  rentLimit := 10
  rentActions := 10
  rentAvail := 20
  rentMaxDur := 100
  rentAccounts := 3
  rentPot := 1002
  trMaxDur := 1000
  trConsents := 10
  trLimit := 10
  trActions := 10
  clusterSize := 2
  teeList := 10
  bonding := 10
  teePot := 1003
  history := 50
  chain := 0
  proposalLife := 10
  relayerLimit := 5
  rewPot := 1004

/-- `NFTState::new`, primitives/src/nfts.rs 74-98 -/
abbrev st (capsule listed secret delegated soulbound syncSecret rented syncCapsule transmission : Bool) : NFTState :=
  ⟨capsule, listed, secret, delegated, soulbound, syncSecret, rented, syncCapsule, transmission⟩

/-- `NFT::set_nft_state(n, s)` -/
abbrev setState (n : NFTId) (s : NFTState) : Act :=
  .poke fun w =>
    match w.nfts.get n with
    | some d => w.putNft n { d with st := s }
    | none => w

/-- the free balance -/
abbrev free (a : AccountId) (w : World) : Balance := w.bal.freeOf a

/-- `Permill::from_parts` -/
abbrev pm (x : Nat) (h : x ≤ 1000000 := by decide) : Permill := ⟨x, h⟩

end Conform
