import Verif.Model.Step
import Verif.Props.SymSpec
/-
What it means that a state, a call or an operation is the same, only `k` blocks later: every block number in it is larger by
`k`.  Durations, eras and everything else are kept.
-/
namespace Spec.Later
variable (k : Block)

/-! ## state -/

/-- a schedule -/
def queue (q : Queue) : Queue := q.map fun x => (x.1, x.2 + k)

/-- an auction -/
def auction (a : Auction) : Auction := { a with start := a.start + k, fin := a.fin + k }

/-- the auction pallet -/
def aucSt (s : AucSt) : AucSt :=
  { s with auctions := s.auctions.mapv (auction k), deadlines := queue k s.deadlines }

/-- a rent contract: its start and its creation are blocks, its duration is not -/
def contract (x : Contract) : Contract := { x with start := x.start.map (· + k), creation := x.creation + k }

/-- the rent pallet -/
def rentSt (s : RentSt) : RentSt :=
  { s with
    contracts := s.contracts.mapv (contract k)
    fixedQ := queue k s.fixedQ, subQ := queue k s.subQ, availQ := queue k s.availQ }

/-- a transmission protocol -/
def protocol : Protocol → Protocol
  | .atBlock b => .atBlock (b + k)
  | .atBlockWithReset b => .atBlockWithReset (b + k)
  | .onConsent l t => .onConsent l t
  | .onConsentAtBlock l t b => .onConsentAtBlock l t (b + k)

/-- until when a transmission can be cancelled -/
def cancellation : Cancellation → Cancellation
  | .none => .none
  | .untilBlock b => .untilBlock (b + k)
  | .anytime => .anytime

/-- a transmission -/
def trans (t : Transmission) : Transmission :=
  { t with protocol := protocol k t.protocol, cancellation := cancellation k t.cancellation }

/-- the transmission pallet -/
def trSt (s : TrSt) : TrSt := { s with trans := s.trans.mapv (trans k), queue := queue k s.queue }

/-- a stake: the block of unbonding means something only once unbonding has begun (it is 0 before) -/
def ledger (l : Ledger) : Ledger := if l.unlocking then { l with unbondedAt := l.unbondedAt + k } else l

/-- the TEE pallet -/
def teeSt (s : TeeSt) : TeeSt := { s with ledger := s.ledger.mapv (ledger k) }

/-- a proposal -/
def proposal (p : Proposal) : Proposal := { p with expiry := p.expiry + k }

/-- the bridge pallet -/
def brSt (s : BrSt) : BrSt := { s with votes := s.votes.mapv (proposal k) }

/-- an event -/
def ev : Ev → Ev
  | .contractCreated n b => .contractCreated n (b + k)
  | e => e

/-- the whole state -/
def world (w : World) : World :=
  { w with
    now := w.now + k
    auc := aucSt k w.auc
    rent := rentSt k w.rent
    tr := trSt k w.tr
    tee := teeSt k w.tee
    br := brSt k w.br
    evs := w.evs.map (ev k) }

/-! ## calls: those with a block number among their arguments -/

def aucCall : AucM.Call → AucM.Call
  | .create n m s e p b => .create n m (s + k) (e + k) p b
  | x => x

def rentCall : RentM.Call → RentM.Call
  | .rent n b => .rent n (b + k)
  | .makeOffer n b => .makeOffer n (b + k)
  | x => x

def trCall : TrM.Call → TrM.Call
  | .set n a p x => .set n a (protocol k p) (cancellation k x)
  | .resetTimer n b => .resetTimer n (b + k)
  | x => x

def call : Call → Call
  | .auc x => .auc (aucCall k x)
  | .rent x => .rent (rentCall k x)
  | .tr x => .tr (trCall k x)
  | .mandate x => .mandate (call x)
  | x => x

def op : Op → Op
  | .call o x => .call o (call k x)
  | o => o

end Spec.Later
