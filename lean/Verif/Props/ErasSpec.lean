import Verif.Model.Step
import Verif.Props.SymSpec
/-
What it means that a state, a call or an operation is the same, only `k` eras later: every number of an era in it is larger by
`k`.  Everything else is kept.
-/
namespace Spec.Eras
variable (k : Era)

/-- the key of a report or a claim -/
def key (x : Era × AccountId) : Era × AccountId := (x.1 + k, x.2)

theorem key_inj (a b : Era × AccountId) (h : key k a = key k b) : a = b := by
  obtain ⟨a, a'⟩ := a
  obtain ⟨b, b'⟩ := b
  simp only [key, Prod.mk.injEq] at h
  rw [Nat.add_right_cancel h.1, h.2]

/-- the TEE pallet -/
def teeSt (s : TeeSt) : TeeSt :=
  { s with
    reports := s.reports.mapk (key k) (key_inj k) id
    claimed := s.claimed.mapk (key k) (key_inj k) id
    assignedEra := s.assignedEra.mapv (· + k) }

/-- an event -/
def ev : Ev → Ev
  | .rewardClaimed e a v => .rewardClaimed (e + k) a v
  | .reported e o r a => .reported (e + k) o r a
  | e => e

/-- the whole state -/
def world (w : World) : World :=
  { w with active := w.active.map (· + k), tee := teeSt k w.tee, evs := w.evs.map (ev k) }

/-! ## calls: those with an era among their arguments -/

def teeCall : TeeM.Call → TeeM.Call
  | .claim e => .claim (e + k)
  | x => x

def teeRoot : TeeM.RootCall → TeeM.RootCall
  | .setAssignedEra a e => .setAssignedEra a (e + k)
  | x => x

def rootCall : RootCall → RootCall
  | .tee x => .tee (teeRoot k x)
  | x => x

def call : Call → Call
  | .tee x => .tee (teeCall k x)
  | .root x => .root (rootCall k x)
  | .mandate x => .mandate (call x)
  | x => x

def op : Op → Op
  | .call o x => .call o (call k x)
  | .era e => .era (e + k)
  | o => o

/-- the two calls that computing with eras cut off at 0 makes special: to claim the reward of era 0 while the history reaches back
to it, and to report in era 0, on an era before it -/
def First (c : Cfg) (w : World) : Call → Prop
  | .tee (.claim e) => e = 0 ∧ ∀ a, w.active = some a → a < c.history
  | .tee (.submitReport _ _) => w.active = some 0
  | _ => False

/-- none of the calls of a history is one of these when its turn comes -/
def Usual (c : Cfg) : World → List Op → Prop
  | _, [] => True
  | w, o :: l => (∀ a x, o = .call (.signed a) x → ¬ First c w x) ∧ Usual c (_root_.step c w o) l

end Spec.Eras
