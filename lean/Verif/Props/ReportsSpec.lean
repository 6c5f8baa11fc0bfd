import Verif.Props.Metric
/-
What C133 speaks of: metrics servers reporting on operators.
-/
namespace Spec

/-- a server reports on an operator -/
structure Submission where
  server : AccountId
  op : AccountId
  report : Report
deriving DecidableEq

/-- servers report one after the other; a report that is refused changes nothing -/
def reporting (l : List Submission) : List Op := l.map fun s => .call (.signed s.server) (.tee (.submitReport s.op s.report))

/-- the server is registered for public clusters and the operator runs an enclave -/
def Heard (w : World) (s : Submission) : Prop :=
  (∃ m, w.tee.servers.find? (fun x => decide (x.addr = s.server)) = some m ∧ m.kind = .pub) ∧ ∃ e, w.tee.data.get s.op = some e

/-- the reports on an operator in an era -/
def reportsOn (w : World) (E : Era) (op : AccountId) : List Report := (w.tee.reports.get (E, op)).getD []

/-- there is room for all these reports -/
def Room (c : Cfg) (w : World) (E : Era) (l : List Submission) : Prop :=
  ∀ op, (reportsOn w E op).length + (l.filter fun s => decide (s.op = op)).length ≤ c.teeList

/-- the state without reports and events -/
def apartFromReports (w : World) : World := { withReports w .empty with evs := [] }

end Spec
