import Verif.Workload.Model
/- Vocabulary for C08 and C09. -/
namespace Verif.Workload

/-- How many of the 100 equally likely draws a request function owns. -/
def draws (m : PropMap) (fn : Nat) : Nat := ((List.range 100).filter fun n => m n = some fn).length

/-- Requests started, in order. -/
def started (log : List Event) : List Nat :=
  log.filterMap fun | .started r => some r | _ => none

/-- Requests that ended, with their records, in order of completion. -/
def results (log : List Event) : List (Nat × Stat) :=
  log.filterMap fun | .finished r s => some (r, s) | _ => none

/-- The run's configured time is over. -/
def timeIsUp (s : State) : Prop := s.main ≠ .sleeping

end Verif.Workload
