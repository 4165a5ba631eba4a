import Verif.Queue.Model
/-
Observer-side vocabulary for the queue properties C03 and C04: everything is computed from the
history of events, not from the queue's state.
-/
namespace Verif.Queue
open Verif.GoValue

/-- The items whose Push returned true, in the order the queue accepted them, each with its call. -/
def accepted (log : List Event) : List (CallId × GoVal) :=
  log.filterMap fun | .pushRet c v true => some (c, v) | _ => none

/-- The items handed out by Pops that returned true, in order, each with the Push call it came from. -/
def removed (log : List Event) : List (CallId × GoVal) :=
  log.filterMap fun | .popTrue _ src v _ _ => some (src, v) | _ => none

/-- The items that, according to the history, are in the queue: accepted and not yet handed out. -/
def contents (log : List Event) : List (CallId × GoVal) :=
  (accepted log).drop (removed log).length

/-- The calls that have returned, in order. -/
def returned (log : List Event) : List CallId :=
  log.filterMap fun
    | .pushRet c _ _ => some c
    | .popTrue c _ _ _ _ => some c
    | .popFalse c _ => some c
    | _ => none

end Verif.Queue
