import Verif.GoValue.Model
/-
Model of the in-memory queue /repo/runtime/plugins/simplequeue/queue.go (lines 13-65) under
arbitrary concurrency.

Every call of Push or Pop is a process with its own identifier.  A process takes one step per channel
operation: first the non-blocking `select` with `default`, then the blocking `select` between the channel
and `ctx.Done()`.  A schedule is a list of actions; any process may be stepped at any time, and a
context may be cancelled at any time (also before the call's first step).

Simplifications: a Go channel hands an item directly to a waiting receiver; that is the same as buffering
it and receiving it in two steps, which the model does.  Values are `GoVal`s and destinations `Dst`s
(Verif.GoValue).  The history `log` is a ghost field: nothing reads it.
-/
namespace Verif.Queue
open Verif.GoValue

/-- Identifier of one call of Push or Pop. -/
abbrev CallId := Nat

/-- Where a call is: not started or finished, before its first `select`, or parked in the second. -/
inductive Call where
  | none
  | pushTry (item : GoVal)        -- queue.go line 52
  | pushWait (item : GoVal)       -- queue.go line 57
  | popTry (dst : Dst)            -- queue.go line 35
  | popWait (dst : Dst)           -- queue.go line 40

/-- What an observer sees. -/
inductive Event where
  /-- call `c` of Push/Pop begins -/
  | callPush (c : CallId) (item : GoVal)
  | callPop (c : CallId) (dst : Dst)
  /-- the context of call `c` is cancelled -/
  | cancel (c : CallId)
  /-- call `c` could not complete at once and starts to wait -/
  | blocked (c : CallId)
  /-- Push `c` of `item` returns `(ok, nil)` -/
  | pushRet (c : CallId) (item : GoVal) (ok : Bool)
  /-- Pop `c` returns `(true, outcome)` having removed the item `v` of Push call `src`; the destination
  is now `dst` -/
  | popTrue (c : CallId) (src : CallId) (v : GoVal) (dst : Dst) (outcome : Outcome)
  /-- Pop `c` returns `(false, nil)`; its destination is `dst` -/
  | popFalse (c : CallId) (dst : Dst)

/-- State of the queue: the channel's buffer (oldest first; each item tagged with the Push call it came
from, a ghost tag), the calls in progress, the cancelled contexts, and the ghost history. -/
structure State where
  buf : List (CallId × GoVal)
  calls : CallId → Call
  cancelled : CallId → Bool
  next : CallId
  log : List Event

/-- Capacity of the channel (queue.go line 23). -/
def capacity : Nat := 10

/-- `NewSimpleQueue` (queue.go lines 22-31). -/
def init : State := ⟨[], fun _ => .none, fun _ => false, 0, []⟩

/-- Actions of the environment and the scheduler. -/
inductive Act where
  | push (item : GoVal)             -- some goroutine calls Push
  | pop (dst : Dst)                 -- some goroutine calls Pop
  | cancel (c : CallId)             -- the context passed to call `c` is cancelled
  | run (c : CallId)                -- call `c` takes its channel operation
  | giveUp (c : CallId)             -- call `c` takes the `ctx.Done()` case
deriving Repr

/-- Point update of the call table. -/
def setCall (f : CallId → Call) (c : CallId) (x : Call) : CallId → Call :=
  fun d => if d = c then x else f d

/-- A channel send (queue.go lines 53-54 and 58-59); only taken when there is room. -/
def doSend (s : State) (c : CallId) (v : GoVal) : State :=
  { s with buf := s.buf ++ [(c, v)], calls := setCall s.calls c .none,
           log := s.log ++ [.pushRet c v true] }

/-- A channel receive (queue.go lines 36-37 and 41-42): remove the oldest item and copy it to `dst`. -/
def doRecv (s : State) (c : CallId) (dst : Dst) : Option State :=
  match s.buf with
  | [] => none
  | (src, v) :: rest =>
    let r := copyResult v dst
    some { s with buf := rest, calls := setCall s.calls c .none,
                  log := s.log ++ [.popTrue c src v r.1 r.2] }

/-- One scheduler step; `none` when the action is not enabled. -/
def step (s : State) : Act → Option State
  | .push v => some { s with calls := setCall s.calls s.next (.pushTry v), next := s.next + 1,
                             log := s.log ++ [.callPush s.next v] }
  | .pop d => some { s with calls := setCall s.calls s.next (.popTry d), next := s.next + 1,
                            log := s.log ++ [.callPop s.next d] }
  | .cancel c =>
      if c < s.next then
        some { s with cancelled := fun d => if d = c then true else s.cancelled d,
                      log := s.log ++ [.cancel c] }
      else none
  | .run c =>
    match s.calls c with
    | .none => none
    | .pushTry v =>                                   -- queue.go lines 52-56
        if s.buf.length < capacity then some (doSend s c v)
        else some { s with calls := setCall s.calls c (.pushWait v), log := s.log ++ [.blocked c] }
    | .pushWait v =>                                  -- queue.go lines 57-59
        if s.buf.length < capacity then some (doSend s c v) else none
    | .popTry d =>                                    -- queue.go lines 35-39
        match doRecv s c d with
        | some s' => some s'
        | none => some { s with calls := setCall s.calls c (.popWait d), log := s.log ++ [.blocked c] }
    | .popWait d => doRecv s c d                      -- queue.go lines 40-42
  | .giveUp c =>
    if s.cancelled c then
      match s.calls c with
      | .pushWait v =>                                -- queue.go lines 60-61
          some { s with calls := setCall s.calls c .none, log := s.log ++ [.pushRet c v false] }
      | .popWait d =>                                 -- queue.go lines 43-44
          some { s with calls := setCall s.calls c .none, log := s.log ++ [.popFalse c d] }
      | _ => none
    else none

/-- Run a schedule from a state. -/
def exec (s : State) : List Act → Option State
  | [] => some s
  | a :: as => match step s a with
    | none => none
    | some s' => exec s' as

end Verif.Queue
