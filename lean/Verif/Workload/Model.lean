/-
Model of the workload generator /repo/runtime/core/workload/{workload,engine,stats}.go.
-/
namespace Verif.Workload

/-- `ApiInfo` (workload.go lines 29-33).  The request function is identified by a number. -/
structure Api where
  fn : Nat
  proportion : Int
deriving DecidableEq, Repr

/-- The loop of `IsValid` (workload.go lines 63-66). Simplification: `int` without overflow. -/
def total (apis : List Api) : Int := apis.foldl (fun t a => t + a.proportion) 0

/-- `IsValid` (workload.go lines 62-71). -/
def isValid (apis : List Api) : Bool := total apis == 100

/-- A proportion map `map[int]RequestFunction`. -/
abbrev PropMap := Nat → Option Nat

/-- The inner loop (engine.go lines 46-48): with `n` iterations to go and the counter at `i`, writes
`last+i, last+i+1, …`.  The loop runs `proportion` times, and not at all when that is negative. -/
def fill (m : PropMap) (last : Nat) (fn : Nat) : (n i : Nat) → PropMap
  | 0, _ => m
  | n + 1, i => fill (fun k => if k = last + i then some fn else m k) last fn n (i + 1)

/-- The outer loop (engine.go lines 44-50). -/
def fillAll (m : PropMap) (last : Nat) : List Api → PropMap
  | [] => m
  | a :: as => fillAll (fill m last a.fn a.proportion.toNat 0) (last + a.proportion.toNat) as

/-- `init_prop_map` (engine.go lines 40-52) on the list that `sort.Slice` left: `sorted` is any list
with the same entries, in descending order of proportion (the sort is not stable). -/
def propMap (sorted : List Api) : PropMap := fillAll (fun _ => none) 0 sorted

/-- A possible result of `sort.Slice` on line 41. -/
def IsSorted (apis sorted : List Api) : Prop :=
  sorted.Perm apis ∧ sorted.Pairwise (fun a b => b.proportion ≤ a.proportion)

/-- `Stat` (stats.go). -/
structure Stat where
  start : Int
  duration : Int
  isError : Bool
deriving DecidableEq, Repr

/-- Where the main goroutine is in `RunOpenLoop`: in the sleep `select` (lines 107-110), at `stop <- true`
(line 111), at `wg.Wait()` (line 113), at `<-done` (line 116), returned. -/
inductive Main where
  | sleeping | stopping | waiting | closed | returned
deriving DecidableEq, Repr

/-- What an observer sees: request `r` is started, request `r` ends with a record. -/
inductive Event where
  | started (r : Nat)
  | finished (r : Nat) (s : Stat)
deriving Repr

/-- State of a run of `RunOpenLoop` (engine.go lines 55-119).
* `cap` – capacity of `stat_channel`; `buf` – its content; `chanClosed` – it has been closed;
* `launching` – the launcher goroutine is still in its loop;
* `running` – requests whose function has not returned; `sending` – requests at `stat_channel <- stat`;
  `leaving` – requests that have sent and have not yet called `wg.Done`;
* `wg` – the wait group's counter;
* `stats` – `e.Stats`; `collectorDone` – `done` is closed;
* `crashed` – some goroutine panicked (nil request function, send on a closed channel).
Request numbers and `log` are ghost state. -/
structure State where
  cap : Nat
  main : Main
  launching : Bool
  next : Nat
  running : List Nat
  sending : List (Nat × Stat)
  leaving : Nat
  wg : Int
  buf : List (Nat × Stat)
  chanClosed : Bool
  stats : List (Nat × Stat)
  collectorDone : Bool
  crashed : Bool
  log : List Event

/-- The state in which the main goroutine has started the other two (engine.go lines 56-102). -/
def init (cap : Nat) : State :=
  { cap, main := .sleeping, launching := true, next := 0, running := [], sending := [], leaving := 0,
    wg := 0, buf := [], chanClosed := false, stats := [], collectorDone := false, crashed := false, log := [] }

/-- Scheduler actions. -/
inductive Act where
  | tick (n : Nat)                  -- the launcher's timer fires and it draws `n` (lines 87-98)
  | timeUp                          -- the run's duration is over or its context is done (lines 107-110)
  | handshake                       -- `stop <- true` meets `<-stop` (lines 85-86, 111)
  | finish (r : Nat) (s : Stat)     -- request `r`'s function returns `s` (line 93)
  | send (r : Nat) (s : Stat)       -- `stat_channel <- stat` into the buffer (line 94)
  | handoff (r : Nat) (s : Stat)    -- the same, handed directly to the waiting collector
  | leave                           -- deferred `wg.Done()` (line 92)
  | collect                         -- the collector receives and appends (lines 63-69)
  | wait                            -- `wg.Wait()` returns, then `close(stat_channel)` (lines 113-115)
  | exitCollector                   -- the collector's range loop ends, `close(done)` (lines 63, 70)
  | ret                             -- `<-done` (line 116)

/-- One step; `none` when the action is not possible in the state. `m` is the proportion map. -/
def step (m : PropMap) (s : State) : Act → Option State
  | .tick n =>
    if s.launching ∧ n < 100 then                      -- rand.Intn(100)
      match m n with
      | none => some { s with crashed := true, log := s.log ++ [.started s.next], next := s.next + 1,
                              running := s.next :: s.running, wg := s.wg + 1 }
      | some _ => some { s with log := s.log ++ [.started s.next], next := s.next + 1,
                                running := s.next :: s.running, wg := s.wg + 1 }
    else none
  | .timeUp => if s.main = .sleeping then some { s with main := .stopping } else none
  | .handshake =>
    if s.main = .stopping ∧ s.launching then some { s with main := .waiting, launching := false } else none
  | .finish r st =>
    if r ∈ s.running then
      some { s with running := s.running.erase r, sending := (r, st) :: s.sending,
                    log := s.log ++ [.finished r st] }
    else none
  | .send r st =>
    if (r, st) ∈ s.sending then
      if s.chanClosed then some { s with crashed := true }
      else if s.buf.length < s.cap then
        some { s with sending := s.sending.erase (r, st), buf := s.buf ++ [(r, st)], leaving := s.leaving + 1 }
      else none
    else none
  | .handoff r st =>
    if (r, st) ∈ s.sending ∧ s.buf = [] ∧ ¬ s.chanClosed ∧ ¬ s.collectorDone then
      some { s with sending := s.sending.erase (r, st), stats := s.stats ++ [(r, st)], leaving := s.leaving + 1 }
    else none
  | .leave => if 0 < s.leaving then some { s with leaving := s.leaving - 1, wg := s.wg - 1 } else none
  | .collect =>
    match s.buf with
    | [] => none
    | x :: rest => if s.collectorDone then none else some { s with buf := rest, stats := s.stats ++ [x] }
  | .wait =>
    if s.main = .waiting ∧ s.wg = 0 then some { s with main := .closed, chanClosed := true } else none
  | .exitCollector =>
    if s.chanClosed ∧ s.buf = [] ∧ ¬ s.collectorDone then some { s with collectorDone := true } else none
  | .ret => if s.main = .closed ∧ s.collectorDone then some { s with main := .returned } else none

/-- Run a schedule. -/
def exec (m : PropMap) (s : State) : List Act → Option State
  | [] => some s
  | a :: as => match step m s a with
    | none => none
    | some s' => exec m s' as

/-- The counters printed by `PrintStats` (engine.go lines 123-139): requests, errors, sum of durations. -/
def printStats (stats : List Stat) : Int × Int × Int :=
  stats.foldl (fun (reqs, errs, sum) st =>
    (reqs + 1, if st.isError then errs + 1 else errs, sum + st.duration)) (0, 0, 0)

end Verif.Workload
