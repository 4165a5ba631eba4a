/-
Model of the client pool /repo/runtime/plugins/clientpool/clientpool.go (lines 16-101) under arbitrary
concurrency, one step per atomic or channel operation.

Calls in progress are kept in one list per program point.  Simplifications: the private counter `waiting`
(lines 71, 78), which nothing reads, is omitted; each successful run of the build function yields a new
client (clients are numbered, and so are Pop calls); handing a client directly to a parked receiver is buffering it and receiving
it.  `held` and `log` are ghost state: the clients currently in the hands of callers, and the history.
-/
namespace Verif.ClientPool


/-- What an observer sees. -/
inductive Event where
  /-- the build function returned a new client / an error to Pop call `p` -/
  | built (c : Nat)
  | buildFailed (p : Nat)
  /-- Pop call `p` returns client `c` / an error -/
  | popOk (p : Nat) (c : Nat)
  | popErr (p : Nat)
  /-- somebody calls Push with client `c` -/
  | push (c : Nat)
  /-- the context of Pop call `p` is cancelled -/
  | cancel (p : Nat)
deriving DecidableEq, Repr

/-- `ClientPool` (lines 16-23) and the calls in progress. -/
structure State where
  cap : Nat
  clients : List Nat               -- channel buffer, oldest first
  size : Nat
  available : Int
  trying : List Nat                   -- Pop at line 48
  reading : List Nat                  -- Pop about to read `pool.size` (lines 59, 67)
  casing : List (Nat × Nat)           -- Pop at the loop test with `curSize` (lines 59-60)
  building : List Nat                 -- Pop running the build function (line 61)
  failing : List Nat                  -- Pop at line 63
  waiting : List Nat                  -- Pop parked at line 72
  took : List (Nat × Nat)          -- Pop at line 53 or 76, client received
  returning : List Nat             -- Push at line 84
  sending : List Nat               -- Push at line 85
  held : List Nat
  nextPid : Nat
  nextClient : Nat
  cancelled : Nat → Bool
  log : List Event

/-- `NewClientPool` (lines 30-40). -/
def init (cap : Nat) : State :=
  { cap, clients := [], size := 0, available := 0, trying := [], reading := [], casing := [], building := [],
    failing := [], waiting := [], took := [], returning := [], sending := [], held := [], nextPid := 0,
    nextClient := 0, cancelled := fun _ => false, log := [] }

/-- Scheduler and environment actions. -/
inductive Act where
  | callPop                            -- some goroutine calls Pop
  | cancel (p : Nat)                   -- the context of call `p` is cancelled
  | tryRecv (p : Nat)                  -- line 52: a client is available at once
  | tryDone (p : Nat)                  -- line 49: the context is already done
  | tryMiss (p : Nat)                  -- line 55: neither
  | read (p : Nat)                     -- lines 59, 67: read `pool.size`
  | cas (p : Nat) (cur : Nat)          -- lines 59-60
  | build (p : Nat) (ok : Bool)        -- line 61: the build function returns
  | fail (p : Nat)                     -- lines 63, 65
  | recv (p : Nat)                     -- line 75
  | waitDone (p : Nat)                 -- line 73
  | took (p : Nat) (c : Nat)        -- lines 53-54, 76-79
  | callPush (c : Nat)              -- the holder of `c` calls Push
  | inc (c : Nat)                   -- line 84
  | send (c : Nat)                  -- line 85
deriving Repr

/-- One step; `none` when the action is not enabled. -/
def step (s : State) : Act → Option State
  | .callPop => some { s with trying := s.nextPid :: s.trying, nextPid := s.nextPid + 1 }
  | .cancel p => some { s with cancelled := fun q => if q = p then true else s.cancelled q,
                               log := s.log ++ [.cancel p] }
  | .tryRecv p =>
    match s.clients with
    | [] => none
    | c :: rest => if p ∈ s.trying then
        some { s with trying := s.trying.erase p, clients := rest, took := (p, c) :: s.took } else none
  | .tryDone p =>
    if p ∈ s.trying ∧ s.cancelled p then
      some { s with trying := s.trying.erase p, log := s.log ++ [.popErr p] } else none
  | .tryMiss p =>
    if p ∈ s.trying ∧ s.clients = [] ∧ ¬ s.cancelled p then
      some { s with trying := s.trying.erase p, reading := p :: s.reading } else none
  | .read p =>
    if p ∈ s.reading then
      some { s with reading := s.reading.erase p, casing := (p, s.size) :: s.casing } else none
  | .cas p cur =>
    if (p, cur) ∈ s.casing then
      if cur < s.cap then
        if s.size = cur then
          some { s with casing := s.casing.erase (p, cur), size := cur + 1, building := p :: s.building }
        else some { s with casing := s.casing.erase (p, cur), reading := p :: s.reading }
      else some { s with casing := s.casing.erase (p, cur), waiting := p :: s.waiting }
    else none
  | .build p ok =>
    if p ∈ s.building then
      if ok then
        some { s with building := s.building.erase p, nextClient := s.nextClient + 1,
                      held := s.nextClient :: s.held,
                      log := s.log ++ [.built s.nextClient, .popOk p s.nextClient] }
      else some { s with building := s.building.erase p, failing := p :: s.failing,
                         log := s.log ++ [.buildFailed p] }
    else none
  | .fail p =>
    if p ∈ s.failing then
      some { s with failing := s.failing.erase p, size := s.size - 1, log := s.log ++ [.popErr p] } else none
  | .recv p =>
    match s.clients with
    | [] => none
    | c :: rest => if p ∈ s.waiting then
        some { s with waiting := s.waiting.erase p, clients := rest, took := (p, c) :: s.took } else none
  | .waitDone p =>
    if p ∈ s.waiting ∧ s.cancelled p then
      some { s with waiting := s.waiting.erase p, log := s.log ++ [.popErr p] } else none
  | .took p c =>
    if (p, c) ∈ s.took then
      some { s with took := s.took.erase (p, c), available := s.available - 1, held := c :: s.held,
                    log := s.log ++ [.popOk p c] } else none
  | .callPush c =>
    if c ∈ s.held then
      some { s with held := s.held.erase c, returning := c :: s.returning, log := s.log ++ [.push c] } else none
  | .inc c =>
    if c ∈ s.returning then
      some { s with returning := s.returning.erase c, available := s.available + 1,
                    sending := c :: s.sending } else none
  | .send c =>
    if c ∈ s.sending ∧ s.clients.length < s.cap then
      some { s with sending := s.sending.erase c, clients := s.clients ++ [c] } else none

/-- Run a schedule. -/
def exec (s : State) : List Act → Option State
  | [] => some s
  | a :: as => match step s a with
    | none => none
    | some s' => exec s' as

end Verif.ClientPool
