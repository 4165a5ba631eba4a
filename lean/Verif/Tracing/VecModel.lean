/-
Model of the GoVector plugin: /repo/runtime/plugins/govector/log.go (the logger of a process)
and the generated client and server wrappers of /repo/plugins/govector/ir_clientwrapper.go and
ir_serverwrapper.go.
The library github.com/DistributedClocks/GoVector is not part of /repo.  Assumed of it, for a
logger called `pid`: `LogLocalEvent` adds one to the entry `pid` of the clock and logs the
clock; `PrepareSend` does the same and returns the clock as bytes; `UnpackReceive` adds one,
takes the maximum with the clock in the bytes for every entry (undecodable or missing bytes
count as an empty clock), and logs the clock.  Each of them is one step.  Events below the
logger's priority are not logged: then no step happens.  The event `Initialization Complete`
of a new logger is a local event.
-/
namespace Verif.Tracing

/-- A vector clock: the entries that are missing are zero. -/
scoped notation "Clock" => List Char → Nat

/-- Adds one to an entry (GoVector, VClock.Tick). -/
def tick (p : List Char) (c : Clock) : Clock := fun q => if q = p then c q + 1 else c q

/-- The maximum of two clocks (GoVector, VClock.Merge). -/
def merge (c d : Clock) : Clock := fun q => max (c q) (d q)

/-- What an event was. -/
inductive Kind where
  | local
  /-- The clock was sent. -/
  | send
  /-- The clock that was sent by the event with this number arrived; `none` if the bytes that
  arrived were no clock. -/
  | receive (sender : Option Nat)
deriving DecidableEq, Repr

/-- An event of the log: the process, what it was, and the clock. -/
structure Event where
  proc : Nat
  kind : Kind
  clock : Clock

/-- All processes: their clocks, and the events in the order in which they happened. -/
structure World where
  clocks : Nat → Clock
  log : List Event

/-- No process has logged anything. -/
def World.init : World := ⟨fun _ _ => 0, []⟩

/-- The process `p` logs an event; its clock becomes `c`. -/
def World.record (w : World) (p : Nat) (k : Kind) (c : Clock) : World :=
  ⟨fun q => if q = p then c else w.clocks q, w.log ++ [⟨p, k, c⟩]⟩

/-- log.go:55-112 (Debug, Info, Warn, Error, Logf).  `name` gives
the name of each process's logger (log.go:25-35: the name of the first logger that the process
creates). -/
def logLocal (name : Nat → List Char) (p : Nat) (w : World) : World :=
  w.record p .local (tick (name p) (w.clocks p))

/-- log.go:43-45 (GetSendCtx): the bytes are the number of the event, whose clock they
contain. -/
def getSendCtx (name : Nat → List Char) (p : Nat) (w : World) : World × Nat :=
  (w.record p .send (tick (name p) (w.clocks p)), w.log.length)

/-- The clock in some bytes. -/
def World.clockOf (w : World) : Option Nat → Clock
  | some i => match w.log[i]? with
    | some e => e.clock
    | none => fun _ => 0
  | none => fun _ => 0

/-- log.go:48-52 (UnpackReceiveCtx). -/
def unpackReceiveCtx (name : Nat → List Char) (p : Nat) (bytes : Option Nat) (w : World) : World :=
  w.record p (.receive bytes) (merge (tick (name p) (w.clocks p)) (w.clockOf bytes))

/-! ### The generated wrappers -/

/-- A run of the method on the server: it runs, or has sent the response `r`. -/
inductive Run where
  | serving
  | responded (r : Nat)
deriving DecidableEq, Repr

/-- A call between two processes: the bytes of the request, the runs of the method, and
whether the client has returned, with the bytes it got (`none` if it got an error). -/
structure Call where
  client : Nat
  server : Nat
  request : Nat
  runs : List Run
  result : Option (Option Nat)
deriving DecidableEq, Repr

structure Sys where
  world : World
  calls : List Call

/-- What may happen next, in any process.  Requests and responses may take any time, get lost
or arrive several times, and clients may give up. -/
inductive Op where
  /-- The application logs something. -/
  | log (p : Nat)
  /-- ir_clientwrapper.go:183-184: a wrapped client of process `client` calls process
  `server`. -/
  | call (client server : Nat)
  /-- ir_serverwrapper.go:209: the request of call `k` reaches the server wrapper. -/
  | arrive (k : Nat)
  /-- ir_serverwrapper.go:211: the method returns, in run `i`. -/
  | respond (k i : Nat)
  /-- ir_clientwrapper.go:185: the response of run `i` reaches the client wrapper. -/
  | return (k i : Nat)
  /-- ir_clientwrapper.go:185: the client wrapper gets an error from the wrapped client. -/
  | fail (k : Nat)
deriving DecidableEq, Repr

/-- One step; an operation that is not possible does nothing. -/
def step (name : Nat → List Char) (s : Sys) : Op → Sys
  | .log p => { s with world := logLocal name p s.world }
  | .call c d =>
    let (w, m) := getSendCtx name c s.world
    ⟨w, s.calls ++ [⟨c, d, m, [], none⟩]⟩
  | .arrive k => match s.calls[k]? with
    | some call =>
      ⟨unpackReceiveCtx name call.server (some call.request) s.world,
        s.calls.set k { call with runs := call.runs ++ [.serving] }⟩
    | none => s
  | .respond k i => match s.calls[k]? with
    | some call => match call.runs[i]? with
      | some .serving =>
        let (w, r) := getSendCtx name call.server s.world
        ⟨w, s.calls.set k { call with runs := call.runs.set i (.responded r) }⟩
      | _ => s
    | none => s
  | .return k i => match s.calls[k]? with
    | some call => match call.runs[i]?, call.result with
      | some (.responded r), none =>
        ⟨unpackReceiveCtx name call.client (some r) s.world,
          s.calls.set k { call with result := some (some r) }⟩
      | _, _ => s
    | none => s
  | .fail k => match s.calls[k]? with
    | some call => match call.result with
      | none =>
        ⟨unpackReceiveCtx name call.client none s.world, s.calls.set k { call with result := some none }⟩
      | some _ => s
    | none => s

/-- A history. -/
def exec (name : Nat → List Char) (ops : List Op) : Sys :=
  ops.foldl (step name) ⟨World.init, []⟩

end Verif.Tracing
