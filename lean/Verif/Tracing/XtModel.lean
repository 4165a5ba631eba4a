import Verif.Tracing.OtModel
/-
Model of the X-Trace plugin: the generated client and server wrappers
(/repo/plugins/xtrace/ir_xtrace_client_wrapper.go, ir_xtrace_server_wrapper.go) and
/repo/runtime/plugins/xtrace.
The X-Trace client library (tracing-framework-go) and the tracing plane are not part of
/repo.  Assumed of them: a context holds a task and the ids of the last events; `Log` makes an
event with a new id whose parents are those, and replaces them by the new id, and does nothing
if there is no task; `StartTask` sets a new task; `Merge` takes both sets of ids; base64
texts of baggage are decoded to the baggage, and that of empty baggage is empty.
Services, calls and what becomes of them are those of the OpenTelemetry model.
-/
namespace Verif.Tracing.Xt
open Verif.Tracing.Ot

/-- What X-Trace keeps in a context. -/
structure Baggage where
  task : Option (List Nat)
  parents : List (List Nat)
deriving DecidableEq, Repr

def Baggage.empty : Baggage := ⟨none, []⟩

/-- An event, with the task and the events that it comes after.  Ids are the parts of the run in
which they are made. -/
structure Event where
  id : List Nat
  task : List Nat
  parents : List (List Nat)
  text : List Char
  error : Bool
deriving DecidableEq, Repr

/-- trace.go:32-39 (Log, LogWithTags). -/
def logEvent (id : List Nat) (text : List Char) (error : Bool) (b : Baggage) : Baggage × List Event :=
  match b.task with
  | some t => (⟨some t, [id]⟩, [⟨id, t, b.parents, text, error⟩])
  | none => (b, [])

/-- trace.go:52-54 (Merge). -/
def mergeBaggage (b other : Baggage) : Baggage := ⟨b.task <|> other.task, b.parents ++ other.parents⟩

/-- `if err != nil { ctx, _ = handler.XTClient.LogWithTags(ctx, err.Error(), "Error") }`. -/
def logError (id : List Nat) (r : Res) (b : Baggage) : Baggage × List Event :=
  match r.err with
  | some e => logEvent id e true b
  | none => (b, [])

/-- What the client wrapper gets from the server wrapper's results: gRPC, Thrift and HTTP
clients return no results if the server returned an error. -/
def returned (net : Net) (r : Res) (b : Baggage) : Res × Baggage :=
  match net with
  | .direct => (r, b)
  | .sent => (r, if r.err.isSome then .empty else b)
  | .requestLost r' => (r', .empty)
  | .responseLost r' => (r', .empty)

/-- ir_xtrace_server_wrapper.go:223-242, and the way there and back.  `b` is the baggage of the
client. -/
def serve (path : List Nat) (m : Method) (net : Net) (b : Baggage) (service : Baggage → Res × List Event) :
    Res × Baggage × List Event :=
  match net with
  | .requestLost r => (r, .empty, [])
  | _ =>
    let here := if net = .direct then b else .empty
    let b0 := if b = .empty then here else b
    let b1 := if b0.task.isNone then ⟨some (path ++ [1]), []⟩ else b0
    let (b2, e2) := logEvent (path ++ [2]) (m.method ++ " start".toList) false b1
    let (r, es) := service b2
    let (b3, e3) := logError (path ++ [4]) r b2
    let (b4, e4) := logEvent (path ++ [5]) (m.method ++ " end".toList) false b3
    ((returned net r b4).1, (returned net r b4).2, e2 ++ es ++ e3 ++ e4)

/-- ir_xtrace_client_wrapper.go:195-209. -/
def clientCall (path : List Nat) (m : Method) (net : Net) (b : Baggage) (service : Baggage → Res × List Event) :
    Res × List Event :=
  let (b1, e1) := logEvent (path ++ [0]) (m.method ++ " client call start".toList) false b
  let (r, ret, es) := serve path m net b1 service
  let b2 := mergeBaggage b1 ret
  let (b3, e3) := logError (path ++ [6]) r b2
  let (_, e4) := logEvent (path ++ [7]) (m.method ++ " client call end".toList) false b3
  (r, e1 ++ es ++ e3 ++ e4)

/-- The run of some code all of whose calls are instrumented; `b` is the baggage in its
context.  Its log messages go to X-Trace (log.go:46-53), and it goes on with the context that
the logger returns. -/
def run (path : List Nat) (b : Baggage) : Code → Res × List Event
  | .ret r => (r, [])
  | .log msg k =>
    let (b1, e1) := logEvent (path ++ [0]) ("INFO: ".toList ++ msg) false b
    let (r, es) := run (path ++ [1]) b1 k
    (r, e1 ++ es)
  | .call m net callee k =>
    let (r, es) := clientCall path m net b (fun b' => run (path ++ [3]) b' callee)
    let (r', es') := run (path ++ [8]) b (k r)
    (r', es ++ es')
  | .both a c k =>
    let (ra, ea) := run (path ++ [0]) b a
    let (rb, eb) := run (path ++ [1]) b c
    let (r, es) := run (path ++ [2]) b (k ra rb)
    (r, ea ++ eb ++ es)

end Verif.Tracing.Xt
