/-
Model of the OpenTelemetry plugin: the generated client and server wrappers
(/repo/plugins/opentelemetry/ir_ot_client.go, ir_ot_server.go), the conversion of span
contexts (/repo/runtime/core/backend/trace.go) and the logger
(/repo/runtime/plugins/opentelemetry/log.go).
The OpenTelemetry SDK (go.opentelemetry.io/otel v1.26.0) is not part of /repo.  Assumed of it:
`Tracer.Start` keeps the trace of a valid parent and starts a new trace otherwise, gives the
span a new id, samples a span with a valid parent like the parent and every other one (the
default sampler; no tracer of /repo sets another one), and keeps the trace state; ended
spans that are sampled reach the collector.  The limit of 128 events per span, failures of
exporters and panics of services are not modelled.
-/
namespace Verif.Tracing.Ot

/-- A byte. -/
scoped notation "Byte" => Fin 256

/-- otel/trace.SpanContext. -/
structure SpanContext where
  traceId : List Byte
  spanId : List Byte
  flags : Byte
  state : List Char
  remote : Bool
deriving DecidableEq, Repr

/-- The span context of a context without span. -/
def SpanContext.zero : SpanContext := ⟨List.replicate 16 0, List.replicate 8 0, 0, [], false⟩

/-- otel/trace: TraceID.IsValid and SpanID.IsValid. -/
def idValid (id : List Byte) : Bool := id.any (· ≠ 0)

/-- otel/trace: SpanContext.IsSampled. -/
def sampledFlag (flags : Byte) : Bool := flags.val % 2 = 1

/-! ### Encoding -/

/-- A digit of encoding/hex.EncodeToString. -/
def hexChar (n : Nat) : Char :=
  if n < 10 then Char.ofNat ('0'.toNat + n) else Char.ofNat ('a'.toNat + (n - 10))

/-- encoding/hex.EncodeToString. -/
def hexEncode : List Byte → List Char
  | [] => []
  | b :: bs => hexChar (b.val / 16) :: hexChar (b.val % 16) :: hexEncode bs

/-- A digit of encoding/hex.DecodeString. -/
def fromHex (c : Char) : Option Nat :=
  if '0'.toNat ≤ c.toNat ∧ c.toNat ≤ '9'.toNat then some (c.toNat - '0'.toNat)
  else if 'a'.toNat ≤ c.toNat ∧ c.toNat ≤ 'f'.toNat then some (c.toNat - 'a'.toNat + 10)
  else if 'A'.toNat ≤ c.toNat ∧ c.toNat ≤ 'F'.toNat then some (c.toNat - 'A'.toNat + 10)
  else none

/-- encoding/hex.DecodeString; `none` is an error. -/
def hexDecode : List Char → Option (List Byte)
  | [] => some []
  | [_] => none
  | a :: b :: cs => match fromHex a, fromHex b, hexDecode cs with
    | some x, some y, some bs => some (Fin.ofNat 256 (x * 16 + y) :: bs)
    | _, _, _ => none

/-- A character that otel/trace.decodeHex accepts. -/
def lowerHex (c : Char) : Bool :=
  ('a'.toNat ≤ c.toNat ∧ c.toNat ≤ 'f'.toNat) ∨ ('0'.toNat ≤ c.toNat ∧ c.toNat ≤ '9'.toNat)

/-- otel/trace: TraceIDFromHex (`n = 32`) and SpanIDFromHex (`n = 16`). -/
def idFromHex (n : Nat) (h : List Char) : Option (List Byte) :=
  if h.length ≠ n then none
  else if h.any (fun c => !lowerHex c) then none
  else match hexDecode h with
    | some id => if idValid id then some id else none
    | none => none

/-- trace.go:22-33 (traceCtx). -/
structure TraceCtx where
  traceID : List Char
  spanID : List Char
  traceFlags : List Char
  traceState : List Char
  remote : Bool
deriving DecidableEq, Repr

/-- The string that a client sends as trace context.  Simplified: JSON objects are given by
their fields (missing ones are empty), all other texts are `junk`. -/
inductive Wire where
  | empty
  | junk
  | json (c : TraceCtx)
deriving DecidableEq, Repr

/-- otel/trace: SpanContext.MarshalJSON. -/
def marshal (sc : SpanContext) : Wire :=
  .json ⟨hexEncode sc.traceId, hexEncode sc.spanId, hexEncode [sc.flags], sc.state, sc.remote⟩

/-- What a function returned. -/
inductive Out (α : Type) where
  | ok (a : α)
  | err
  | panic
deriving DecidableEq, Repr

/-- trace.go:36-60 (GetSpanContext).  `parse` is otel/trace.ParseTraceState; trace states are
given by their texts. -/
def getSpanContext (parse : List Char → Option (List Char)) : Wire → Out SpanContext
  | .empty | .junk => .err
  | .json c => match idFromHex 32 c.traceID with
    | none => .err
    | some tid => match idFromHex 16 c.spanID with
      | none => .err
      | some sid => match hexDecode c.traceFlags with
        | none => .err
        | some [] => .panic
        | some (flags :: _) => match parse c.traceState with
          | none => .err
          | some st => .ok ⟨tid, sid, flags, st, c.remote⟩

/-- ir_ot_server.go:222-226: the span context that the server wrapper finds in its context,
which was `here`, after it has looked at the trace context of the request.  `none` is a panic. -/
def serverContext (parse : List Char → Option (List Char)) (here : SpanContext) (w : Wire) : Option SpanContext :=
  match w with
  | .empty => some here
  | _ => match getSpanContext parse w with
    | .ok sc => some { sc with remote := true }
    | .err => some { SpanContext.zero with remote := true }
    | .panic => none

/-! ### Spans -/

/-- An event of a span. -/
inductive Ev where
  | log (msg : List Char)
  | error (msg : List Char)
deriving DecidableEq, Repr

/-- A span that reached the collector. -/
structure Span where
  name : List Char
  ctx : SpanContext
  parent : SpanContext
  events : List Ev
deriving DecidableEq, Repr

/-- otel/sdk/trace: Tracer.Start.  `fresh` is what the id generator returns. -/
def start (fresh : List Byte × List Byte) (parent : SpanContext) : SpanContext :=
  let sampled := !(idValid parent.traceId && idValid parent.spanId) || sampledFlag parent.flags
  { traceId := if idValid parent.traceId then parent.traceId else fresh.1
    spanId := fresh.2
    flags := if sampled && !sampledFlag parent.flags then parent.flags + 1 else parent.flags
    state := parent.state
    remote := false }

/-- otel/sdk/trace: Span.End. -/
def finish (name : List Char) (sc parent : SpanContext) (events : List Ev) : List Span :=
  if sampledFlag sc.flags then [⟨name, sc, parent, events⟩] else []

/-! ### Services -/

/-- A method of a service: the name of the server's service interface, the base name of the
client's, and the name of the method. -/
structure Method where
  service : List Char
  base : List Char
  method : List Char
deriving DecidableEq, Repr

/-- What a method returned: the results, and the text of the error if there was one. -/
structure Res where
  rets : List Nat
  err : Option (List Char)
deriving DecidableEq, Repr

/-- How a call reaches the server. -/
inductive Net where
  /-- The server is in the same process, and the context is passed on. -/
  | direct
  /-- The request and the response arrive. -/
  | sent
  /-- The request does not arrive; the client gets `r`. -/
  | requestLost (r : Res)
  /-- The response does not arrive; the client gets `r`. -/
  | responseLost (r : Res)
deriving DecidableEq, Repr

/-- The code of a method, with the code of the methods it calls (so that every run ends).  It
passes its context on to the calls. -/
inductive Code where
  | ret (r : Res)
  /-- It logs something. -/
  | log (msg : List Char) (k : Code)
  /-- It calls a method whose code is `callee`. -/
  | call (m : Method) (net : Net) (callee : Code) (k : Res → Code)
  /-- It runs two pieces of code, concurrently or not, and waits for both. -/
  | both (a b : Code) (k : Res → Res → Code)

/-- ir_ot_server.go:231. -/
def serverName (m : Method) : List Char := m.service ++ "Server_".toList ++ m.method

/-- ir_ot_client.go:189. -/
def clientName (m : Method) : List Char := m.base ++ "Client_".toList ++ m.method

/-- `if err != nil { span.RecordError(err) }`. -/
def recordError (r : Res) : List Ev :=
  match r.err with
  | some e => [.error e]
  | none => []

/-- A run: what the code returned, the events of the current span, and the other spans. -/
structure Run where
  result : Res
  events : List Ev
  spans : List Span
deriving DecidableEq, Repr

/-- What a client gets if the server's process panics. -/
def crashed : Res := ⟨[], some "EOF".toList⟩

/-- What the rest of the system is: the ids that the generators return, for the part of the
run given by a path; and for which methods the client wrapper makes spans (wiring.go:119,
`Instrument` or `InstrumentWithoutClientSpans`). -/
structure Config where
  ids : List Nat → List Byte × List Byte
  clientSpans : Method → Bool
  parse : List Char → Option (List Char)

/-- The way of a call to the server wrapper and back (ir_ot_server.go:221-238): what the client
gets, and the spans.  `span` is the span context of the client's context, `service` the
wrapped service. -/
def serve (cfg : Config) (fresh : List Byte × List Byte) (m : Method) (net : Net) (span : SpanContext)
    (service : SpanContext → Run) : Res × List Span :=
  match net with
  | .requestLost r => (r, [])
  | _ =>
    match serverContext cfg.parse (if net = .direct then span else SpanContext.zero) (marshal span) with
    | none => (crashed, [])
    | some pc =>
      let s := start fresh pc
      let o := service s
      (match net with | .responseLost r => r | _ => o.result,
        finish (serverName m) s pc (o.events ++ recordError o.result) ++ o.spans)

/-- The generated wrappers of an application all of whose services are instrumented
(ir_ot_client.go:184-199, ir_ot_server.go:221-238; log.go:27-79).  `cur` is the span context
of the context of the code. -/
def run (cfg : Config) (path : List Nat) (cur : SpanContext) : Code → Run
  | .ret r => ⟨r, [], []⟩
  | .log msg k =>
    let o := run cfg path cur k
    { o with events := .log msg :: o.events }
  | .call m net callee k =>
    let span := if cfg.clientSpans m then start (cfg.ids (path ++ [0])) cur else cur
    let served := serve cfg (cfg.ids (path ++ [1])) m net span (fun s => run cfg (path ++ [2]) s callee)
    let mine := if cfg.clientSpans m then finish (clientName m) span cur (recordError served.1) else []
    let rest := run cfg (path ++ [3]) cur (k served.1)
    { result := rest.result
      events := if cfg.clientSpans m then rest.events else recordError served.1 ++ rest.events
      spans := mine ++ served.2 ++ rest.spans }
  | .both a b k =>
    let oa := run cfg (path ++ [0]) cur a
    let ob := run cfg (path ++ [1]) cur b
    let rest := run cfg (path ++ [2]) cur (k oa.result ob.result)
    { result := rest.result
      events := oa.events ++ ob.events ++ rest.events
      spans := oa.spans ++ ob.spans ++ rest.spans }

end Verif.Tracing.Ot
