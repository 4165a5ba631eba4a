import Verif.Tracing.OtModel
/-
What a trace should show: independent of ids, contexts and wrappers.
-/
namespace Verif.Tracing.Ot

/-- What a piece of code did: the messages it logged and the calls it made, in order.  For a
call: what the caller got, what the method returned if the request arrived, and what the
method did. -/
inductive Acts where
  | nil
  | log (msg : List Char) (rest : Acts)
  | call (m : Method) (seen : Res) (served : Option Res) (sub rest : Acts)
deriving DecidableEq, Repr

def Acts.append : Acts → Acts → Acts
  | .nil, b => b
  | .log m r, b => .log m (r.append b)
  | .call m seen served sub r, b => .call m seen served sub (r.append b)

/-- The run of some code without any tracing. -/
def plain : Code → Res × Acts
  | .ret r => (r, .nil)
  | .log msg k => ((plain k).1, .log msg (plain k).2)
  | .call m net callee k =>
    match net with
    | .requestLost r => ((plain (k r)).1, .call m r none .nil (plain (k r)).2)
    | .responseLost r =>
      ((plain (k r)).1, .call m r (some (plain callee).1) (plain callee).2 (plain (k r)).2)
    | _ =>
      let r := (plain callee).1
      ((plain (k r)).1, .call m r (some r) (plain callee).2 (plain (k r)).2)
  | .both a b k =>
    let rest := plain (k (plain a).1 (plain b).1)
    (rest.1, ((plain a).2.append (plain b).2).append rest.2)

/-- Spans as a collector shows them: a list of spans with the spans below them. -/
inductive Forest where
  | nil
  | node (name : List Char) (events : List Ev) (sub rest : Forest)
deriving DecidableEq, Repr

def Forest.append : Forest → Forest → Forest
  | .nil, b => b
  | .node n e sub r, b => .node n e sub (r.append b)

/-- The number of spans. -/
def Forest.size : Forest → Nat
  | .nil => 0
  | .node _ _ sub r => sub.size + r.size + 1

/-- The events for an error. -/
def errorEvents (r : Res) : List Ev :=
  match r.err with
  | none => []
  | some e => [.error e]

/-- The events and the spans that a trace should show for what some code did: a span for every
call that arrived, with what the method logged and its error; the client's span above it if
there is one; and the errors that the caller got, in the client's span or else in the
caller's. -/
def expect (clientSpans : Method → Bool) : Acts → List Ev × Forest
  | .nil => ([], .nil)
  | .log msg rest => (.log msg :: (expect clientSpans rest).1, (expect clientSpans rest).2)
  | .call m seen served sub rest =>
    let server : Forest := match served with
      | none => .nil
      | some r => .node (m.service ++ "Server_".toList ++ m.method) ((expect clientSpans sub).1 ++ errorEvents r) (expect clientSpans sub).2 .nil
    if clientSpans m then
      ((expect clientSpans rest).1,
        .node (m.base ++ "Client_".toList ++ m.method) (errorEvents seen) server (expect clientSpans rest).2)
    else
      (errorEvents seen ++ (expect clientSpans rest).1, server.append (expect clientSpans rest).2)

/-- An id that is not zero. -/
def NonZero (id : List Byte) : Prop := ∃ b ∈ id, b ≠ 0

instance (id : List Byte) : Decidable (NonZero id) := by unfold NonZero; infer_instance

/-- The span `s` is a child of the span `(trace, span)`, in the same trace; or it has no parent
if the ids are zero. -/
def childOf (key : List Byte × List Byte) (s : Span) : Bool :=
  (s.parent.traceId, s.parent.spanId) = key ∧ (NonZero key.1 → s.ctx.traceId = key.1)

/-- Spans below each other, by a function that says what is below a span. -/
def Forest.ofSpans (below : Span → Forest) : List Span → Forest
  | [] => .nil
  | s :: ss => .node s.name s.events (below s) (Forest.ofSpans below ss)

/-- How a collector arranges spans: those below `key`, up to a depth. -/
def rebuild (spans : List Span) : Nat → List Byte × List Byte → Forest
  | 0, _ => .nil
  | n + 1, key => Forest.ofSpans (fun s => rebuild spans n (s.ctx.traceId, s.ctx.spanId)) (spans.filter (childOf key))

/-- What a caller gets from a call. -/
def seen (net : Net) (callee : Code) : Res :=
  match net with
  | .requestLost r => r
  | .responseLost r => r
  | _ => (plain callee).1

/-- The parts of a run of some code in which ids are generated, see `Config`. -/
def draws (path : List Nat) : Code → List (List Nat)
  | .ret _ => []
  | .log _ k => draws path k
  | .call _ net callee k =>
    [path ++ [0], path ++ [1]] ++ draws (path ++ [2]) callee ++ draws (path ++ [3]) (k (seen net callee))
  | .both a b k =>
    draws (path ++ [0]) a ++ draws (path ++ [1]) b ++ draws (path ++ [2]) (k (plain a).1 (plain b).1)

/-- The id generators work during some parts of a run: ids of the right length, not zero, and
no id twice. -/
structure Generators (ids : List Nat → List Byte × List Byte) (parts : List (List Nat)) : Prop where
  traceLength : ∀ p ∈ parts, (ids p).1.length = 16
  traceValid : ∀ p ∈ parts, NonZero (ids p).1
  spanLength : ∀ p ∈ parts, (ids p).2.length = 8
  spanValid : ∀ p ∈ parts, NonZero (ids p).2
  distinct : ∀ p ∈ parts, ∀ q ∈ parts, (ids p).2 = (ids q).2 → p = q

/-- The span context of a span. -/
structure Real (parse : List Char → Option (List Char)) (sc : SpanContext) : Prop where
  traceLength : sc.traceId.length = 16
  traceValid : NonZero sc.traceId
  spanLength : sc.spanId.length = 8
  spanValid : NonZero sc.spanId
  state : parse sc.state = some sc.state

end Verif.Tracing.Ot
