/-!
# Stacks of plugins on the two sides of a service

Plugins such as X-Trace, GoVector and OpenTelemetry wrap the server side of a service, where they add an argument (and
a result) to every method, and the client side, where they take them off again. The health checker adds a method on
the server side only. This file models the interfaces of such stacks and the calls through them.
-/

namespace Verif.Stack

abbrev Str := List Char

/-- `gocode.Variable` (`/repo/plugins/golang/gocode/service.go` 12-16): name and type (the type as text). -/
structure Var where
  name : Str
  type : Str
  deriving DecidableEq

/-- `gocode.Func` (17-22). The context argument and the error result are not listed, as in the code. -/
structure Func where
  args : List Var
  rets : List Var
  deriving DecidableEq

/-- `gocode.ServiceInterface` (31-36). The map of methods is a list of pairs, the first of a name counts. -/
structure Iface where
  name : Str
  base : Str
  methods : List (Str × Func)

/-- Plugins applied to a service with a pointer. `plain` stands for the wrappers that keep the interface (retries,
timeouts, circuit breaker, latency, fault injection, client pool). -/
inductive Mod where
  | xtrace | govec | ot | health | plain
  deriving DecidableEq

def stringT : Str := ['s', 't', 'r', 'i', 'n', 'g']
def bytesT : Str := ['[', ']', 'b', 'y', 't', 'e']
def healthName : Str := ['H', 'e', 'a', 'l', 't', 'h']

/-- `Func.AddArgument`, `Func.AddRetVar` (`/repo/plugins/golang/gocode/service.go` 84-90). -/
def Func.addArgument (f : Func) (v : Var) : Func := { f with args := f.args ++ [v] }
def Func.addRetVar (f : Func) (v : Var) : Func := { f with rets := f.rets ++ [v] }

/-- `ServiceInterface.AddMethod` (51-53), assignment to the map. -/
def setMethod (ms : List (Str × Func)) (n : Str) (f : Func) : List (Str × Func) :=
  (n, f) :: ms.filter fun p => p.1 ≠ n

/-- The server side interface of each plugin, `genInterface`: X-Trace `/repo/plugins/xtrace/ir_xtrace_server_wrapper.go`
59-75; GoVector `/repo/plugins/govector/ir_serverwrapper.go` 51-68; OpenTelemetry
`/repo/plugins/opentelemetry/ir_ot_server.go` 55-71; health checker `/repo/plugins/healthchecker/ir.go` 62-77. -/
def serverIface (m : Mod) (i : Iface) : Iface :=
  match m with
  | .xtrace =>
    { i with name := i.base ++ "_XTraceServerWrapperInterface".toList
             methods := i.methods.map fun (n, f) =>
               (n, (f.addArgument ⟨"baggage".toList, stringT⟩).addRetVar ⟨[], stringT⟩) }
  | .govec =>
    { i with name := i.base ++ "_GoVecServerWrapperInterface".toList
             methods := i.methods.map fun (n, f) =>
               (n, (f.addArgument ⟨"govecctx".toList, bytesT⟩).addRetVar ⟨[], bytesT⟩) }
  | .ot =>
    { i with name := i.base ++ "_OTServerWrapperInterface".toList
             methods := i.methods.map fun (n, f) => (n, f.addArgument ⟨"traceCtx".toList, stringT⟩) }
  | .health =>
    { i with name := i.base ++ "_HealthChecker".toList
             methods := setMethod i.methods healthName ⟨[], [⟨[], stringT⟩]⟩ }
  | .plain => i

/-- `l[:len(l)-1]`: panics on the empty slice. -/
def cutLast (l : List Var) : Option (List Var) := if l = [] then none else some l.dropLast

/-- Cut the last argument of a method. -/
def cutArg (f : Func) : Option Func := (cutLast f.args).map fun a => { f with args := a }

/-- Cut the last argument and the last result of a method. -/
def cutBoth (f : Func) : Option Func :=
  match cutLast f.args, cutLast f.rets with
  | some a, some r => some ⟨a, r⟩
  | _, _ => none

/-- Apply a cut to every method; `none` if one of them panics. -/
def cutAll (c : Func → Option Func) : List (Str × Func) → Option (List (Str × Func))
  | [] => some []
  | (n, f) :: ms => match c f, cutAll c ms with
    | some g, some r => some ((n, g) :: r)
    | _, _ => none

/-- The client side interface of each plugin, computed from the interface of what it wraps, `genInterface`: X-Trace
`/repo/plugins/xtrace/ir_xtrace_client_wrapper.go` 59-75; GoVector `/repo/plugins/govector/ir_clientwrapper.go` 52-68;
OpenTelemetry `/repo/plugins/opentelemetry/ir_ot_client.go` 46-61. The health checker has no client side. `none` is a
panic of the compiler. -/
def clientIface (m : Mod) (i : Iface) : Option Iface :=
  match m with
  | .xtrace => (cutAll cutBoth i.methods).map fun ms =>
      { i with name := i.base ++ "_XTraceClientWrapperInterface".toList, methods := ms }
  | .govec => (cutAll cutBoth i.methods).map fun ms =>
      { i with name := i.base ++ "_GoVecClientWrapperInterface".toList, methods := ms }
  | .ot => (cutAll cutArg i.methods).map fun ms =>
      { i with name := i.base ++ "_OTClientWrapperInterface".toList, methods := ms }
  | .health => some i
  | .plain => some i

/-- The server side of a pointer to which plugins were applied in this order: each wraps what was there before
(`AddDstModifier`, `/repo/blueprint/pkg/coreplugins/pointer/pointer.go` 172-185). -/
def serverStack (ms : List Mod) (i : Iface) : Iface := ms.foldl (fun i m => serverIface m i) i

/-- The client side: the first plugin applied is the one the caller sees, the last one is next to the server
(`AddSrcModifier`, 153-160); `i` is the interface at the boundary (RPC client or server itself). -/
def clientStack : List Mod → Iface → Option Iface
  | [], i => some i
  | m :: ms, i => (clientStack ms i).bind (clientIface m)

/-- The methods that the generated health checker declares on its struct: those of the service it wraps, then `Health`
(`/repo/plugins/healthchecker/codegen.go` 85-94). -/
def healthDecls (i : Iface) : List Str := i.methods.map Prod.fst ++ [healthName]

/-- The methods of the generated server struct, with argument and result types, as written in the templates: X-Trace
`ir_xtrace_server_wrapper.go` 222-223, GoVector `ir_serverwrapper.go` 207-208, OpenTelemetry `ir_ot_server.go` 247-248,
health checker `healthchecker/codegen.go` 87-94. -/
def serverDeclares (m : Mod) (i : Iface) : List (Str × List Str × List Str) :=
  match m with
  | .xtrace => i.methods.map fun (n, f) => (n, f.args.map Var.type ++ [stringT], f.rets.map Var.type ++ [stringT])
  | .govec => i.methods.map fun (n, f) => (n, f.args.map Var.type ++ [bytesT], f.rets.map Var.type ++ [bytesT])
  | .ot => i.methods.map fun (n, f) => (n, f.args.map Var.type ++ [stringT], f.rets.map Var.type)
  | .health => i.methods.map (fun (n, f) => (n, f.args.map Var.type, f.rets.map Var.type)) ++ [(healthName, [], [stringT])]
  | .plain => i.methods.map fun (n, f) => (n, f.args.map Var.type, f.rets.map Var.type)

/-- The types of the arguments and of the result variables in the call that a client wrapper's method with signature `f`
makes: X-Trace `ir_xtrace_client_wrapper.go` 200-201, GoVector `ir_clientwrapper.go` 182-184, OpenTelemetry
`ir_ot_client.go` 208. -/
def clientPasses (m : Mod) (f : Func) : List Str × List Str :=
  match m with
  | .xtrace => (f.args.map Var.type ++ [stringT], f.rets.map Var.type ++ [stringT])
  | .govec => (f.args.map Var.type ++ [bytesT], f.rets.map Var.type ++ [bytesT])
  | .ot => (f.args.map Var.type ++ [stringT], f.rets.map Var.type)
  | .health | .plain => (f.args.map Var.type, f.rets.map Var.type)

/-! ### Calls -/

/-- What a call does: the calls that reach the service, and the results with the error, if any. -/
structure Reply (Val : Type) where
  reached : List (Str × List Val)
  rets : List Val
  err : Option Str

/-- Generated server wrapper methods: X-Trace `ir_xtrace_server_wrapper.go` 214-237, GoVector `ir_serverwrapper.go`
203-210, OpenTelemetry `ir_ot_server.go` 243-262, health checker `healthchecker/codegen.go` 85-94. The wrapper takes the
last argument off, calls the service with the others and, for X-Trace and GoVector, adds a result `y`. Values are those
of the trace context; what is recorded is modelled in `Verif.Tracing`. -/
def serverCall {Val : Type} (y healthy : Val) (m : Mod) (inner : Str → List Val → Reply Val) (n : Str) (args : List Val) : Reply Val :=
  match m with
  | .xtrace | .govec => let r := inner n args.dropLast; { r with rets := r.rets ++ [y] }
  | .ot => inner n args.dropLast
  | .health => if n = healthName then ⟨[], [healthy], none⟩ else inner n args
  | .plain => inner n args

/-- Generated client wrapper methods: X-Trace `ir_xtrace_client_wrapper.go` 191-209, GoVector `ir_clientwrapper.go`
180-187, OpenTelemetry `ir_ot_client.go` 195-213: calls with one more argument `x`, takes the last result off again. -/
def clientCall {Val : Type} (x : Val) (m : Mod) (next : Str → List Val → Reply Val) (n : Str) (args : List Val) : Reply Val :=
  match m with
  | .xtrace | .govec => let r := next n (args ++ [x]); { r with rets := r.rets.dropLast }
  | .ot => next n (args ++ [x])
  | .health => next n args
  | .plain => next n args

/-- A call through all client wrappers, then all server wrappers, in the order of `serverStack` and `clientStack`.
`xs k`, `ys k` are the values that the wrappers at level `k` pass. -/
def serverCalls {Val : Type} (ys : Nat → Val) (healthy : Val) :
    List Mod → (Str → List Val → Reply Val) → Str → List Val → Reply Val
  | [], svc => svc
  | m :: ms, svc => serverCalls (fun k => ys (k + 1)) healthy ms (serverCall (ys 0) healthy m svc)

def clientCalls {Val : Type} (xs : Nat → Val) :
    List Mod → (Str → List Val → Reply Val) → Str → List Val → Reply Val
  | [], boundary => boundary
  | m :: ms, boundary => clientCall (xs 0) m (clientCalls (fun k => xs (k + 1)) ms boundary)

def call {Val : Type} (xs ys : Nat → Val) (healthy : Val) (ms : List Mod) (svc : Str → List Val → Reply Val) :
    Str → List Val → Reply Val :=
  clientCalls xs ms (serverCalls ys healthy ms svc)

end Verif.Stack
