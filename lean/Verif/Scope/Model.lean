/-
Model of the method bodies that Blueprint's plugins generate, as far as names are concerned: which declaration every
identifier of the generated Go refers to, and which values are handed on as arguments.

Every plugin has a text template for the methods of a service.  The names of the arguments are taken from the service's Go
interface; all other names are the plugin's (or are packages, predeclared names and declarations of the generated
package).  A method body is a list of `Tok`s: the declarations and uses of names, in the order in which they take effect
(Go: the scope of a variable begins after the statement that declares it), with brackets for blocks.

Simplifications:
* Only names are modelled: the statements' other effects are the subject of other components (Wrappers, Grpc, Http, …).
* A name of the plugin's that is captured by an argument is an error: that the argument happens to have the same methods
  or fields is not considered.
* `a, b := request` in a server declares the arguments one by one; an argument whose name is taken is an error.
* That Go refuses unused variables and imports is not considered.
-/
namespace Verif.Scope

abbrev Name := String

/-- A variable and its type, as Go writes it. -/
structure Var where
  name : Name
  ty : String
deriving DecidableEq, Repr

/-- What an identifier refers to: a variable of the template's, or argument `i` of the method. -/
inductive Bind where
  | own
  | arg (i : Nat)
deriving DecidableEq, Repr

inductive Tok where
  /-- `x` is meant to be the template's own variable. -/
  | use (x : Name)
  /-- `x` is meant to be a package, a predeclared name or a declaration of the package. -/
  | outer (x : Name)
  /-- `x, y := …` -/
  | define (xs : List Var)
  /-- `var x T` -/
  | var (x : Var)
  /-- `{` -/
  | opn
  /-- `}` -/
  | cls
  /-- The arguments with these numbers are read and handed on. -/
  | pass (is : List Nat)
  /-- Argument `i` is declared here (in methods that do not take it as a parameter). -/
  | arg (i : Nat)
deriving DecidableEq, Repr

/-- The template's variables in scope: those of the inner blocks, innermost first, and those of the function's own block,
which also holds the parameters; and how many of the arguments are in scope. -/
structure Env where
  inner : List (List Var)
  top : List Var
  k : Nat
deriving DecidableEq, Repr

def names (l : List Var) : List Name := l.map (·.name)

/-- What `x` refers to in Go: the innermost declaration.  Arguments are in the function's own block.  `none`: not a
variable. -/
def resolve (args : List Var) (E : Env) (x : Name) : Option (Bind × String) :=
  match E.inner.flatten.find? fun v => v.name = x with
  | some v => some (.own, v.ty)
  | none =>
    match E.top.find? fun v => v.name = x with
    | some v => some (.own, v.ty)
    | none =>
      match (args.take E.k).findIdx? fun v => v.name = x with
      | some i => some (.arg i, ((args.map (·.ty))[i]?).getD "")
      | none => none

/-- The template's own variables in the innermost block. -/
def ownHere (E : Env) : List Name :=
  match E.inner with
  | [] => names E.top
  | b :: _ => names b

/-- The argument called `x`, if it is declared in the innermost block. -/
def argHere (args : List Var) (E : Env) (x : Name) : Option Var :=
  match E.inner with
  | [] => (args.take E.k).find? fun v => v.name = x
  | _ :: _ => none

/-- The environment after the variables have been declared in the innermost block.  Those that are there already are
assigned to; an argument that is assigned to is the template's from then on. -/
def declare (E : Env) (xs : List Var) : Env :=
  let new := xs.filter fun v => v.name ∉ ownHere E
  match E.inner with
  | [] => { E with top := E.top ++ new }
  | b :: bs => { E with inner := (b ++ new) :: bs }

/-- Go's rule for `x, y := …`: at least one variable is new, and the others have the type of what is assigned. -/
def mayDefine (args : List Var) (E : Env) (xs : List Var) : Bool :=
  (xs.any fun v => decide (v.name ∉ ownHere E) && (argHere args E v.name).isNone) &&
  xs.all fun v => decide (v.name ∈ ownHere E) ||
    match argHere args E v.name with
    | some a => decide (a.ty = v.ty)
    | none => true

/-- What is handed on in place of argument `i`: whatever the argument's name refers to, if that has the argument's type.
`_` cannot be read, and an argument without a name cannot be named. -/
def handOn (args : List Var) (E : Env) (i : Nat) : Option Bind :=
  match args[i]? with
  | none => none
  | some a =>
    if a.name = "_" ∨ a.name = "" then none
    else
      match resolve args E a.name with
      | some (b, ty) => if ty = a.ty then some b else none
      | none => none

/-- The Go compiler's verdict on a method body: `none` if it is refused (or a name of the template's is captured by an
argument), and otherwise what is handed on for each argument, each time one is. -/
def run (args : List Var) : Env → List Tok → Option (List (Nat × Bind))
  | _, [] => some []
  | E, .use x :: r =>
    match resolve args E x with
    | some (.own, _) => run args E r
    | _ => none
  | E, .outer x :: r => if (resolve args E x).isNone then run args E r else none
  | E, .define xs :: r => if mayDefine args E xs then run args (declare E xs) r else none
  | E, .var x :: r =>
    if x.name ∈ ownHere E ∨ (argHere args E x.name).isSome then none else run args (declare E [x]) r
  | E, .opn :: r => run args { E with inner := [] :: E.inner } r
  | E, .cls :: r =>
    match E.inner with
    | [] => none
    | _ :: bs => run args { E with inner := bs } r
  | E, .pass is :: r =>
    match is.mapM fun i => (handOn args E i).map fun b => (i, b) with
    | none => none
    | some l => (run args E r).map (l ++ ·)
  | E, .arg i :: r =>
    match args[i]? with
    | none => none
    | some a =>
      if a.name ∈ ownHere E ∨ (argHere args E a.name).isSome ∨ i ≠ E.k ∨ E.inner ≠ [] then none
      else run args { E with k := i + 1 } r

/-- A generated method.  `params`: the receiver, the parameters besides the arguments, and the named results, which are
all in the function's own block; `takesArgs`: the arguments are parameters. -/
structure Method where
  params : List Var
  takesArgs : Bool
  body : List Tok

/-- The Go compiler's verdict on a generated method. -/
def compile (m : Method) (args : List Var) : Option (List (Nat × Bind)) :=
  if m.takesArgs then
    if (names m.params ++ names args).Nodup then run args ⟨[], m.params, args.length⟩ m.body else none
  else if (names m.params).Nodup then run args ⟨[], m.params, 0⟩ m.body else none

/-! ### The templates -/

/-- `ret<i>` (plugins/golang/gogen/template.go lines 159, 171, 202). -/
def ret (i : Nat) : Name := "ret" ++ toString i

/-- `RetVars` (template.go lines 155-164). -/
def retVars (n : Nat) : List Name := (List.range n).map ret

/-- The named results `ret0 T0, …` (`RetVarsAndTypes`, template.go lines 191-207), of the given types. -/
def results (rets : List String) : List Var := rets.zipIdx.map fun p => ⟨ret p.2, p.1⟩

/-- A use of every `ret<i>` (also as the target of an assignment). -/
def useRets (rets : List String) : List Tok := (retVars rets.length).map .use

/-- `ArgVars` (template.go lines 104-137): all arguments. -/
def passAll (args : List Var) : Tok := .pass (List.range args.length)

/-- Types of results and of arguments are given by Go's name for them, and the identifiers in that name (the package it
is qualified with, or a predeclared type). -/
structure Sig where
  args : List Var
  /-- The identifiers in the types of the arguments. -/
  argIds : List (List Name)
  rets : List String
  /-- The identifiers in the types of the results. -/
  retIds : List (List Name)
  service : Name
  name : Name

/-- The wrappers that have the service's own signature, `Name(ctx context.Context, args…) (ret0 T0, …, err error)`. -/
def wrapper (receiver : Name) (s : Sig) (body : List Tok) : Method where
  params := ⟨receiver, "receiver"⟩ :: ⟨"ctx", "context.Context"⟩ :: (results s.rets ++ [⟨"err", "error"⟩])
  takesArgs := true
  body := body

/-- plugins/retries/codegen.go lines 162-171. -/
def retries (s : Sig) : Method := wrapper "client" s <|
  [.opn, .define [⟨"i", "int"⟩], .use "i", .use "client",
    .opn, .use "ctx", .outer "context", .use "i"] ++
    useRets s.rets ++ [.use "err", .use "client", .use "ctx", passAll s.args, .use "err", .outer "nil", .cls, .cls]

/-- plugins/retries/codegen.go lines 202-212. -/
def retriesFixedDelay (s : Sig) : Method := wrapper "client" s <|
  [.opn, .define [⟨"i", "int"⟩], .use "i", .use "client",
    .opn, .use "ctx", .outer "context", .use "i"] ++
    useRets s.rets ++ [.use "err", .use "client", .use "ctx", passAll s.args, .use "err", .outer "nil",
    .outer "time", .use "client", .cls, .cls]

/-- plugins/retries/codegen.go lines 261-301.  `return ret0, …, ctx.Err()` is in the block of the `case`. -/
def retriesBackoff (s : Sig) : Method := wrapper "client" s <|
  [.use "client", .define [⟨"delay", "time.Duration"⟩], .define [⟨"i", "int"⟩],
    .opn, .use "ctx", .outer "context", .use "i"] ++
    useRets s.rets ++ [.use "err", .use "client", .use "ctx", passAll s.args, .use "err", .outer "nil",
    .use "delay", .use "client", .define [⟨"sleepDuration", "time.Duration"⟩],
    .opn, .outer "time", .use "sleepDuration", .use "ctx"] ++ useRets s.rets ++ [.use "ctx", .cls,
    .use "delay", .use "client", .use "i", .cls]

/-- plugins/retries/codegen.go lines 370-395. -/
def retriesRateLimit (s : Sig) : Method := wrapper "client" s <|
  [.use "ctx", .outer "context"] ++ useRets s.rets ++
  [.use "err", .use "client", .use "ctx", passAll s.args, .use "err", .outer "nil",
    .opn, .define [⟨"i", "int"⟩], .use "i", .use "client",
    .opn, .use "ctx", .outer "context", .use "i", .use "client", .define [⟨"waitErr", "error"⟩], .use "waitErr", .outer "nil",
    .opn] ++ useRets s.rets ++
  [.use "err", .use "client", .use "ctx", passAll s.args, .use "err", .outer "nil", .cls,
    .opn, .use "err", .use "waitErr", .cls, .cls, .cls]

/-- plugins/retries/codegen.go lines 420-440. -/
def retriesTokenBucket (s : Sig) : Method := wrapper "client" s <|
  [.use "ctx", .outer "context"] ++ useRets s.rets ++
  [.use "err", .use "client", .use "ctx", passAll s.args, .use "err", .outer "nil",
    .opn, .use "client", .define [⟨"tb", "float64"⟩], .use "tb",
    .opn, .use "client", .use "tb", .use "ctx", .outer "context"] ++ useRets s.rets ++
  [.use "err", .use "client", .use "ctx", passAll s.args, .use "err", .outer "nil",
    .opn, .use "client", .outer "math", .cls, .cls, .cls]

/-- plugins/timeouts/codegen.go lines 65-83. -/
def timeouts (s : Sig) : Method := wrapper "client" s <|
  [.outer "context", .use "ctx", .outer "time", .use "client",
    .define [⟨"ctx", "context.Context"⟩, ⟨"cancel", "context.CancelFunc"⟩], .use "cancel",
    .outer "make", .outer "bool", .define [⟨"is_complete", "chan bool"⟩],
    .opn] ++ useRets s.rets ++ [.use "err", .use "client", .use "ctx", passAll s.args, .use "is_complete", .outer "true", .cls,
    .opn, .use "ctx", .use "err", .outer "errors", .use "is_complete", .cls]

/-- plugins/circuitbreaker/codegen.go lines 83-90. -/
def circuitBreaker (s : Sig) : Method := wrapper "client" s
  [.use "client", .opn, .use "err", .outer "circuitbreaker", .cls,
    .opn, .use "err", .use "client", .use "ctx", .cls, .use "client", .use "ctx", passAll s.args]

/-- plugins/latency/codegen.go lines 65-68. -/
def latency (s : Sig) : Method := wrapper "server" s [.outer "time", .use "server", .use "server", .use "ctx", passAll s.args]

/-- plugins/faultinjector/delay/codegen.go lines 74-78.  The results have no names. -/
def delay (s : Sig) : Method where
  params := [⟨"handler", "receiver"⟩, ⟨"ctx", "context.Context"⟩]
  takesArgs := true
  body := [.outer "time", .outer "rand", .use "handler", .define [⟨"val", "time.Duration"⟩], .outer "time", .use "val",
    .use "handler", .use "ctx", passAll s.args]

/-- plugins/faultinjector/probabilistic/codegen.go lines 74-81. -/
def probabilistic (s : Sig) : Method := wrapper "handler" s
  [.outer "int", .outer "rand", .define [⟨"val", "int"⟩], .use "val", .use "handler",
    .opn, .use "err", .outer "errors", .cls, .use "handler", .use "ctx", passAll s.args]

/-- plugins/loadbalancer/codegen.go lines 76-84.  The type of `client` is the service's. -/
def loadBalancer (s : Sig) : Method := wrapper "balancer" s
  [.outer s.service, .var ⟨"client", s.service⟩, .use "client", .use "err", .use "balancer", .use "err", .outer "nil",
    .use "client", .use "ctx", passAll s.args]

/-- plugins/clientpool/ir.go lines 213-220. -/
def clientPool (s : Sig) : Method := wrapper "pool" s
  [.use "pool", .use "ctx", .define [⟨"client", s.service⟩, ⟨"err", "error"⟩], .use "err", .outer "nil",
    .use "pool", .use "client", .use "client", .use "ctx", passAll s.args]

/-- plugins/healthchecker/codegen.go lines 88-90. -/
def healthChecker (s : Sig) : Method where
  params := [⟨"handler", "receiver"⟩, ⟨"ctx", "context.Context"⟩]
  takesArgs := true
  body := [.use "handler", .use "ctx", passAll s.args]

/-- plugins/opentelemetry/ir_ot_server.go lines 248-264.  The method has one more parameter. -/
def otServer (s : Sig) : Method where
  params := ⟨"handler", "receiver"⟩ :: ⟨"ctx", "context.Context"⟩ :: ⟨"traceCtx", "string"⟩ :: (results s.rets ++ [⟨"err", "error"⟩])
  takesArgs := true
  body := [.use "traceCtx", .opn, .outer "backend", .use "traceCtx", .define [⟨"span_ctx_config", "trace.SpanContextConfig"⟩],
      .outer "trace", .use "span_ctx_config", .define [⟨"span_ctx", "trace.SpanContext"⟩], .use "ctx", .outer "trace", .use "span_ctx",
      .cls, .use "handler", .use "ctx", .define [⟨"tp", "trace.TracerProvider"⟩], .use "tp", .define [⟨"tr", "trace.Tracer"⟩],
      .use "tr", .use "ctx", .define [⟨"ctx", "context.Context"⟩, ⟨"span", "trace.Span"⟩], .use "span"] ++
    useRets s.rets ++ [.use "err", .use "handler", .use "ctx", passAll s.args, .use "err", .outer "nil",
      .opn, .use "span", .use "err", .cls]

/-- plugins/opentelemetry/ir_ot_client.go lines 199-214.  `spans`: client-side spans are generated. -/
def otClient (spans : Bool) (s : Sig) : Method := wrapper "handler" s <|
  [.outer "trace", .use "ctx", .define [⟨"span", "trace.Span"⟩]] ++
  (if spans then [.use "handler", .use "ctx", .define [⟨"tp", "trace.TracerProvider"⟩], .use "tp", .define [⟨"tr", "trace.Tracer"⟩],
    .use "ctx", .use "span", .use "tr"] else []) ++
  [.use "span", .define [⟨"trace_ctx", "[]byte"⟩]] ++ useRets s.rets ++
  [.use "err", .use "handler", .use "ctx", passAll s.args, .outer "string", .use "trace_ctx", .use "err", .outer "nil",
    .opn, .use "span", .use "err", .cls]

/-- plugins/xtrace/ir_xtrace_server_wrapper.go lines 223-243.  One more parameter and one more result. -/
def xtServer (s : Sig) : Method where
  params := ⟨"handler", "receiver"⟩ :: ⟨"ctx", "context.Context"⟩ :: ⟨"baggage", "string"⟩ ::
    (results s.rets ++ [⟨"ret_baggage", "string"⟩, ⟨"err", "error"⟩])
  takesArgs := true
  body := [.use "baggage", .opn, .outer "tracingplane", .use "baggage", .define [⟨"remote_baggage", "tracingplane.BaggageContext"⟩],
      .use "ctx", .use "handler", .use "remote_baggage", .cls,
      .opn, .use "handler", .use "ctx", .define [⟨"res", "bool"⟩], .use "res", .opn, .use "ctx", .use "handler", .cls, .cls,
      .use "ctx", .use "handler"] ++
    useRets s.rets ++ [.use "err", .use "handler", .use "ctx", passAll s.args, .use "err", .outer "nil",
      .opn, .use "ctx", .use "handler", .use "err", .cls, .use "ctx", .use "handler",
      .define [⟨"ret_baggage_raw", "tracingplane.BaggageContext"⟩], .use "ret_baggage", .outer "tracingplane", .use "ret_baggage_raw"]

/-- plugins/xtrace/ir_xtrace_client_wrapper.go lines 195-209. -/
def xtClient (s : Sig) : Method := wrapper "handler" s <|
  [.use "ctx", .use "handler", .define [⟨"baggage_raw", "tracingplane.BaggageContext"⟩], .outer "tracingplane", .use "baggage_raw",
    .define [⟨"baggage", "string"⟩], .outer "string", .var ⟨"ret_baggage", "string"⟩] ++ useRets s.rets ++
  [.use "ret_baggage", .use "err", .use "handler", .use "ctx", passAll s.args, .use "baggage",
    .outer "tracingplane", .use "ret_baggage", .define [⟨"ret_baggage_raw", "tracingplane.BaggageContext"⟩],
    .use "ctx", .use "handler", .use "ret_baggage_raw", .use "err", .outer "nil",
    .opn, .use "ctx", .use "handler", .use "err", .cls, .use "ctx", .use "handler"]

/-- plugins/govector/ir_serverwrapper.go lines 208-213.  One more parameter and one more result. -/
def gvServer (s : Sig) : Method where
  params := ⟨"handler", "receiver"⟩ :: ⟨"ctx", "context.Context"⟩ :: ⟨"govecctx", "[]byte"⟩ ::
    (results s.rets ++ [⟨"govecret", "[]byte"⟩, ⟨"err", "error"⟩])
  takesArgs := true
  body := [.use "handler", .use "ctx", .use "govecctx"] ++ useRets s.rets ++
    [.use "err", .use "handler", .use "ctx", passAll s.args, .use "govecret", .use "handler", .use "ctx"]

/-- plugins/govector/ir_clientwrapper.go lines 181-187. -/
def gvClient (s : Sig) : Method := wrapper "handler" s <|
  [.outer "byte", .var ⟨"govec_bytes", "[]byte"⟩, .var ⟨"govec_ret", "[]byte"⟩, .use "govec_bytes", .use "handler", .use "ctx"] ++
  useRets s.rets ++
  [.use "govec_ret", .use "err", .use "handler", .use "ctx", passAll s.args, .use "govec_bytes",
    .use "handler", .use "ctx", .use "govec_ret"]

/-- plugins/grpc/grpccodegen/clientgen.go lines 81-102. -/
def grpcClient (s : Sig) : Method := wrapper "client" s <|
  [.outer (s.service ++ "_" ++ s.name ++ "_Request"), .define [⟨"req", "*Request"⟩], .use "req", passAll s.args,
    .outer "context", .use "ctx", .use "client",
    .define [⟨"ctx", "context.Context"⟩, ⟨"cancel", "context.CancelFunc"⟩], .use "cancel",
    .use "client", .use "ctx", .use "req", .define [⟨"rsp", "*Response"⟩, ⟨"err", "error"⟩], .use "err", .outer "nil",
    .opn, .use "err", .use "ctx", .cls, .use "err", .outer "nil"] ++ useRets s.rets ++ [.use "rsp"]

/-- The results, as they are declared by `ret0, …, err := …`. -/
def newRets (rets : List String) : List Var := results rets ++ [⟨"err", "error"⟩]

/-- plugins/grpc/grpccodegen/servergen.go lines 92-104. -/
def grpcServer (s : Sig) : Method where
  params := [⟨"handler", "receiver"⟩, ⟨"ctx", "context.Context"⟩, ⟨"req", "*Request"⟩]
  takesArgs := false
  body := [.use "req"] ++ (List.range s.args.length).map .arg ++
    [.use "handler", .use "ctx", passAll s.args, .define (newRets s.rets), .use "err", .outer "nil",
      .opn, .outer "nil", .use "err", .cls, .outer (s.service ++ "_" ++ s.name ++ "_Response"), .define [⟨"rsp", "*Response"⟩],
      .use "rsp"] ++ useRets s.rets ++ [.use "rsp", .outer "nil"]

/-- plugins/thrift/thriftcodegen/clientgen.go lines 115-137.  `prefix` is the service's name in lower case. -/
def thriftClient (pkg : Name) (s : Sig) : Method := wrapper "client" s <|
  [.outer pkg, .define [⟨"req", "*Request"⟩], .outer ("marshall_" ++ s.service ++ "_" ++ s.name ++ "_req"), .use "req", passAll s.args,
    .outer "context", .use "ctx", .use "client",
    .define [⟨"ctx", "context.Context"⟩, ⟨"cancel", "context.CancelFunc"⟩], .use "cancel",
    .use "client", .use "ctx", .use "req", .define [⟨"rsp", "*Response"⟩, ⟨"err", "error"⟩], .use "err", .outer "nil",
    .opn, .use "err", .use "ctx", .cls, .use "err", .outer "nil", .use "rsp", .outer "nil",
    .opn, .use "err", .outer "errors", .cls] ++ useRets s.rets ++
  [.outer ("unmarshall_" ++ s.service ++ "_" ++ s.name ++ "_rsp"), .use "rsp"]

/-- plugins/thrift/thriftcodegen/servergen.go lines 109-118. -/
def thriftServer (pkg : Name) (s : Sig) : Method where
  params := [⟨"handler", "receiver"⟩, ⟨"ctx", "context.Context"⟩, ⟨"req", "*Request"⟩]
  takesArgs := false
  body := [.outer ("unmarshall_" ++ s.service ++ "_" ++ s.name ++ "_req"), .use "req"] ++ (List.range s.args.length).map .arg ++
    [.use "handler", .use "ctx", passAll s.args, .define (newRets s.rets), .use "err", .outer "nil",
      .opn, .outer "nil", .use "err", .cls, .outer pkg, .define [⟨"rsp", "*Response"⟩],
      .outer ("marshall_" ++ s.service ++ "_" ++ s.name ++ "_rsp"), .use "rsp"] ++ useRets s.rets ++ [.use "rsp", .outer "nil"]

/-- The part of the HTTP client's method for one argument (plugins/http/httpcodegen/clientgen.go lines 78-88). -/
def httpSend (i : Nat) (a : Var) : List Tok :=
  if a.ty = "string" then [.use "vals", .pass [i]]
  else [.outer "json", .pass [i], .define [⟨"bytes_" ++ a.name, "[]byte"⟩, ⟨"err", "error"⟩], .use "err", .outer "nil",
    .use "vals", .outer "string", .use ("bytes_" ++ a.name)]

/-- plugins/http/httpcodegen/clientgen.go lines 76-124. -/
def httpClient (s : Sig) : Method := wrapper "client" s <|
  [.outer "url", .define [⟨"vals", "url.Values"⟩]] ++ (s.args.zipIdx.flatMap fun p => httpSend p.2 p.1) ++
  [.outer "url", .use "client", .define [⟨"encoded_url", "*url.URL"⟩, ⟨"err", "error"⟩], .use "err", .outer "nil",
    .use "encoded_url", .use "vals", .use "client", .use "encoded_url", .define [⟨"resp", "*http.Response"⟩, ⟨"err", "error"⟩],
    .use "err", .outer "nil", .use "resp", .define [⟨"statusOk", "bool"⟩], .use "statusOk",
    .opn, .use "err", .outer "fmt", .use "resp", .cls] ++ s.retIds.flatten.map .outer ++
  [.define [⟨"response", "struct"⟩], .outer "io", .use "resp", .define [⟨"resp_bytes", "[]byte"⟩, ⟨"err", "error"⟩],
    .use "err", .outer "nil", .use "err", .outer "json", .use "resp_bytes", .use "response", .use "err", .outer "nil"] ++
  useRets s.rets ++ [.use "response"]

/-- The part of the HTTP server's method for one argument (plugins/http/httpcodegen/servergen.go lines 92-106). -/
def httpReceive (i : Nat) (a : Var) (ids : List Name) : List Tok :=
  if a.ty = "string" then [.use "r", .arg i]
  else [.use "r", .define [⟨"request_" ++ a.name, "string"⟩]] ++ ids.map .outer ++ [.arg i, .use ("request_" ++ a.name),
    .opn, .use "err", .outer "json", .outer "byte", .use ("request_" ++ a.name), .pass [i], .use "err", .outer "nil",
    .opn, .outer "http", .use "w", .use "err", .cls, .cls]

/-- plugins/http/httpcodegen/servergen.go lines 88-125. -/
def httpServer (s : Sig) : Method where
  params := [⟨"handler", "receiver"⟩, ⟨"w", "http.ResponseWriter"⟩, ⟨"r", "*http.Request"⟩]
  takesArgs := false
  body := [.outer "error", .var ⟨"err", "error"⟩, .use "r"] ++
    (s.args.zipIdx.flatMap fun p => httpReceive p.2 p.1 (s.argIds[p.2]?.getD [])) ++
    [.outer "context", .define [⟨"ctx", "context.Context"⟩], .use "handler", .use "ctx", passAll s.args] ++
    (if s.rets.length = 0 then [.use "err"] else [.define (newRets s.rets)]) ++
    [.use "err", .outer "nil", .opn, .outer "http", .use "w", .use "err", .cls] ++ s.retIds.flatten.map .outer ++
    [.define [⟨"response", "struct"⟩], .use "response"] ++ useRets s.rets ++ [.outer "json", .use "w", .use "response"]

/-- The method templates. -/
inductive Plugin where
  | retries | retriesFixedDelay | retriesBackoff | retriesRateLimit | retriesTokenBucket | timeouts | circuitBreaker
  | latency | delay | probabilistic | loadBalancer | clientPool | healthChecker | otServer | otClient (spans : Bool)
  | xtServer | xtClient | gvServer | gvClient | grpcClient | grpcServer
  | thriftClient (pkg : Name) | thriftServer (pkg : Name) | httpClient | httpServer

def method (s : Sig) : Plugin → Method
  | .retries => retries s
  | .retriesFixedDelay => retriesFixedDelay s
  | .retriesBackoff => retriesBackoff s
  | .retriesRateLimit => retriesRateLimit s
  | .retriesTokenBucket => retriesTokenBucket s
  | .timeouts => timeouts s
  | .circuitBreaker => circuitBreaker s
  | .latency => latency s
  | .delay => delay s
  | .probabilistic => probabilistic s
  | .loadBalancer => loadBalancer s
  | .clientPool => clientPool s
  | .healthChecker => healthChecker s
  | .otServer => otServer s
  | .otClient spans => otClient spans s
  | .xtServer => xtServer s
  | .xtClient => xtClient s
  | .gvServer => gvServer s
  | .gvClient => gvClient s
  | .grpcClient => grpcClient s
  | .grpcServer => grpcServer s
  | .thriftClient pkg => thriftClient pkg s
  | .thriftServer pkg => thriftServer pkg s
  | .httpClient => httpClient s
  | .httpServer => httpServer s

end Verif.Scope
