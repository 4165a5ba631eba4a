import Verif.Wiring.NsModel
/-
Model of the loggers and metric collectors of processes: how wiring specs choose them (plugins/goproc/wiring.go, the Logger functions of
plugins/opentelemetry/wiring.go, plugins/xtrace/wiring.go and plugins/govector/wiring.go), when they are built at compile time, and what
log statements and meters do in the running process (runtime/core/backend/log.go and metric.go, runtime/plugins/slogger/log.go,
runtime/plugins/opentelemetry/log.go, runtime/plugins/xtrace/log.go, runtime/plugins/govector/log.go).

Wiring specs and compile time namespaces are those of `Wiring/Model.lean` and `Wiring/NsModel.lean`.
-/
namespace Verif.Logs
open Verif.Wiring (Name Spec Op PropResult)
open Verif.Wiring.Ns (Prog)

/-! ### The wiring spec -/

/-- Node types, as far as they matter here. -/
inductive Ty where
  | process
  | golang
  | other
deriving DecidableEq

/-- Which build function a definition has. -/
inductive Fn where
  /-- plugins/goproc/wiring.go lines 120-146 -/
  | process (p : Name)
  /-- a node without arguments, such as plugins/goproc/wiring.go lines 199-203 and 210-212, plugins/opentelemetry/wiring.go lines 141-143 and
  plugins/govector/wiring.go lines 114-116 -/
  | plain (n : Name)
  /-- plugins/xtrace/wiring.go lines 179-186 -/
  | xtrace
  | other (i : Nat)
deriving DecidableEq

/-- Values of properties; `stack` are call sites. -/
inductive Val where
  | str (s : Name)
  | stack
deriving DecidableEq

abbrev WOp := Op Ty Fn Val
abbrev WSpec := Spec Ty Fn Val

/-- Calls of a wiring spec that concern processes, loggers and metric collectors; `other` is any other call on the wiring spec. -/
inductive Call where
  | createProcess (p : Name) (children : List Name)
  | setLogger (p n : Name)
  | setMetricCollector (p n : Name)
  | setFrequency (p f : Name)
  | otLogger (p : Name)
  | xtLogger (p : Name)
  | vecLogger (p : Name)
  | other (o : WOp)

/-- plugins/goproc/wiring.go lines 197-205 and 208-214: the names of the default collector and logger. -/
def stdoutMetric (p : Name) : Name := p ++ ".stdoutmetriccollector"
def stdoutLogger (p : Name) : Name := p ++ ".logger"

/-- What the calls do to the wiring spec: plugins/goproc/wiring.go lines 104-149 (CreateProcess), 176-178 (SetMetricCollector), 184-186
(SetLogger), 192-194 (SetMetricPrintFrequency); plugins/opentelemetry/wiring.go lines 139-146; plugins/xtrace/wiring.go lines 175-189;
plugins/govector/wiring.go lines 112-119.  Simplifications: the children are not pointers
(blueprint/pkg/coreplugins/namespaceutil/namespace.go lines 46-51; for pointers AddNodeTo makes further calls, which are `other`), and the
calls of xtrace's `container` are `other` too. -/
def expand : Call → List WOp
  | .createProcess p children =>
    children.map (fun c => .addProperty p "Children" (.str c)) ++
    [.define (stdoutMetric p) .golang (.plain (stdoutMetric p)) .stack, .setProperty p "metricCollector" (.str (stdoutMetric p)),
     .define (stdoutLogger p) .golang (.plain (stdoutLogger p)) .stack, .setProperty p "logger" (.str (stdoutLogger p)),
     .define p .process (.process p) .stack]
  | .setLogger p n => [.setProperty p "logger" (.str n)]
  | .setMetricCollector p n => [.setProperty p "metricCollector" (.str n)]
  | .setFrequency p f => [.setProperty p "metricPrintFrequency" (.str f)]
  | .otLogger p =>
    [.define (p ++ "_ottrace_logger") .golang (.plain (p ++ "_ottrace_logger")) .stack, .setProperty p "logger" (.str (p ++ "_ottrace_logger"))]
  | .xtLogger p => [.define "xtrace_logger" .golang .xtrace .stack, .setProperty p "logger" (.str "xtrace_logger")]
  | .vecLogger p =>
    [.define (p ++ ".goveclogger") .golang (.plain (p ++ ".goveclogger")) .stack, .setProperty p "logger" (.str (p ++ ".goveclogger"))]
  | .other o => [o]

/-- The wiring spec after the calls. -/
def specOf (calls : List Call) : WSpec := Spec.run (calls.flatMap expand)

/-- plugins/goproc/wiring.go lines 121-130: the value of a property that is a string; blueprint/pkg/wiring/wiring.go lines 111-118 leave the
zero value if there is not exactly one. -/
def stringProp (s : WSpec) (p key : Name) : Name :=
  match s.getProperty p key with
  | .value (.str n) => n
  | _ => ""

/-! ### Compilation -/

/-- plugins/goproc/wiring.go lines 222-225. -/
def acceptsGolang : Ty → Bool
  | .golang => true
  | _ => false

/-- blueprint/pkg/coreplugins/namespaceutil/namespace.go lines 120-138: get all children in the namespace. -/
def getChildren (c : Nat) (done : Verif.Wiring.Ns.Node) : List Name → Prog Ty
  | [] => .ret done
  | n :: ns => .get c true n fun r =>
    match r with
    | none => .fail
    | some _ => getChildren c done ns

/-- The build function of a process (plugins/goproc/wiring.go lines 120-146 with InstantiateNamespace,
blueprint/pkg/coreplugins/namespaceutil/namespace.go lines 103-115), if the properties of the process are these. -/
def processFn (p metric logger : Name) (children : List Name) (ns : Nat) : Prog Ty :=
  .new p false fun proc =>
  .derive ns p acceptsGolang fun r =>
  match r with
  | none => .fail
  | some c =>
    .defer c true (getChildren c proc children) <|
    .get c true metric fun r =>
    match r with
    | none => .fail
    | some _ =>
      .get c true logger fun r =>
      match r with
      | none => .fail
      | some _ => .ret proc

/-- A build function that makes a node without arguments (plugins/goproc/wiring.go lines 199-203 and 210-212,
plugins/opentelemetry/wiring.go lines 141-143, plugins/govector/wiring.go lines 114-116). -/
def plainFn (n : Name) (_ns : Nat) : Prog Ty := .new n false fun node => .ret node

/-- blueprint/pkg/coreplugins/namespaceutil/namespace.go lines 121-125: the children of a process. -/
def childrenOf (s : WSpec) (p : Name) : List Name :=
  ((s.getProperties p "Children").getD []).filterMap fun v => match v with
    | .str c => some c
    | .stack => none

/-- The build functions of definitions; `other` are those of other plugins, and X-Trace's logger
(plugins/xtrace/wiring.go lines 179-186) has number 0.  The properties of a process are read when it is built
(plugins/goproc/wiring.go lines 121-130). -/
def fnOf (s : WSpec) (other : Nat → Nat → Prog Ty) : Fn → Nat → Prog Ty
  | .process p => processFn p (stringProp s p "metricCollector") (stringProp s p "logger") (childrenOf s p)
  | .plain n => plainFn n
  | .xtrace => other 0
  | .other i => other i

/-- The wiring spec as namespaces see it (blueprint/pkg/wiring/wiring.go lines 194-197).  Simplification: no aliases, and the node type of a
definition that was only given properties is `other`. -/
def lookOf (s : WSpec) (other : Nat → Nat → Prog Ty) : Verif.Wiring.Ns.Lookup Ty := fun n =>
  (s.defs.get n).map fun d => (n, ⟨d.nodeType.getD .other, false, d.build.map (fnOf s other)⟩)

/-- The names of the nodes of a namespace, in the order in which its handler was given them (plugins/goproc/wiring.go lines 234-237). -/
def nodesOf (c : Nat) (log : List Verif.Wiring.Ns.Event) : List Name :=
  log.filterMap fun e => match e with
    | .addNode m _ n => if m = c then some n.name else none
    | _ => none

/-! ### Log statements -/

/-- runtime/core/backend/log.go lines 9-16. -/
inductive Prio where
  | debug
  | info
  | warn
  | error
deriving DecidableEq, Repr

/-- runtime/core/backend/log.go lines 11-16: the numbers of priorities. -/
def Prio.num : Prio → Nat
  | .debug => 0
  | .info => 1
  | .warn => 2
  | .error => 3

/-- runtime/core/backend/log.go lines 19-21. -/
def Prio.string : Prio → String
  | .debug => "DEBUG"
  | .info => "INFO"
  | .warn => "WARN"
  | .error => "ERROR"

/-- The loggers: the one that every process begins with (runtime/core/backend/log.go lines 45-75) and those of the plugins. -/
inductive Logger where
  | errorOut
  | stdout
  | ot
  | xtrace
  | govec
deriving DecidableEq, Repr

/-- The methods of `backend.Logger` (runtime/core/backend/log.go lines 28-40); the others than Logf have their priority in their name. -/
inductive Method where
  | debug
  | info
  | warn
  | error
  | logf (p : Prio)
deriving DecidableEq, Repr

/-- What loggers look at in a context: whether there is a span that is recorded, and whether there is an X-Trace task. -/
structure Ctx where
  span : Bool
  task : Bool
deriving DecidableEq, Repr

/-- What log statements leave behind. -/
inductive Out where
  /-- a line on the console, with slog's level -/
  | line (level : Int) (msg : String)
  /-- an event of the current span, with the attribute Priority -/
  | event (priority : String) (msg : String)
  /-- a report of the X-Trace task, and its tags -/
  | report (msg : String) (tags : List String)
  /-- a local event of GoVector, with GoVector's priority -/
  | local_ (priority : Nat) (msg : String)
deriving DecidableEq, Repr

/-- slog's default handler writes records of level Info (0) and above (golang.org/x/exp/slog, not part of the repository; called in
runtime/plugins/slogger/log.go lines 15-43). -/
def slogWrite (level : Int) (msg : String) : List Out := if level < 0 then [] else [.line level msg]

/-- runtime/plugins/slogger/log.go lines 15-43; slog's levels are -4, 0, 4 and 8. -/
def slogger (m : Method) (msg : String) : List Out :=
  match m with
  | .debug => slogWrite (-4) msg
  | .info => slogWrite 0 msg
  | .warn => slogWrite 4 msg
  | .error => slogWrite 8 msg
  | .logf p => slogWrite p.num msg

/-- runtime/plugins/opentelemetry/log.go lines 28-79; without a span that is recorded AddEvent does nothing. -/
def otLog (c : Ctx) (m : Method) (msg : String) : List Out :=
  if !c.span then [] else
  match m with
  | .debug => [.event Prio.debug.string msg]
  | .info => [.event Prio.info.string msg]
  | .warn => [.event Prio.warn.string msg]
  | .error => [.event Prio.error.string msg]
  | .logf p => [.event p.string msg]

/-- runtime/plugins/xtrace/log.go lines 43-86. -/
def xtLog (c : Ctx) (m : Method) (msg : String) : List Out :=
  if !c.task then [] else
  match m with
  | .info => [.report ("INFO: " ++ msg) []]
  | .debug => [.report ("DEBUG: " ++ msg) []]
  | .warn => [.report ("WARN: " ++ msg) []]
  | .error => [.report ("ERROR: " ++ msg) ["Error"]]
  | .logf p => [.report (p.string ++ ": " ++ msg) []]

/-- runtime/plugins/govector/log.go lines 55-112; GoVector's priorities are DEBUG, INFO, WARNING, ERROR from 0 on.  Simplification: the log file
can be written. -/
def vecLog (m : Method) (msg : String) : List Out :=
  match m with
  | .debug => [.local_ 0 msg]
  | .info => [.local_ 1 msg]
  | .warn => [.local_ 2 msg]
  | .error => [.local_ 3 msg]
  | .logf p => [.local_ p.num msg]

/-- A log statement: `none` is `log.Fatal` (runtime/core/backend/log.go lines 47-75), which ends the process.  The message is the text that
fmt.Sprintf makes of format and arguments. -/
def Logger.log (l : Logger) (c : Ctx) (m : Method) (msg : String) : Option (List Out) :=
  match l with
  | .errorOut => none
  | .stdout => some (slogger m msg)
  | .ot => some (otLog c m msg)
  | .xtrace => some (xtLog c m msg)
  | .govec => some (vecLog m msg)

/-! ### The running process -/

/-- What constructors and methods do. -/
inductive Act where
  /-- `backend.GetLogger().Info(ctx, …)` and the like -/
  | log (c : Ctx) (m : Method) (msg : String)
  /-- `backend.Meter(ctx, …)`, with its error returned -/
  | meter
  /-- `backend.SetDefaultLogger` -/
  | setLogger (l : Logger)
  /-- `backend.SetDefaultMetricCollector` -/
  | setMetric
  /-- any error -/
  | fail
deriving DecidableEq

/-- A log statement that was executed. -/
abbrev Stmt := Ctx × Method × String

/-- A process: the nodes that are built, the two package variables (runtime/core/backend/log.go line 42, runtime/core/backend/metric.go line
17; `metric` tells whether there is another collector than errorMetricCollector), what was left behind, and, for specifications, all log
statements that were executed. -/
structure Proc where
  built : List Name
  logger : Logger
  metric : Bool
  out : List Out
  said : List Stmt

/-- runtime/core/backend/log.go lines 88-90, runtime/core/backend/metric.go lines 29-35. -/
def Proc.init : Proc := ⟨[], .errorOut, false, [], []⟩

inductive End where
  | ok
  | error
  /-- the process was ended by `log.Fatal` -/
  | fatal
deriving DecidableEq

/-- Statements one after the other, up to the first error: runtime/core/backend/log.go lines 79-86, runtime/core/backend/metric.go lines 39-41 and
51-57. -/
def runActs : List Act → Proc → Proc × End
  | [], s => (s, .ok)
  | .log c m msg :: as, s =>
    let s' := { s with said := s.said ++ [(c, m, msg)] }
    match s.logger.log c m msg with
    | none => (s', .fatal)
    | some o => runActs as { s' with out := s.out ++ o }
  | .meter :: as, s => if s.metric then runActs as s else (s, .error)
  | .setLogger l :: as, s => runActs as { s with logger := l }
  | .setMetric :: as, s => runActs as { s with metric := true }
  | .fail :: _, s => (s, .error)

/-- A generated build function: the nodes that it gets, and what the constructor does then (plugins/golang/gogen/namespacebuilder.go lines
141-201). -/
structure RNode where
  deps : List Name
  acts : List Act

/-- Get, for one node after the other (runtime/plugins/golang/namespace.go lines 231-237 and 372-418); `fuel` bounds the depth and the number of
the calls (outer `none`: not finished yet).  Nodes that are run (lines 400-410) do so beside all this; what they do is in `serve`. -/
def getAll (look : Name → Option RNode) : (fuel : Nat) → Proc → List Name → Option (Proc × End)
  | _, s, [] => some (s, .ok)
  | 0, _, _ :: _ => none
  | fuel + 1, s, n :: ns =>
    if n ∈ s.built then getAll look fuel s ns
    else
      match look n with
      | none => some (s, .error)
      | some r =>
        match getAll look fuel s r.deps with
        | some (s1, .ok) =>
          match runActs r.acts s1 with
          | (s2, .ok) => getAll look fuel { s2 with built := n :: s2.built } ns
          | x => some x
        | x => x

/-- The start of the process with these nodes (plugins/goproc/deploy.go lines 98-101: all nodes, in their order). -/
def start (look : Name → Option RNode) (fuel : Nat) (nodes : List Name) : Option (Proc × End) := getAll look fuel Proc.init nodes

/-- Requests that are served one after the other, whatever becomes of each, unless the process ends. -/
def serve : List (List Act) → Proc → Proc × End
  | [], s => (s, .ok)
  | r :: rs, s =>
    match runActs r s with
    | (s', .fatal) => (s', .fatal)
    | (s', _) => serve rs s'

/-- runtime/plugins/slogger/log.go lines 46-50, runtime/plugins/opentelemetry/log.go lines 21-25, runtime/plugins/govector/log.go lines 25-35:
a logger's constructor.  An X-Trace logger (runtime/plugins/xtrace/log.go lines 32-40) gets the address of its server, to which it
connects. -/
def loggerNode (l : Logger) (deps : List Name) : RNode := ⟨deps, [.setLogger l]⟩

/-- runtime/plugins/opentelemetry/metric.go lines 22-45; `ok` tells whether the print frequency can be parsed. -/
def metricNode (ok : Bool) : RNode := ⟨[], if ok then [.setMetric] else [.fail]⟩

end Verif.Logs
