/-!
# Code that plugins generate into a Go module

Each process gets one Go module. The plugins' wrapper nodes write Go files into it: `AddInterfaces` of every
node first, then `GenerateFuncs` of every node (`/repo/plugins/goproc/deploy.go` 63-79), then the code that calls
the constructors is written (`AddInstantiation`, 91-98).

This file models, for the plugins listed in `Kind`, which file each node writes, under which condition it is
skipped, what it overwrites, and which constructor call is generated for the node.
-/

namespace Verif.ModGen

abbrev Str := List Char

/-- A service interface of the wrapped service (`/repo/plugins/golang/gocode/service.go` 31-37): package, name, base
name and its methods (opaque here: any text). -/
structure Iface where
  pkg : Str
  name : Str
  base : Str
  methods : Str
  deriving DecidableEq

/-- The plugins' wrapper nodes. -/
inductive Kind where
  | retrier | retrierFixedDelay | retrierExpBackoff | retrierRateLimiter | retrierTokenBucket
  | circuitBreaker | timeout | latency | delay | probabilistic | clientPool
  | otClient | otServer | xtraceClient | xtraceServer | govecClient | govecServer | health
  | grpcClient | grpcServer | thriftClient | thriftServer | httpClient | httpServer
  deriving DecidableEq

/-- A wrapper node: instance name, plugin, the interface of what it wraps, and the parameters the user gave in
the wiring spec (number of retries, delay, failure rate, ...), written out as text. -/
structure Node where
  name : Str
  kind : Kind
  iface : Iface
  param : Str
  deriving DecidableEq

/-- The package of the module the plugin writes to (`outputPackage`): `/repo/plugins/retries/ir.go` 46 and 130, 217,
302, 388; `circuitbreaker/ir.go` 48; `timeouts/ir.go` 36; `latency/ir.go` 35; `faultinjector/delay/ir.go` 88;
`faultinjector/probabilistic/ir.go` 88; `clientpool/ir.go` 147; `opentelemetry/ir_ot_client.go` 33;
`xtrace/ir_xtrace_server_wrapper.go` 53; `govector/ir_serverwrapper.go` 46; `healthchecker/ir.go` 57;
`grpc/ir_grpc_client.go` 35; `thrift/ir_thrift_client.go` 34; `http/ir_http_client.go` 33. -/
def pkg : Kind → Str
  | .retrier | .retrierFixedDelay | .retrierExpBackoff | .retrierRateLimiter | .retrierTokenBucket => "retries".toList
  | .circuitBreaker => "cb".toList
  | .timeout => "timeouts".toList
  | .latency => "latencyinjector".toList
  | .delay => "delay".toList
  | .probabilistic => "prob_failure".toList
  | .clientPool => "pool".toList
  | .otClient | .otServer => "ot".toList
  | .xtraceClient | .xtraceServer => "xtrace".toList
  | .govecClient | .govecServer => "govec".toList
  | .health => "healthcheck".toList
  | .grpcClient | .grpcServer => "grpc".toList
  | .thriftClient | .thriftServer => "thrift".toList
  | .httpClient | .httpServer => "http".toList

/-- The generated file's name within the package, without `.go`: `/repo/plugins/retries/codegen.go` 118 (with the names
of 24, 44, 64, 84, 104); `circuitbreaker/codegen.go` 32; `timeouts/codegen.go` 29; `latency/codegen.go` 29;
`faultinjector/delay/codegen.go` 31 and `probabilistic/codegen.go` 31 (`iface.Name`, the interface of the node,
which is the wrapped one's, `ir.go` 40); `clientpool/ir.go` 150; the tracing wrappers and the health checker
`impl.Name` with the names given in `genInterface` (`ir_ot_client.go` 55, `ir_ot_server.go` 65,
`ir_xtrace_client_wrapper.go` 68, `ir_xtrace_server_wrapper.go` 68, `ir_clientwrapper.go` 61,
`ir_serverwrapper.go` 61, `healthchecker/ir.go` 71); `grpccodegen/clientgen.go` 34, `servergen.go` 37;
`thriftcodegen/clientgen.go` 42, `servergen.go` 38-39; `httpcodegen/clientgen.go` 32, `servergen.go` 32. -/
def fileName : Kind → Iface → Str
  | .retrier, i => i.base ++ "_RetrierClient".toList
  | .retrierFixedDelay, i => i.base ++ "_RetrierFixedDelayClient".toList
  | .retrierExpBackoff, i => i.base ++ "_RetrierExpBackoffClient".toList
  | .retrierRateLimiter, i => i.base ++ "_RetrierRateLimiterClient".toList
  | .retrierTokenBucket, i => i.base ++ "_RetrierTokenBucketClient".toList
  | .circuitBreaker, i => i.base ++ "_CircuitBreakerClient".toList
  | .timeout, i => i.base ++ "_TimeoutClient".toList
  | .latency, i => i.base ++ "_LatencyInjector".toList
  | .delay, i => i.name
  | .probabilistic, i => i.name
  | .clientPool, i => i.base ++ "_pool".toList
  | .otClient, i => i.base ++ "_OTClientWrapperInterface".toList
  | .otServer, i => i.base ++ "_OTServerWrapperInterface".toList
  | .xtraceClient, i => i.base ++ "_XTraceClientWrapperInterface".toList
  | .xtraceServer, i => i.base ++ "_XTraceServerWrapperInterface".toList
  | .govecClient, i => i.base ++ "_GoVecClientWrapperInterface".toList
  | .govecServer, i => i.base ++ "_GoVecServerWrapperInterface".toList
  | .health, i => i.base ++ "_HealthChecker".toList
  | .grpcClient, i => i.base ++ "_GRPCClient".toList
  | .grpcServer, i => i.name ++ "_GRPCServer".toList
  | .thriftClient, i => i.base ++ "_ThriftClient".toList
  | .thriftServer, i => i.name ++ "_ThriftServer".toList
  | .httpClient, i => i.base ++ "_HTTPClient".toList
  | .httpServer, i => i.base ++ "_HTTPServer".toList

/-- The constructor the generated file defines, `New_{{.Name}}` with the `Name` of the template arguments: the files
of `fileName`, the lines `Name: ... .BaseName + "..."`; `clientpool/ir.go` 152 (`New_%v_Pool`). -/
def definedCtor : Kind → Iface → Str
  | .retrier, i => "New_".toList ++ i.base ++ "_RetrierClient".toList
  | .retrierFixedDelay, i => "New_".toList ++ i.base ++ "_RetrierFixedDelayClient".toList
  | .retrierExpBackoff, i => "New_".toList ++ i.base ++ "_RetrierExpBackoffClient".toList
  | .retrierRateLimiter, i => "New_".toList ++ i.base ++ "_RetrierRateLimiterClient".toList
  | .retrierTokenBucket, i => "New_".toList ++ i.base ++ "_RetrierTokenBucketClient".toList
  | .circuitBreaker, i => "New_".toList ++ i.base ++ "_CircuitBreakerClient".toList
  | .timeout, i => "New_".toList ++ i.base ++ "_TimeoutClient".toList
  | .latency, i => "New_".toList ++ i.base ++ "_LatencyInjector".toList
  | .delay, i => "New_".toList ++ i.base ++ "_RandomDelayHandler".toList
  | .probabilistic, i => "New_".toList ++ i.base ++ "_ProbabilisticFailureHandler".toList
  | .clientPool, i => "New_".toList ++ i.base ++ "_Pool".toList
  | .otClient, i => "New_".toList ++ i.base ++ "_OTClientWrapper".toList
  | .otServer, i => "New_".toList ++ i.base ++ "_OTServerWrapper".toList
  | .xtraceClient, i => "New_".toList ++ i.base ++ "_XTraceClientWrapper".toList
  | .xtraceServer, i => "New_".toList ++ i.base ++ "_XTraceServerWrapper".toList
  | .govecClient, i => "New_".toList ++ i.base ++ "_GoVecClientWrapper".toList
  | .govecServer, i => "New_".toList ++ i.base ++ "_GoVecServerWrapper".toList
  | .health, i => "New_".toList ++ i.base ++ "_HealthCheckHandler".toList
  | .grpcClient, i => "New_".toList ++ i.base ++ "_GRPCClient".toList
  | .grpcServer, i => "New_".toList ++ i.base ++ "_GRPCServerHandler".toList
  | .thriftClient, i => "New_".toList ++ i.base ++ "_ThriftClient".toList
  | .thriftServer, i => "New_".toList ++ i.base ++ "_ThriftServerHandler".toList
  | .httpClient, i => "New_".toList ++ i.base ++ "_HTTPClient".toList
  | .httpServer, i => "New_".toList ++ i.base ++ "_HTTPServerHandler".toList

/-- The constructor the generated instantiation code calls, `AddInstantiation` of each plugin (the lines
`Name: fmt.Sprintf("New_%v_...", iface.BaseName)`; `clientpool/ir.go` 185-187). -/
def calledCtor (n : Node) : Str :=
  "New_".toList ++ n.iface.base ++ (match n.kind with
  | .retrier => "_RetrierClient".toList
  | .retrierFixedDelay => "_RetrierFixedDelayClient".toList
  | .retrierExpBackoff => "_RetrierExpBackoffClient".toList
  | .retrierRateLimiter => "_RetrierRateLimiterClient".toList
  | .retrierTokenBucket => "_RetrierTokenBucketClient".toList
  | .circuitBreaker => "_CircuitBreakerClient".toList
  | .timeout => "_TimeoutClient".toList
  | .latency => "_LatencyInjector".toList
  | .delay => "_RandomDelayHandler".toList
  | .probabilistic => "_ProbabilisticFailureHandler".toList
  | .clientPool => "_Pool".toList
  | .otClient => "_OTClientWrapper".toList
  | .otServer => "_OTServerWrapper".toList
  | .xtraceClient => "_XTraceClientWrapper".toList
  | .xtraceServer => "_XTraceServerWrapper".toList
  | .govecClient => "_GoVecClientWrapper".toList
  | .govecServer => "_GoVecServerWrapper".toList
  | .health => "_HealthCheckHandler".toList
  | .grpcClient => "_GRPCClient".toList
  | .grpcServer => "_GRPCServerHandler".toList
  | .thriftClient => "_ThriftClient".toList
  | .thriftServer => "_ThriftServerHandler".toList
  | .httpClient => "_HTTPClient".toList
  | .httpServer => "_HTTPServerHandler".toList)

/-- The parameters written into the generated file: those of the retry wrappers, the circuit breaker, the client
pool (capacity and names) and the OpenTelemetry client wrapper (`GenSpans`). The other plugins' templates have no
parameters. Retries: `/repo/plugins/retries/codegen.go` 13-113; `circuitbreaker/codegen.go` 13-34;
`clientpool/ir.go` 137-163; `opentelemetry/ir_ot_client.go` 134-157. -/
def baked (n : Node) : Str :=
  match n.kind with
  | .retrier | .retrierFixedDelay | .retrierExpBackoff | .retrierRateLimiter | .retrierTokenBucket
  | .circuitBreaker | .clientPool | .otClient => n.param
  | _ => []

/-- The parameters given as arguments of the constructor call: `timeouts/ir.go` 104, `latency/ir.go` 103,
`faultinjector/delay/ir.go` 81, `faultinjector/probabilistic/ir.go` 81. -/
def passed (n : Node) : List Str :=
  match n.kind with
  | .timeout | .latency | .delay | .probabilistic => [n.param]
  | _ => []

/-- The key under which `GenerateFuncs` is done once, if any. By instance name: `retries/ir.go` 61 (146, 233, 318,
405), `circuitbreaker/ir.go` 65, `timeouts/ir.go` 69, `latency/ir.go` 68, `http/ir_http_client.go` 68. By interface:
`opentelemetry/ir_ot_client.go` 92, `ir_ot_server.go` 120, `clientpool/ir.go` 73, `grpc/ir_grpc_client.go` 78,
`grpc/ir_grpc_server.go` 71, `thrift/ir_thrift_client.go` 73 (which uses gRPC's key), `thrift/ir_thrift_server.go` 66.
None: delay, probabilistic, X-Trace, GoVector, health checker, HTTP server. -/
def key (n : Node) : Option Str :=
  match n.kind with
  | .retrier | .retrierFixedDelay | .retrierExpBackoff | .retrierRateLimiter | .retrierTokenBucket
  | .circuitBreaker | .timeout | .latency | .httpClient => some (n.name ++ ".generateFuncs".toList)
  | .otClient => some (n.iface.base ++ "_OTClientWrapperInterface".toList ++ ".ot_client_impl".toList)
  | .otServer => some (n.iface.base ++ "_OTServerWrapperInterface".toList ++ ".ot_server_impl".toList)
  | .clientPool => some (n.iface.name ++ "_ClientPool".toList)
  | .grpcClient => some (n.iface.name ++ ".grpc.client".toList)
  | .thriftClient => some (n.iface.name ++ ".grpc.client".toList)
  | .grpcServer => some (n.iface.name ++ ".grpc.server".toList)
  | .thriftServer => some (n.iface.name ++ ".thrift.server".toList)
  | .delay | .probabilistic | .xtraceClient | .xtraceServer | .govecClient | .govecServer | .health | .httpServer => none

/-- The plugins whose `AddInterfaces` writes a file of its own, and the key under which it is done once
(`opentelemetry/ir_ot_server.go` 82-99, `xtrace/ir_xtrace_server_wrapper.go` 129-141,
`govector/ir_serverwrapper.go` 113-125, `healthchecker/ir.go` 35-46). The others pass the call on to the node they
wrap. -/
def writesInterface : Kind → Bool
  | .otServer | .xtraceServer | .govecServer | .health => true
  | _ => false

def ifaceKey (n : Node) : Option Str :=
  match n.kind with
  | .otServer => some (n.iface.base ++ "_OTServerWrapperInterface".toList ++ ".ot_server_iface".toList)
  | _ => none

/-- The templates: the text of the generated file with interface, constructor and parameters, and the text of the file
with the interface only. Any functions; the file with the code is never shorter, since it contains the interface
(`govector/ir_serverwrapper.go` 178-227 against 228 and following, and so on). -/
structure Templates where
  code : Kind → Iface → Str → Str → Str
  iface : Kind → Iface → Str
  longer : ∀ k i c p, (iface k i).length ≤ (code k i c p).length

/-- A file of the module: package and file name. -/
abbrev Path := Str × Str

def path (n : Node) : Path := (pkg n.kind, fileName n.kind n.iface)

/-- The module builder: the keys seen so far (`ir.VisitTrackerImpl`, `/repo/blueprint/pkg/ir/builders.go`) and the
files on disk. -/
structure Module where
  visited : List Str
  files : Path → Option Str

def empty : Module := ⟨[], fun _ => none⟩

/-- `gogen.ExecuteTemplateToFile` (`/repo/plugins/golang/gogen/template.go` 47-60): the file is opened with
`O_CREATE|O_RDWR`, without `O_TRUNC`, and the text is written at its beginning, so what lies beyond the text stays. -/
def overwrite (old : Option Str) (text : Str) : Str := text ++ (old.getD []).drop text.length

def write (m : Module) (p : Path) (text : Str) : Module :=
  { m with files := fun q => if q = p then some (overwrite (m.files p) text) else m.files q }

/-- Run `f` unless the key was seen, and remember the key (`VisitTrackerImpl.Visited`). -/
def once (m : Module) (k : Option Str) (f : Module → Module) : Module :=
  match k with
  | none => f m
  | some k => if k ∈ m.visited then m else f { m with visited := k :: m.visited }

/-- `AddInterfaces` and `GenerateFuncs` calls on the module. -/
inductive Op where
  | addInterfaces (n : Node)
  | generateFuncs (n : Node)

/-- One call. See `key`, `fileName` for the lines. Errors of the file system are not modelled, nor are the files written
besides the wrapper's own (`.proto`, conversions, pool client). -/
def step (T : Templates) (m : Module) : Op → Module
  | .addInterfaces n =>
    if writesInterface n.kind then once m (ifaceKey n) fun m => write m (path n) (T.iface n.kind n.iface) else m
  | .generateFuncs n =>
    once m (key n) fun m => write m (path n) (T.code n.kind n.iface (definedCtor n.kind n.iface) (baked n))

def run (T : Templates) (m : Module) (ops : List Op) : Module := ops.foldl (step T) m

/-- `GenerateArtifacts` of a Go process (`/repo/plugins/goproc/deploy.go` 63-79): the interfaces of all nodes, then the
code of all nodes. `ifaces` is the sequence of nodes whose `AddInterfaces` runs, including calls that nodes pass on to
what they wrap, and also wrappers of services in other processes. -/
def generate (T : Templates) (ifaces nodes : List Node) : Module :=
  run T (run T empty (ifaces.map .addInterfaces)) (nodes.map .generateFuncs)

/-! ### Modules that are copied and required -/

/-- A Go module as found by the parser (`/repo/plugins/golang/goparser/parser.go`, `ParsedModule`): name and whether it
is local (to be copied) or from the network (to be required). -/
structure GoModule where
  name : Str
  isLocal : Bool
  deriving DecidableEq

/-- The workspace: names visited and modules copied. -/
structure Workspace where
  visited : List Str
  copied : List Str

/-- `AddToWorkspace` (`/repo/plugins/golang/helpers.go` 100-110, and in the same words
`/repo/plugins/workflow/workflowspec/service.go` 45-55): the loop returns after the first module it copies. -/
def addToWorkspace (w : Workspace) : List GoModule → Workspace
  | [] => w
  | m :: ms =>
    if m.isLocal then
      if m.name ∈ w.visited then addToWorkspace w ms
      else { visited := m.name :: w.visited, copied := m.name :: w.copied }
    else addToWorkspace w ms

/-- `AddToModule` (`/repo/plugins/golang/helpers.go` 85-96, `workflowspec/service.go` 32-43): requires every module that is
not local, once. -/
def addToModule (w : Workspace) : List GoModule → Workspace
  | [] => w
  | m :: ms =>
    if m.isLocal then addToModule w ms
    else if m.name ∈ w.visited then addToModule w ms
    else addToModule { visited := m.name :: w.visited, copied := m.name :: w.copied } ms

end Verif.ModGen
