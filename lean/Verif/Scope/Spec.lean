/-
What C97 asks for, and the names it depends on.
-/
import Verif.Scope.Model
namespace Verif.Scope

/-- The generated method compiles, and whenever it hands an argument on, it is that argument, and each is handed on. -/
def Faithful (p : Plugin) (s : Sig) : Prop :=
  ∃ l, compile (method s p) s.args = some l ∧ (∀ e ∈ l, e.2 = .arg e.1) ∧ ∀ i, i < s.args.length → (i, Bind.arg i) ∈ l

/-- The arguments' names are different from one another, are not blank, and avoid the given names. -/
def Avoid (s : Sig) (l : List Name) : Prop :=
  (s.args.map (·.name)).Nodup ∧ ∀ a ∈ s.args, a.name ≠ "_" ∧ a.name ≠ "" ∧ a.name ∉ l

/-- The names that a plugin's template uses for itself (besides `ret0`, `ret1`, …): no argument may have one. -/
def reserved (s : Sig) : Plugin → List Name
  | .retries => ["client", "ctx", "err", "i", "context", "nil"]
  | .retriesFixedDelay => ["client", "ctx", "err", "i", "context", "nil", "time"]
  | .retriesBackoff => ["client", "ctx", "err", "i", "delay", "context", "nil", "time"]
  | .retriesRateLimit => ["client", "ctx", "err", "i", "waitErr", "context", "nil"]
  | .retriesTokenBucket => ["client", "ctx", "err", "tb", "context", "nil", "math"]
  | .timeouts => ["client", "ctx", "err", "cancel", "is_complete", "context", "time", "make", "bool", "true", "errors"]
  | .circuitBreaker => ["client", "ctx", "err", "circuitbreaker"]
  | .latency => ["server", "ctx", "err", "time"]
  | .delay => ["handler", "ctx", "val", "time", "rand"]
  | .probabilistic => ["handler", "ctx", "err", "val", "int", "rand", "errors"]
  | .loadBalancer => ["balancer", "ctx", "err", "client", "nil", s.service]
  | .clientPool => ["pool", "ctx", "err", "client", "nil"]
  | .healthChecker => ["handler", "ctx"]
  | .otServer => ["handler", "ctx", "err", "traceCtx", "tp", "tr", "span", "backend", "trace", "nil"]
  | .otClient false => ["handler", "ctx", "err", "span", "trace_ctx", "trace", "string", "nil"]
  | .otClient true => ["handler", "ctx", "err", "span", "trace_ctx", "trace", "string", "nil", "tp", "tr"]
  | .xtServer => ["handler", "ctx", "err", "baggage", "ret_baggage", "ret_baggage_raw", "tracingplane", "nil"]
  | .xtClient => ["handler", "ctx", "err", "baggage", "baggage_raw", "ret_baggage", "ret_baggage_raw", "tracingplane", "string", "nil"]
  | .gvServer => ["handler", "ctx", "err", "govecctx", "govecret"]
  | .gvClient => ["handler", "ctx", "err", "govec_bytes", "govec_ret", "byte"]
  | .grpcClient => ["client", "ctx", "err", "req", "cancel", "rsp", "context", "nil", s.service ++ "_" ++ s.name ++ "_Request"]
  | .grpcServer => ["handler", "ctx", "req", "rsp", "nil", s.service ++ "_" ++ s.name ++ "_Response"]
  | .thriftClient pkg => ["client", "ctx", "err", "req", "cancel", "rsp", "context", "nil", "errors", pkg,
      "marshall_" ++ s.service ++ "_" ++ s.name ++ "_req", "unmarshall_" ++ s.service ++ "_" ++ s.name ++ "_rsp"]
  | .thriftServer pkg => ["handler", "ctx", "req", "rsp", "nil", pkg, "marshall_" ++ s.service ++ "_" ++ s.name ++ "_rsp"]
  | .httpClient => ["client", "ctx", "err", "vals", "encoded_url", "resp", "statusOk", "response", "resp_bytes", "url", "fmt", "io",
      "json", "nil"] ++ s.retIds.flatten
  | .httpServer => ["handler", "w", "r", "err", "ctx", "response", "context", "nil", "http", "json"] ++ s.retIds.flatten

/-- Names that do no harm, or only do harm depending on the types and the order of the arguments. -/
def doubtful (s : Sig) : Plugin → List Name
  | .grpcServer => ["err"]
  | .thriftServer _ => ["err", "unmarshall_" ++ s.service ++ "_" ++ s.name ++ "_req"]
  | .httpClient => ["string"] ++ s.args.map fun a => "bytes_" ++ a.name
  | .httpServer => ["error", "byte"] ++ s.argIds.flatten ++ s.args.map fun a => "request_" ++ a.name
  | _ => []

/-- Whether the results have names in the method's signature. -/
def named : Plugin → Bool
  | .delay | .healthChecker | .grpcServer | .thriftServer _ | .httpServer => false
  | _ => true

/-- Names that come from the service: types, packages and functions the method body mentions. -/
def foreign (s : Sig) : Plugin → List Name
  | .loadBalancer => [s.service]
  | .grpcClient => [s.service ++ "_" ++ s.name ++ "_Request"]
  | .grpcServer => [s.service ++ "_" ++ s.name ++ "_Response"]
  | .thriftClient pkg => [pkg]
  | .thriftServer pkg => [pkg]
  | .httpClient => s.retIds.flatten
  | .httpServer => s.retIds.flatten ++ s.argIds.flatten
  | _ => []

/-- The plugin's own variables, which those must not be called. -/
def variables (s : Sig) : Plugin → List Name
  | .loadBalancer => ["balancer", "ctx", "err"] ++ retVars s.rets.length
  | .grpcClient => ["client", "ctx", "err"] ++ retVars s.rets.length
  | .grpcServer => ["handler", "ctx", "req", "err"] ++ retVars s.rets.length
  | .thriftClient _ => ["client", "ctx", "err"] ++ retVars s.rets.length
  | .thriftServer _ => ["handler", "ctx", "req", "err"] ++ retVars s.rets.length
  | .httpClient => ["client", "ctx", "err", "vals", "encoded_url", "resp", "statusOk"] ++ retVars s.rets.length ++
      s.args.map fun a => "bytes_" ++ a.name
  | .httpServer => ["handler", "w", "r", "err", "ctx"] ++ retVars s.rets.length ++ s.args.map fun a => "request_" ++ a.name
  | _ => []

end Verif.Scope
