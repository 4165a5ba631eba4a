import Verif.ModGen.Model
/-!
# What users expect of generated modules
-/

namespace Verif.ModGen

/-- Plugins whose parameters are part of the generated code. -/
def InCode (k : Kind) : Prop :=
  k ∈ [Kind.retrier, .retrierFixedDelay, .retrierExpBackoff, .retrierRateLimiter, .retrierTokenBucket,
    .circuitBreaker, .clientPool, .otClient]

/-- Plugins whose parameters are arguments of the constructor. -/
def InCall (k : Kind) : Prop := k ∈ [Kind.timeout, .latency, .delay, .probabilistic]

/-- Node `n` runs with its own parameters: the file it uses holds exactly the code generated for its interface, that
code defines the constructor which is called for `n`, and the parameters of `n` are in that code or in that call. -/
def RunsAsConfigured (T : Templates) (m : Module) (n : Node) : Prop :=
  (InCode n.kind → m.files (path n) = some (T.code n.kind n.iface (calledCtor n) n.param)) ∧
  (¬ InCode n.kind → m.files (path n) = some (T.code n.kind n.iface (calledCtor n) [])) ∧
  (InCall n.kind → passed n = [n.param])

/-- gRPC and Thrift clients share a key. -/
def KeyMates (j k : Kind) : Prop := (j = .grpcClient ∧ k = .thriftClient) ∨ (j = .thriftClient ∧ k = .grpcClient)

/-- Nodes that do not get into each other's way: different plugins, or interfaces with different names, or the same
interface with the same parameters. -/
def Apart (m n : Node) : Prop :=
  m.name = n.name ∧ m = n ∨
  m.name ≠ n.name ∧
    (m.iface.base ≠ n.iface.base ∧ m.iface.name ≠ n.iface.name ∨
     m.kind ≠ n.kind ∧ ¬ KeyMates m.kind n.kind ∨
     m.kind = n.kind ∧ m.iface = n.iface ∧ (InCode n.kind → m.param = n.param))

end Verif.ModGen
