import Verif.Wiring.Model
/-
Model of the load balancer plugin: the definitions that CreateLoadBalancer puts into the wiring spec (plugins/loadbalancer/wiring.go), the nodes
that a process gets of them at compile time (blueprint/pkg/wiring/namespace.go), the code that is generated for the process
(plugins/loadbalancer/ir_balancer.go, plugins/goproc/deploy.go) and where calls go in it.  What the balancer does with calls that reach it is
in `Wrappers`.
-/
namespace Verif.Balance
open Verif.Wiring (Name)

/-- Kinds of nodes of a process, as far as calls are concerned. -/
inductive Kind where
  /-- dynamicLBHandler (plugins/loadbalancer/ir_balancer.go lines 42-49) -/
  | handler
  /-- dynamicLBClient (plugins/loadbalancer/ir_balancer.go lines 51-55), and workflowClient, which is alike -/
  | client
  /-- wrapper of a plugin, such as plugins/retries/ir.go lines 17-27 -/
  | wrap
  /-- client and server of an RPC plugin, such as plugins/grpc/ir_grpc_client.go and plugins/grpc/ir_grpc_server.go -/
  | rpcClient
  | rpcServer
  /-- any other node -/
  | service
deriving DecidableEq, Repr

/-- Definitions of the wiring spec: `same d` are aliases, pointers (blueprint/pkg/coreplugins/pointer/pointer.go lines 126-136) and checks of
visibility, whose node is another definition's; `node` makes a node with instance name `inst` that refers to the nodes of `refs`, which its build
function gets one after the other. -/
inductive Def where
  | same (d : Name)
  | node (kind : Kind) (inst : Name) (refs : List Name)
deriving DecidableEq, Repr

/-- A node; it refers to other nodes by their `Name()`. -/
structure Node where
  kind : Kind
  name : Name
  refs : List Name
deriving DecidableEq, Repr

/-- The namespace of a process: `Seen` (blueprint/pkg/wiring/namespace.go line 104) and the nodes that its handler was given.  `Added` are the names of
these.  Simplification: what comes from the parent namespace (addresses) is left out. -/
structure St where
  seen : List (Name × Node)
  nodes : List Node

def St.init : St := ⟨[], []⟩

/-- blueprint/pkg/wiring/namespace.go lines 222-230: after a node was built; a node whose name was added already is not given to the handler. -/
def St.add (s : St) (d : Name) (t : Node) : St :=
  ⟨(d, t) :: s.seen, if t.name ∈ s.nodes.map Node.name then s.nodes else s.nodes ++ [t]⟩

/-- blueprint/pkg/wiring/namespace.go lines 154-232: Get for each of several names; `none` if one is not defined, or fuel is used up. -/
def getAll (defs : Name → Option Def) : (fuel : Nat) → St → List Name → Option (St × List Node)
  | _, s, [] => some (s, [])
  | 0, _, _ :: _ => none
  | fuel + 1, s, d :: ds =>
    match s.seen.lookup d with
    | some t =>
      match getAll defs fuel s ds with
      | some (s', ts) => some (s', t :: ts)
      | none => none
    | none =>
      match defs d with
      | none => none
      | some (.same d') =>
        match getAll defs fuel s [d'] with
        | some (s1, [t]) =>
          match getAll defs fuel ⟨(d, t) :: s1.seen, s1.nodes⟩ ds with
          | some (s', ts) => some (s', t :: ts)
          | none => none
        | _ => none
      | some (.node k i refs) =>
        match getAll defs fuel s refs with
        | some (s1, us) =>
          let t : Node := ⟨k, i, us.map Node.name⟩
          match getAll defs fuel (s1.add d t) ds with
          | some (s', ts) => some (s', t :: ts)
          | none => none
        | none => none

/-! ### The definitions of a load balancer -/

/-- The first of some modifiers, or what is behind them. -/
def headOr : List Name → Name → Name
  | [], n => n
  | w :: _, _ => w

/-- Modifiers one behind the other: `AddSrcModifier` returns the name of what is next (blueprint/pkg/coreplugins/pointer/pointer.go lines 157-164). -/
def chain : List Name → Name → List (Name × Def)
  | [], _ => []
  | w :: ws, last => (w, .node .wrap w [headOr ws last]) :: chain ws last

/-- plugins/loadbalancer/wiring.go lines 31-32 and plugins/grpc/wiring.go lines 77-78 (http and thrift are alike). -/
def handlerName (x : Name) : Name := x ++ ".handler"
def clientName (x : Name) : Name := x ++ ".client"
def rpcClientName (x : Name) : Name := x ++ ".grpc_client"
def rpcServerName (x : Name) : Name := x ++ ".grpc_server"

/-- The definitions after CreateLoadBalancer for balancer `x` (plugins/loadbalancer/wiring.go lines 29-65) with replicas `reps`, then client side
modifiers `ws` and server side modifiers `ds` of wrapper plugins, in the order in which they were added, then, if `rpc`, the Deploy of an RPC plugin
(plugins/grpc/wiring.go lines 75-117).  The instance name of handler and client is the balancer's name (plugins/loadbalancer/wiring.go lines 36 and
58, plugins/loadbalancer/ir_balancer.go lines 57-58).  Server side modifiers are in front of those that were added before
(blueprint/pkg/coreplugins/pointer/pointer.go lines 177-190).  Simplification: aliases between the names are resolved. -/
def lbDefs (x : Name) (reps ws ds : List Name) (rpc : Bool) : List (Name × Def) :=
  let dst := headOr ds.reverse (handlerName x)
  let iface := if rpc then rpcClientName x else dst
  [(x, .same (clientName x)), (clientName x, .node .client x [headOr ws iface]), (handlerName x, .node .handler x reps)] ++
  chain ws iface ++ chain ds.reverse (handlerName x) ++
  (if rpc then [(rpcClientName x, .node .rpcClient (rpcClientName x) []), (rpcServerName x, .node .rpcServer (rpcServerName x) [dst])] else [])

/-- The definitions as a map (blueprint/pkg/wiring/wiring.go lines 77-79). -/
def defsOf (table : List (Name × Def)) (d : Name) : Option Def := table.lookup d

/-! ### Calls in the generated code -/

/-- Where a call ends, as far as the process is concerned. -/
inductive Dest where
  /-- the round robin of the balancer -/
  | balancer
  | service (n : Name)
  /-- it leaves the process through this RPC client -/
  | remote (n : Name)
deriving DecidableEq, Repr

/-- The code that is generated for a name: of the first node with this name (plugins/goproc/deploy.go lines 88-95; AddInstantiation does nothing for
names that were visited, as in plugins/loadbalancer/ir_balancer.go lines 107-109 and 162-164). -/
def declared (nodes : List Node) (n : Name) : Option Node := nodes.find? fun t => t.name = n

/-- A call of the instance with name `n` passes the wrappers `p` and ends at `d`: clients hand on the instance that they get by name
(plugins/loadbalancer/ir_balancer.go lines 166-171), wrappers call the one that they get by name, and so do servers. -/
inductive Goes (nodes : List Node) : Name → List Name → Dest → Prop where
  | handler {n t} : declared nodes n = some t → t.kind = .handler → Goes nodes n [] .balancer
  | service {n t} : declared nodes n = some t → t.kind = .service → Goes nodes n [] (.service n)
  | remote {n t} : declared nodes n = some t → t.kind = .rpcClient → Goes nodes n [] (.remote n)
  | client {n t m p d} : declared nodes n = some t → t.kind = .client → t.refs = [m] → Goes nodes m p d → Goes nodes n p d
  | wrap {n t m p d} : declared nodes n = some t → t.kind = .wrap → t.refs = [m] → Goes nodes m p d → Goes nodes n (n :: p) d
  | server {n t m p d} : declared nodes n = some t → t.kind = .rpcServer → t.refs = [m] → Goes nodes m p d → Goes nodes n p d

end Verif.Balance
