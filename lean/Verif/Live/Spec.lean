import Verif.Live.Model
/-
What the objects of a process should be.
-/
namespace Verif.Live
open Verif.Wiring (Name)
open Verif.Compile (Tree bindName dialName)

/-- The nodes that a node is built from, apart from literals. -/
def parts : Tree → List Tree
  | .handler _ args => args.filter fun
    | .value _ => false
    | _ => true
  | .wrap _ t => [t]
  | .grpcClient _ a => [.dial (dialName a)]
  | .grpcServer _ t a => [t, .bind (bindName a)]
  | _ => []

mutual
/-- The object that a node should be, if `val` has the addresses: its constructor's result, with the objects of the nodes that it is built
from as arguments.  A client of a workflow service is what it is a client of. -/
def obj (client : Name → Bool) (val : Name → String) : Tree → Obj
  | .handler s args => .made s (objs client val args)
  | .value v => .str v
  | .wrap n t => if client n then obj client val t else .made n [obj client val t]
  | .grpcClient n a => .made n [.str (val (dialName a))]
  | .grpcServer n t a => .made n [obj client val t, .str (val (bindName a))]
  | .addr n => .str (val n)
  | .bind n => .str (val n)
  | .dial n => .str (val n)
  | .visibility n => .str (val n)
  | .space n => .str (val n)
  | .container n _ => .str (val n)

def objs (client : Name → Bool) (val : Name → String) : List Tree → List Obj
  | [] => []
  | t :: ts => obj client val t :: objs client val ts
end

/-- The node is built by a constructor. -/
def Constructed (client : Name → Bool) : Tree → Prop
  | .wrap n _ => client n = false
  | _ => True

/-- A process that can be started: its nodes have build functions and different names, they are built from other nodes of the process and
from addresses that the process gets from outside. -/
structure Proc.Closed (p : Proc) : Prop where
  names : ((p.nodes ++ p.edges).map Tree.name).Nodup
  code : ∀ t ∈ p.nodes, (∃ s args, t = .handler s args) ∨ (∃ n u, t = .wrap n u) ∨ (∃ n a, t = .grpcClient n a) ∨
    ∃ n u a, t = .grpcServer n u a
  addrs : ∀ e ∈ p.edges, (∃ n, e = .bind n) ∨ ∃ n, e = .dial n
  parts : ∀ t ∈ p.nodes, ∀ u ∈ parts t, u ∈ p.nodes ∨ u ∈ p.edges

/-- What the process is given for an argument: the flag, or else the environment variable. -/
def given (w : RtNs.World) (n : Name) : String := if w.flag n ≠ "" then w.flag n else RtNs.envOf w n

/-- How often a node's constructor was called. -/
def madeCount (node : Name) (log : List Event) : Nat :=
  log.countP fun
    | .made m _ => m == node
    | .run _ _ => false

/-- How often Run was called on the node with this name. -/
def runCount (name : Name) (log : List Event) : Nat :=
  log.countP fun
    | .made _ _ => false
    | .run m _ => m == name

/-- How often Run was called on the object that the node's constructor made. -/
def ranCount (node : Name) (log : List Event) : Nat :=
  log.countP fun
    | .run _ (.made m _) => m == node
    | _ => false

end Verif.Live
