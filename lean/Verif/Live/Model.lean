import Verif.Compile.Model
import Verif.RtNs.BuilderModel
/-
Model of a generated process: the namespace that plugins/goproc/deploy.go generates for the nodes and edges of a process
(plugins/golang/gogen/namespacebuilder.go), and what happens when it is built by the process's main function
(plugins/goproc/goprocgen/main.go.go, runtime/plugins/golang/namespace.go).

The nodes and edges are those of `Compile/Model.lean`, and the builder with its arguments is that of `RtNs/BuilderModel.lean`.  In contrast
to `RtNs/Model.lean`, which has arbitrary build functions, the build functions here are those that are generated for IR nodes, and an
object has a record of the constructor's call that made it.
-/
namespace Verif.Live
open Verif.Wiring (Name)
open Verif.Compile (Tree bindName dialName)

/-- Values of a running process: strings, and objects, with the node whose constructor made them and the arguments of the call. -/
inductive Obj where
  | str (s : String)
  | made (node : Name) (args : List Obj)

/-- An argument of a generated constructor call: a literal, or what `n.Get` has for a node
(plugins/golang/gogen/namespacebuilder.go lines 178-201). -/
inductive Arg where
  | lit (v : String)
  | node (n : Name)

/-- Generated build functions: a constructor call (plugins/golang/gogen/namespacebuilder.go lines 141-152), or the node that another name
has (plugins/workflow/ir_workflowservice.go lines 91-123). -/
inductive Build where
  | call (args : List Arg)
  | same (n : Name)

/-- plugins/golang/gogen/namespacebuilder.go lines 183-186: values become literals. -/
def argOf : Tree → Arg
  | .value v => .lit v
  | t => .node t.name

/-- AddInstantiation of the nodes of a process: plugins/workflow/ir_workflowservice.go lines 76-123 (handler and client), the wrapper plugins such as
plugins/retries/ir.go, plugins/grpc/ir_grpc_client.go and plugins/grpc/ir_grpc_server.go.  `Tree.wrap` stands both for the clients of
workflow services and for wrappers; `client` tells them apart. -/
def build (client : Name → Bool) : Tree → Option Build
  | .handler _ args => some (.call (args.map argOf))
  | .wrap n t => if client n then some (.same t.name) else some (.call [.node t.name])
  | .grpcClient _ a => some (.call [.node (dialName a)])
  | .grpcServer _ t a => some (.call [.node t.name, .node (bindName a)])
  | _ => none

/-- A process (plugins/goproc/ir.go), with the nodes in it and those it gets from outside. -/
structure Proc where
  nodes : List Tree
  edges : List Tree

/-- The calls that the generated code makes on the namespace's builder (plugins/goproc/deploy.go lines 82-101 and
plugins/golang/gogen/namespacebuilder.go lines 211-283): an argument for each edge, and a definition for each node that can be
instantiated.  The number of a definition is the position of its node.  Simplification: the calls are in the order of the nodes instead of
the order of their names. -/
def Proc.ops (client : Name → Bool) (p : Proc) : List RtNs.Op :=
  p.edges.map (fun e => .required e.name) ++
    (p.nodes.zipIdx.filter fun t => (build client t.1).isSome).map fun t => .define t.1.name t.2

/-- What an observer of constructors and of Run sees. -/
inductive Event where
  | made (node : Name) (args : List Obj)
  /-- Run is called on an object that is the node with this name -/
  | run (name : Name) (o : Obj)

/-- The namespace of a running process. -/
structure Run where
  built : Name → Option Obj
  log : List Event

/-- Whether the object implements Runnable; `runnable` tells it for the objects that nodes' constructors make. -/
def Obj.runs (runnable : Name → Bool) : Obj → Bool
  | .str _ => false
  | .made n _ => runnable n

/-- runtime/plugins/golang/namespace.go lines 389-410: remember the node and run it. -/
def Run.finish (runnable : Name → Bool) (r : Run) (n : Name) (o : Obj) : Run :=
  { built := fun m => if m = n then some o else r.built m
    log := if o.runs runnable then r.log ++ [.run n o] else r.log }

inductive Task where
  /-- `n.Get` -/
  | get (n : Name)
  /-- the rest of a generated constructor call: the arguments to do, and those so far -/
  | call (node : Name) (todo : List Arg) (done : List Obj)

/-- runtime/plugins/golang/namespace.go lines 372-418 (Get) in a namespace without parent, with the generated build functions: `defs` is
what the builder has for a name, and `fn` are the build functions.  `fuel` bounds the depth of the recursion (outer `none`: not finished
yet); inner `none` is an error.  Constructors are taken to return an object, and the objects to have the types that their receivers need. -/
def exec (runnable : Name → Bool) (defs : Name → Option RtNs.Src) (fn : Nat → Option Build) :
    (fuel : Nat) → Run → Task → Option (Run × Option Obj)
  | 0, _, _ => none
  | fuel + 1, r, .get n =>
    match r.built n with
    | some o => some (r, some o)
    | none =>
      match defs n with
      | none => some (r, none)
      | some (.unset _) => some (r, none)
      | some (.value v) => some (r.finish runnable n (.str v), some (.str v))
      | some (.defined i) =>
        match fn i with
        | none => some (r, none)
        | some (.same m) =>
          match exec runnable defs fn fuel r (.get m) with
          | some (r', some o) => some (r'.finish runnable n o, some o)
          | x => x
        | some (.call args) =>
          match exec runnable defs fn fuel r (.call n args []) with
          | some (r', some o) => some (r'.finish runnable n o, some o)
          | x => x
  | fuel + 1, r, .call node [] done => let _ := fuel; some ({ r with log := r.log ++ [.made node done] }, some (.made node done))
  | fuel + 1, r, .call node (.lit v :: todo) done => exec runnable defs fn fuel r (.call node todo (done ++ [.str v]))
  | fuel + 1, r, .call node (.node m :: todo) done =>
    match exec runnable defs fn fuel r (.get m) with
    | some (r', some o) => exec runnable defs fn fuel r' (.call node todo (done ++ [o]))
    | x => x

/-- runtime/plugins/golang/namespace.go lines 231-237: the nodes to instantiate; `false` is an error. -/
def instantiate (runnable : Name → Bool) (defs : Name → Option RtNs.Src) (fn : Nat → Option Build) (fuel : Nat) :
    List Name → Run → Option (Run × Bool)
  | [], r => some (r, true)
  | n :: ns, r =>
    match exec runnable defs fn fuel r (.get n) with
    | none => none
    | some (r', some _) => instantiate runnable defs fn fuel ns r'
    | some (r', none) => some (r', false)

/-- How the start of a process ends: it runs, it stops because of arguments that are missing or nodes that cannot be built, or it
panics. -/
inductive Started where
  | running (r : Run)
  | missing (names : List Name)
  | failed (r : Run)
  | panicked

/-- The start of a process with these command line flags and environment variables: the generated main function
(plugins/goproc/goprocgen/main.go.go lines 104-113) and Build (runtime/plugins/golang/namespace.go lines 209-237). -/
def Proc.start (client runnable : Name → Bool) (p : Proc) (w : RtNs.World) (fuel : Nat) : Option Started :=
  match RtNs.Builder.run [] RtNs.Builder.new (p.ops client) with
  | none => some .panicked
  | some (_, b) =>
    match (b.build w b.required b.optional b.required).2 with
    | .missing names => some (.missing names)
    | .ok defs =>
      match instantiate runnable defs (fun i => p.nodes[i]?.bind (build client)) fuel (p.nodes.map Tree.name) ⟨fun _ => none, []⟩ with
      | none => none
      | some (r, true) => some (.running r)
      | some (r, false) => some (.failed r)

end Verif.Live
