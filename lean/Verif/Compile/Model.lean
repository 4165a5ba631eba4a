import Verif.Wiring.PtrModel
import Verif.Address.Model
/-
Model of a whole compilation of a wiring spec with the plugins that most applications use: what the plugins put into the wiring spec
(plugins/workflow/wiring.go, the wrapper plugins such as plugins/retries/wiring.go, plugins/grpc/wiring.go, plugins/goproc/wiring.go,
plugins/linuxcontainer/wiring.go, with blueprint/pkg/coreplugins/{pointer,address,namespaceutil}), and what the build functions they
define do when blueprint/pkg/wiring/{namespace,application}.go run them.

Calls on the wiring spec and on pointers are those of `Wiring/Model.lean` and `Wiring/PtrModel.lean`.  In contrast to
`Wiring/NsModel.lean`, which has arbitrary build functions, IR nodes have their contents here.
-/
namespace Verif.Compile
open Verif.Wiring (Name Spec Op Ptr Payload createPointer)

/-- IR nodes, with the nodes that they refer to. -/
inductive Tree where
  /-- workflowHandler (plugins/workflow/ir_workflowservice.go lines 33-38), with the service's name and its `Args` -/
  | handler (svc : Name) (args : List Tree)
  /-- `ir.IRValue` -/
  | value (v : Name)
  /-- workflowClient (plugins/workflow/ir_workflowservice.go lines 27-31) and the nodes of wrapper plugins, with `Wrapped` -/
  | wrap (name : Name) (inner : Tree)
  /-- golangClient (plugins/grpc/ir_grpc_client.go; those of http and thrift are alike), with the address that it dials -/
  | grpcClient (name addr : Name)
  /-- golangServer (plugins/grpc/ir_grpc_server.go; those of http and thrift are alike), with `Wrapped` and the address that it binds -/
  | grpcServer (name : Name) (inner : Tree) (addr : Name)
  /-- Address, BindConfig, DialConfig (blueprint/pkg/coreplugins/address/ir.go).  An address is built once, in the application's
  namespace, and referred to by its name. -/
  | addr (name : Name)
  | bind (name : Name)
  | dial (name : Name)
  /-- visibilityMetadata (blueprint/pkg/coreplugins/pointer/visibility.go), referred to by its name like an address -/
  | visibility (name : Name)
  /-- a process, container or deployment -/
  | space (name : Name)
  /-- the prebuilt container of a backend (such as plugins/redis/ir_redis_container.go lines 17-26), with the address that it binds -/
  | container (name addr : Name)

/-- `Name()` of a node. -/
def Tree.name : Tree → Name
  | handler s _ => s
  | value v => v
  | wrap n _ => n
  | grpcClient n _ => n
  | grpcServer n _ _ => n
  | addr n => n
  | bind n => n
  | dial n => n
  | visibility n => n
  | space n => n
  | container n _ => n

/-- `ir.IRMetadata` -/
def Tree.isMeta : Tree → Bool
  | addr _ => true
  | visibility _ => true
  | _ => false

/-- `golang.Service`: what wrappers and servers can wrap. -/
def Tree.isService : Tree → Bool
  | handler _ _ => true
  | wrap _ _ => true
  | grpcClient _ _ => true
  | _ => false

/-- A container that is not a namespace. -/
def Tree.isCtr : Tree → Bool
  | container _ _ => true
  | _ => false

/-- The node types of definitions, as far as namespaces distinguish them: golang nodes are at level 0, processes at level 1, containers
at level 2 and so on; a namespace of level l+1 accepts the nodes of level l (plugins/goproc/wiring.go lines 223-226,
plugins/linuxcontainer/wiring.go lines 136-139).  `app` is `&ir.ApplicationNode{}`, which only the application accepts. -/
inductive Ty where
  | app
  | level (l : Nat)
deriving DecidableEq

/-- The build functions. -/
inductive Kind where
  /-- plugins/workflow/wiring.go lines 74-101; `ctor` tells which arguments of the constructor are strings -/
  | handler (svc : Name) (ctor : List Bool) (args : List Name)
  /-- plugins/workflow/wiring.go lines 109-115 -/
  | client (next : Name)
  /-- a wrapper plugin, such as plugins/retries/wiring.go lines 103-111 -/
  | wrap (next : Name)
  /-- blueprint/pkg/coreplugins/pointer/visibility.go lines 49-55 and 58-71 -/
  | visibility
  | check (md target : Name)
  /-- blueprint/pkg/coreplugins/pointer/pointer.go lines 126-136 -/
  | ptr
  /-- blueprint/pkg/coreplugins/address/wiring.go lines 43-59 -/
  | addr
  | bind
  | dial
  /-- plugins/grpc/wiring.go lines 86-92 and 96-110 -/
  | grpcClient (next : Name)
  | grpcServer (next addr : Name)
  /-- blueprint/pkg/coreplugins/namespaceutil/namespace.go lines 69-87 -/
  | enter (space next : Name)
  /-- plugins/goproc/wiring.go lines 117-144, plugins/linuxcontainer/wiring.go lines 112-119.  Simplification: a process's default
  logger and metric collector, which depend on nothing, are left out. -/
  | space (level : Nat)
  /-- the prebuilt container of a backend, such as plugins/redis/wiring.go lines 26-34 -/
  | container (addr : Name)
deriving DecidableEq

/-- `WiringOpts.ProxyNode`: the node is another one's (blueprint/pkg/coreplugins/namespaceutil/namespace.go line 62). -/
def Kind.proxy : Kind → Bool
  | enter _ _ => true
  | _ => false

/-- What may be instantiated from inside a namespace that does not accept it. -/
def Kind.quiet : Kind → Bool
  | enter _ _ => true
  | container _ => true
  | _ => false

/-! ### What a compilation looks up in the wiring spec -/

/-- The wiring spec at the time of compilation: the name and definition that a name leads to (a definition without build function was
only given properties), the children of each namespace, and the pointers. -/
structure Env where
  look : Name → Option (Name × Ty × Option Kind)
  children : Name → List Name
  ptr : Name → Option Ptr

/-! ### Building -/

/-- A namespace, as the names of the namespaces from it to the outermost; the application is the empty list. -/
abbrev Space := List Name

/-- Deferred functions: the Get of a requested node (blueprint/pkg/wiring/application.go lines 42-50), of the children of a namespace
(namespaceutil/namespace.go lines 119-136), and InstantiateDst of a pointer (pointer.go lines 129-131). -/
inductive Job where
  | get (name : Name)
  | children (sp : Space)
  | dst (sp : Space) (svc : Name)
deriving DecidableEq

/-- The namespaces of a compilation (blueprint/pkg/wiring/namespace.go lines 98-112).  `level` has the derived namespaces.  `nodes` and
`edges` are what the handlers were told.  `owner` is the field `node` of visibility metadata, and `dest` the field `Server` of addresses,
by name. -/
structure St where
  level : Space → Option Nat
  seen : Space → Name → Option (Option Tree)
  added : Space → Name → Bool
  nodes : Space → List Tree
  edges : Space → List Tree
  owner : Name → Option Tree
  dest : Name → Option Tree
  queue : List Job

inductive Res where
  | ok (t : Tree)
  | err
  | panic

def St.setSeen (s : St) (sp : Space) (name : Name) (v : Option Tree) : St :=
  { s with seen := fun q x => if q = sp ∧ x = name then some v else s.seen q x }

def St.setAdded (s : St) (sp : Space) (name : Name) : St :=
  { s with added := fun q x => if q = sp ∧ x = name then true else s.added q x }

def St.addNode (s : St) (sp : Space) (t : Tree) : St :=
  { s with nodes := fun q => if q = sp then s.nodes q ++ [t] else s.nodes q }

def St.addEdge (s : St) (sp : Space) (t : Tree) : St :=
  { s with edges := fun q => if q = sp then s.edges q ++ [t] else s.edges q }

/-- `Accepts` of a namespace's handler (see `Ty`); the application accepts everything
(blueprint/pkg/wiring/application.go lines 68-71). -/
def St.accepts (s : St) (sp : Space) (ty : Ty) : Bool :=
  match sp with
  | [] => true
  | _ :: _ => match ty with
    | .app => false
    | .level l => decide (s.level sp = some (l + 1))

/-- blueprint/pkg/wiring/namespace.go lines 197-205: after a node was gotten from the parent. -/
def St.afterParent (s : St) (sp : Space) (name : Name) (edge proxy : Bool) (t : Tree) : St :=
  let s := if s.added sp t.name then s
    else (if !t.isMeta && edge && !proxy then s.addEdge sp t else s).setAdded sp t.name
  s.setSeen sp name (some t)

/-- blueprint/pkg/wiring/namespace.go lines 222-231: after a node was built. -/
def St.afterBuild (s : St) (sp : Space) (name : Name) (proxy : Bool) (t : Tree) : St :=
  let s := if s.added sp t.name then s
    else (if !proxy then s.addNode sp t else s).setAdded sp t.name
  s.setSeen sp name (some t)

/-- `bind` and `dial` (blueprint/pkg/coreplugins/address/wiring.go lines 109-115). -/
def bindName (a : Name) : Name := String.ofList (Address.bindName a.toList)
def dialName (a : Name) : Name := String.ofList (Address.dialName a.toList)

inductive Task where
  /-- `get` in a namespace (Get if `edge`, else Instantiate) -/
  | get (sp : Space) (edge : Bool) (name : Name)
  /-- a build function -/
  | build (sp : Space) (name : Name) (k : Kind)
  /-- the loop over the arguments of a handler (plugins/workflow/wiring.go lines 88-98): those to do, and the nodes so far -/
  | args (sp : Space) (svc : Name) (todo : List (Bool × Name)) (done : List Tree)

/-- blueprint/pkg/wiring/namespace.go lines 154-232 (get), with the build functions.  `fuel` bounds the depth of the recursion (`none`:
not finished yet). -/
def exec (env : Env) : (fuel : Nat) → St → Task → Option (St × Res)
  | 0, _, _ => none
  | fuel + 1, s, .get sp edge name =>
    match s.seen sp name with
    | some (some t) => some (s, .ok t)
    | some none => some (s, .panic)
    | none =>
      match env.look name with
      | none => some (s, .err)
      | some (_, _, none) => some (s, .panic)
      | some (dn, ty, some k) =>
        if dn ≠ name then
          match exec env fuel s (.get sp edge dn) with
          | none => none
          | some (s', .ok t) => some (s'.setSeen sp name (some t), .ok t)
          | some (s', .err) => some (s'.setSeen sp name none, .err)
          | some (s', .panic) => some (s', .panic)
        else if s.accepts sp ty then
          match exec env fuel s (.build sp name k) with
          | none => none
          | some (s', .ok t) => some (s'.afterBuild sp name k.proxy t, .ok t)
          | some (s', r) => some (s', r)
        else
          match exec env fuel s (.get sp.tail edge name) with
          | none => none
          | some (s', .ok t) => some (s'.afterParent sp name edge k.proxy t, .ok t)
          | some (s', r) => some (s', r)
  | fuel + 1, s, .args _ svc [] done => let _ := fuel; some (s, .ok (.handler svc done))
  | fuel + 1, s, .args sp svc ((str, a) :: todo) done =>
    if str && (env.look a).isNone then exec env fuel s (.args sp svc todo (done ++ [.value a]))
    else
      match exec env fuel s (.get sp true a) with
      | some (s', .ok t) => exec env fuel s' (.args sp svc todo (done ++ [t]))
      | r => r
  | fuel + 1, s, .build sp name k =>
    match k with
    | .handler svc ctor args =>
      if ctor.length ≠ args.length then some (s, .err)
      else exec env fuel s (.args sp svc (ctor.zip args) [])
    | .client next =>
      match exec env fuel s (.get sp true next) with
      | some (s', .ok t) => some (s', .ok (.wrap name t))
      | r => r
    | .wrap next =>
      match exec env fuel s (.get sp true next) with
      | some (s', .ok t) => some (s', if t.isService then .ok (.wrap name t) else .err)
      | r => r
    | .visibility => some (s, .ok (.visibility name))
    | .check md target =>
      match exec env fuel s (.get sp true md) with
      | some (s', .ok (.visibility v)) =>
        if (s'.owner v).isSome then some (s', .err)
        else
          match exec env fuel s' (.get sp true target) with
          | some (s'', .ok t) => some ({ s'' with owner := fun x => if x = v then some t else s''.owner x }, .ok t)
          | r => r
      | some (s', .ok _) => some (s', .err)
      | r => r
    | .ptr =>
      match env.ptr name with
      | none => some (s, .panic)
      | some p => exec env fuel { s with queue := s.queue ++ [.dst sp name] } (.get sp true p.srcHead)
    | .addr => some (s, .ok (.addr name))
    | .bind => some (s, .ok (.bind name))
    | .dial => some (s, .ok (.dial name))
    | .grpcClient next =>
      match exec env fuel s (.get sp true next) with
      | some (s', .ok (.addr a)) =>
        match exec env fuel s' (.get sp true (dialName a)) with
        | some (s'', .ok (.dial _)) => some (s'', .ok (.grpcClient name a))
        | some (s'', .ok _) => some (s'', .err)
        | r => r
      | some (s', .ok _) => some (s', .err)
      | r => r
    | .grpcServer next addr =>
      match exec env fuel s (.get sp true next) with
      | some (s', .ok t) =>
        if t.isService then
          match exec env fuel s' (.get sp true addr) with
          | some (s'', .ok (.addr a)) =>
            match exec env fuel s'' (.get sp true (bindName a)) with
            | some (s3, .ok (.bind _)) =>
              some ({ s3 with dest := fun x => if x = a then some (.grpcServer name t a) else s3.dest x }, .ok (.grpcServer name t a))
            | some (s3, .ok _) => some (s3, .err)
            | r => r
          | some (s'', .ok _) => some (s'', .err)
          | r => r
        else some (s', .err)
      | r => r
    | .enter x next =>
      match exec env fuel s (.get sp true x) with
      | some (s', .ok t) =>
        if (s'.level (t.name :: sp)).isSome then exec env fuel s' (.get (t.name :: sp) false next) else some (s', .err)
      | r => r
    | .space l =>
      if (s.level (name :: sp)).isSome then some (s, .err)
      else
        some ({ s with
          level := fun q => if q = name :: sp then some l else s.level q
          queue := .children (name :: sp) :: s.queue }, .ok (.space name))
    | .container addr =>
      match exec env fuel s (.get sp true addr) with
      | some (s', .ok (.addr a)) =>
        match exec env fuel s' (.get sp true (bindName a)) with
        | some (s'', .ok (.bind _)) =>
          some ({ s'' with dest := fun x => if x = a then some (.container name a) else s''.dest x }, .ok (.container name a))
        | some (s'', .ok _) => some (s'', .err)
        | r => r
      | some (s', .ok _) => some (s', .err)
      | r => r

/-- namespaceutil/namespace.go lines 128-134: the loop over the children. -/
def getChildren (env : Env) (fuel : Nat) (sp : Space) : List Name → St → Option (St × Res)
  | [], s => some (s, .ok (.value ""))
  | c :: cs, s =>
    match exec env fuel s (.get sp true c) with
    | some (s', .ok _) => getChildren env fuel sp cs s'
    | r => r

/-- A deferred function.  For InstantiateDst (pointer.go lines 221-256): at 246-248 the error of Instantiate is dropped.  A deferred
function only returns an error or none, so any node serves as the result. -/
def runJob (env : Env) (fuel : Nat) (s : St) : Job → Option (St × Res)
  | .get name => exec env fuel s (.get [] true name)
  | .children sp => getChildren env fuel sp (env.children (sp.headD "")) s
  | .dst sp svc =>
    match env.ptr svc with
    | none => some (s, .panic)
    | some p =>
      match exec env fuel s (.get sp true p.interfaceNode) with
      | some (s', .ok (.addr a)) =>
        if (s'.dest a).isSome then some (s', .ok (.addr a))
        else
          match exec env fuel s' (.get sp false (p.dstModifiers.headD "")) with
          | some (s'', .ok _) => some (s'', if (s''.dest a).isSome then .ok (.addr a) else .err)
          | some (s'', .err) => some (s'', .ok (.addr a))
          | r => r
      | r => r

/-- How the compilation ends. -/
inductive Ending where
  | success
  | failed
  | panicked
deriving DecidableEq

/-- blueprint/pkg/wiring/application.go lines 52-60. -/
def runQueue (env : Env) : (fuel : Nat) → St → Option (St × Ending)
  | 0, _ => none
  | fuel + 1, s =>
    match s.queue with
    | [] => some (s, .success)
    | j :: rest =>
      match runJob env fuel { s with queue := rest } j with
      | none => none
      | some (s', .ok _) => runQueue env fuel s'
      | some (s', .err) => some (s', .failed)
      | some (s', .panic) => some (s', .panicked)

def St.init : St :=
  { level := fun _ => none, seen := fun _ _ => none, added := fun _ _ => false, nodes := fun _ => [], edges := fun _ => [],
    owner := fun _ => none, dest := fun _ => none, queue := [] }

/-- BuildApplicationIR (blueprint/pkg/wiring/application.go lines 18-62) with a non-empty list of nodes to instantiate; each is put at
the front of the queue. -/
def compile (env : Env) (fuel : Nat) (nodes : List Name) : Option (St × Ending) :=
  runQueue env fuel { St.init with queue := (nodes.map .get).reverse }

/-! ### The wiring spec -/

/-- Property values: call sites, names of children, pointers and address metadata. -/
inductive Prop' where
  | stack
  | child (name : Name)
  | ptr (name : Name)
  | addr (pointsTo : Name)

abbrev WSpec := Spec Ty Kind Prop'

/-- The wiring spec, and the PointerDefs that its "ptr" properties point to. -/
structure Wired where
  spec : WSpec
  ptrs : Wiring.GoMap Ptr

/-- The plugins that deploy a service over the network. -/
inductive Proto where
  | grpc | http | thrift
deriving DecidableEq

/-- What the plugins append to the service's name: plugins/grpc/wiring.go lines 77-79, plugins/http/wiring.go lines 38-40 and
plugins/thrift/wiring.go lines 43-45. -/
def Proto.client : Proto → Name
  | .grpc => ".grpc_client"
  | .http => ".http_client"
  | .thrift => ".thrift_client"

def Proto.server : Proto → Name
  | .grpc => ".grpc_server"
  | .http => ".http_server"
  | .thrift => ".thrift_server"

def Proto.addr : Proto → Name
  | .grpc => ".grpc.addr"
  | .http => ".http.addr"
  | .thrift => ".thrift.addr"

/-- What the wiring spec is told to do. -/
inductive Decl where
  /-- `workflow.Service` of a type whose constructor has these arguments (apart from the context) -/
  | service (svc : Name) (ctor : List Bool) (args : List Name)
  /-- a plugin that wraps the service's clients, such as `retries.AddRetries`, in a node called `svc.suffix` -/
  | wrapClient (svc suffix : Name)
  /-- a plugin that wraps the service itself, such as the server side of `opentelemetry.Instrument` -/
  | wrapServer (svc suffix : Name)
  /-- `grpc.Deploy`, `http.Deploy` or `thrift.Deploy` -/
  | rpc (pr : Proto) (svc : Name)
  /-- a backend with a prebuilt container, such as `redis.Container` -/
  | backend (svc : Name)
  /-- `goproc.AddToProcess` (level 1), `linuxcontainer.AddToContainer` (level 2) … -/
  | addTo (level : Nat) (space svc : Name)
  /-- `goproc.CreateProcess`, `linuxcontainer.CreateContainer` … without children -/
  | space (name : Name) (level : Nat)
deriving DecidableEq

/-- The service that a declaration is about. -/
def Decl.about : Decl → Option Name
  | .service s _ _ => some s
  | .wrapClient s _ => some s
  | .wrapServer s _ => some s
  | .rpc _ s => some s
  | .backend s => some s
  | .addTo _ _ s => some s
  | .space _ _ => none

def payload (t : Ty) (k : Kind) : Payload Ty Kind Prop' := ⟨t, k, .stack⟩

/-- `spec.Define` -/
def Wired.define (w : Wired) (n : Name) (t : Ty) (k : Kind) : Wired := { w with spec := w.spec.step (.define n t k .stack) }

def Wired.setPtr (w : Wired) (svc : Name) (p : Ptr) : Wired := { w with ptrs := w.ptrs.set svc p }

/-- `pointer.GetPointer` (pointer.go lines 144-148). -/
def Wired.getPtr (w : Wired) (svc : Name) : Option Ptr :=
  match w.spec.getProperty svc "ptr" with
  | .value (.ptr n) => w.ptrs.get n
  | _ => none

/-- `address.GetAddress(spec, name).PointsTo` (address/wiring.go lines 134-138); `AddAddrModifier` does nothing if there is none, which does
not happen here. -/
def Wired.pointsTo (w : Wired) (addr : Name) : Name :=
  match w.spec.getProperty addr "addr" with
  | .value (.addr d) => d
  | _ => ""

/-- `ptr.AddSrcModifier` followed by a Define of the modifier, which is given the name of the next one. -/
def Wired.addSrc (w : Wired) (svc : Name) (p : Ptr) (name : Name) (k : Name → Kind) : Wired × Ptr :=
  let (spec, p, next) := p.addSrc w.spec name
  (({ w with spec := spec }.setPtr svc p).define name (.level 0) (k next), p)

/-- One declaration.  A plugin does nothing if the service has no pointer. -/
def Wired.step (w : Wired) : Decl → Wired
  -- plugins/workflow/wiring.go lines 71-118
  | .service svc ctor args =>
    let h := svc ++ ".handler"
    let w := w.define h (.level 0) (.handler svc ctor args)
    let (spec, p) := createPointer (some (payload .app .visibility, payload (.level 0) (.check (h ++ ".visibility") h)))
      (payload (.level 0) .ptr) (.ptr svc) w.spec svc h
    (({ w with spec := spec }.setPtr svc p).addSrc svc p (svc ++ ".client") .client).1
  | .wrapClient svc suffix =>
    match w.getPtr svc with
    | none => w
    | some p => (w.addSrc svc p (svc ++ "." ++ suffix) .wrap).1
  | .wrapServer svc suffix =>
    match w.getPtr svc with
    | none => w
    | some p =>
      let (spec, p, next) := p.addDst w.spec (svc ++ "." ++ suffix) true
      ({ w with spec := spec }.setPtr svc p).define (svc ++ "." ++ suffix) (.level 0) (.wrap next)
  -- plugins/grpc/wiring.go lines 75-111, plugins/http/wiring.go lines 36-82, plugins/thrift/wiring.go lines 41-87 and
  -- blueprint/pkg/coreplugins/address/wiring.go lines 31-60; http's goes on without a pointer, and crashes, which does not happen here
  | .rpc pr svc =>
    match w.getPtr svc with
    | none => w
    | some p =>
      let addr := svc ++ pr.addr
      let w := { w with spec := w.spec.step (.setProperty addr "addr" (.addr (svc ++ pr.server))) }
      let w := w.define addr .app .addr
      let w := w.define (bindName addr) .app .bind
      let w := w.define (dialName addr) .app .dial
      -- read by `AddAddrModifier`, that is, after `AddSrcModifier`, which does not alias the address
      let server := w.pointsTo addr
      let (w, p) := w.addSrc svc p (svc ++ pr.client) .grpcClient
      let (spec, p, next) := p.addAddr w.spec addr server
      ({ w with spec := spec }.setPtr svc p).define (svc ++ pr.server) (.level 0) (.grpcServer next addr)
  -- plugins/redis/wiring.go lines 19-56; the other backends are alike
  | .backend svc =>
    let ctr := svc ++ ".ctr"
    let addr := svc ++ ".addr"
    let w := w.define ctr (.level 2) (.container addr)
    let (spec, p) := createPointer (some (payload .app .visibility, payload (.level 2) (.check (ctr ++ ".visibility") ctr)))
      (payload (.level 0) .ptr) (.ptr svc) w.spec svc ctr
    let w := { w with spec := spec }
    let w := { w with spec := w.spec.step (.setProperty addr "addr" (.addr ctr)) }
    let w := w.define addr .app .addr
    let w := w.define (bindName addr) .app .bind
    let w := w.define (dialName addr) .app .dial
    let (spec, p, _) := p.addAddr w.spec addr (w.pointsTo addr)
    (({ w with spec := spec }.setPtr svc p).addSrc svc p (svc ++ ".client") .grpcClient).1
  -- blueprint/pkg/coreplugins/namespaceutil/namespace.go lines 46-91
  | .addTo l x svc =>
    match w.getPtr svc with
    | none => { w with spec := w.spec.step (.addProperty x "Children" (.child svc)) }
    | some p =>
      let (spec, p, next) := p.addDst w.spec (svc ++ "." ++ x) false
      let w := ({ w with spec := spec }.setPtr svc p).define (svc ++ "." ++ x) (.level l) (.enter x next)
      { w with spec := w.spec.step (.addProperty x "Children" (.child next)) }
  | .space x l => w.define x (.level l) (.space l)

def Wired.run (ds : List Decl) : Wired := ds.foldl Wired.step ⟨Spec.new, []⟩

/-- What a compilation sees of a wiring spec.  Aliases are followed through at most as many steps as there are aliases. -/
def Wired.env (w : Wired) : Env where
  look n := match w.spec.resolveAlias (w.spec.aliases.length + 1) n with
    | none => none
    | some m => (w.spec.defs.get m).map fun d => (m, d.nodeType.getD .app, d.build)
  children x := ((w.spec.getProperties x "Children").getD []).filterMap fun
    | .child c => some c
    | _ => none
  ptr svc := w.getPtr svc

end Verif.Compile
