import Verif.Compile.Model
import Verif.Wiring.PtrProps
/-
Applications: services with their wrappers and places, what may depend on what, and which nodes an application should consist of.
-/
namespace Verif.Compile
open Verif.Wiring (Name nextOf)

/-- A service of an application: the arguments of its constructor (those marked `true` are strings), its wrappers in the order of their
declarations (`true`: on the client's side), whether it is deployed over gRPC, HTTP or Thrift, the namespaces that it is put into, innermost first, and
the namespaces around those.  A backend, such as a database, is a service that runs in a prebuilt container instead of a process.
`proto` is how it is deployed, if it is. -/
structure Svc where
  name : Name
  ctor : List Bool
  args : List Name
  wraps : List (Bool × Name)
  rpc : Bool
  places : List Name
  ctx : List Name
  back : Bool
  proto : Proto

/-- The level of the service's server: that of golang nodes, or that of containers. -/
def Svc.base (S : Svc) : Nat := if S.back then 2 else 0

/-- Where the service is to be built. -/
def Svc.home (S : Svc) : Space := S.places ++ S.ctx

def wrapDecl (T : Name) (w : Bool × Name) : Decl := if w.1 then .wrapClient T w.2 else .wrapServer T w.2

def placeDecls (T : Name) : Nat → List Name → List Decl
  | _, [] => []
  | l, x :: xs => .addTo l x T :: placeDecls T (l + 1) xs

/-- The declarations about the service: `workflow.Service`, then wrappers, then `grpc.Deploy` or the like, then `goproc.AddToProcess`,
`linuxcontainer.AddToContainer` and so on.  About a backend: `redis.Container` or the like, then `dockercompose.AddContainerToDeployment`
and so on. -/
def Svc.decls (S : Svc) : List Decl :=
  (if S.back then [.backend S.name]
    else .service S.name S.ctor S.args :: S.wraps.map (wrapDecl S.name) ++ if S.rpc then [.rpc S.proto S.name] else []) ++
  placeDecls S.name (S.base + 1) S.places

/-! ### The names -/

@[irreducible] def handlerN (T : Name) : Name := T ++ ".handler"
@[irreducible] def visN (T : Name) : Name := T ++ ".handler" ++ ".visibility"
@[irreducible] def checkN (T : Name) : Name := T ++ ".handler" ++ ".uniqueness_check"
@[irreducible] def dstN (T : Name) : Name := T ++ ".dst"
@[irreducible] def srcN (T : Name) : Name := T ++ ".src"
@[irreducible] def clientN (T : Name) : Name := T ++ ".client"
@[irreducible] def addrN (pr : Proto) (T : Name) : Name := T ++ pr.addr
@[irreducible] def rpcClientN (pr : Proto) (T : Name) : Name := T ++ pr.client
@[irreducible] def serverN (pr : Proto) (T : Name) : Name := T ++ pr.server
@[irreducible] def ctrN (T : Name) : Name := T ++ ".ctr"
@[irreducible] def ctrVisN (T : Name) : Name := T ++ ".ctr" ++ ".visibility"
@[irreducible] def ctrCheckN (T : Name) : Name := T ++ ".ctr" ++ ".uniqueness_check"
@[irreducible] def ctrAddrN (T : Name) : Name := T ++ ".addr"
@[irreducible] def subN (T x : Name) : Name := T ++ "." ++ x

/-- The service's address, the node that dials it and the node that binds it. -/
def Svc.addrN (S : Svc) : Name := if S.back then ctrAddrN S.name else Compile.addrN S.proto S.name
def Svc.rpcClientN (S : Svc) : Name := if S.back then clientN S.name else Compile.rpcClientN S.proto S.name
def Svc.serverN (S : Svc) : Name := if S.back then ctrN S.name else Compile.serverN S.proto S.name

def clients (T : Name) (ws : List (Bool × Name)) : List Name := (ws.filter (·.1)).map fun w => subN T w.2
def servers (T : Name) (ws : List (Bool × Name)) : List Name := (ws.filter (!·.1)).map fun w => subN T w.2

def baseNames (T : Name) : List Name := [T, handlerN T, visN T, checkN T, dstN T, srcN T, clientN T]

/-- Names and the names of what follows them. -/
def withNext (cs : List Name) : List Name := cs.flatMap fun x => [x, nextOf x]

def wrapNames (T : Name) (ws : List (Bool × Name)) : List Name :=
  baseNames T ++ nextOf (clientN T) :: withNext (clients T ws) ++ servers T ws

def rpcNames (S : Svc) : List Name :=
  [S.addrN, bindName S.addrN, dialName S.addrN, S.rpcClientN, nextOf S.rpcClientN, S.serverN]

def Svc.coreNames (S : Svc) : List Name :=
  if S.back then [S.name, dstN S.name, srcN S.name, ctrVisN S.name, ctrCheckN S.name] else wrapNames S.name S.wraps

/-- All names that the wiring spec has for the service. -/
def Svc.names (S : Svc) : List Name :=
  S.coreNames ++ (if S.rpc then rpcNames S else []) ++ S.places.map (subN S.name)

/-! ### Applications -/

/-- The services of an application, and its namespaces with their levels (processes 1, containers 2 …). -/
structure App where
  svcs : List Svc
  spaces : List (Name × Nat)

/-- In namespace `sp` the service can be called: it is built there; or it is deployed (or a backend) and the outermost of the
namespaces that it was put into can be found from `sp` outwards. -/
def Svc.Usable (S : Svc) (sp : Space) : Prop :=
  (S.back = false ∧ sp = S.home) ∨ (S.rpc = true ∧ sp.drop (S.base + S.places.length) = S.ctx)

/-- The name is one that the wiring spec does not have. -/
def App.Free (A : App) (a : Name) : Prop := (∀ S ∈ A.svcs, a ∉ S.names) ∧ ∀ x l, (x, l) ∈ A.spaces → a ≠ x

/-- An argument of a constructor: a string, or a service that can be called.  Services that are not deployed must be of lower
rank, that is, they do not depend on each other in a circle. -/
def App.ArgOk (A : App) (rank : Name → Nat) (S : Svc) (str : Bool) (a : Name) : Prop :=
  (str = true ∧ A.Free a) ∨ ∃ U ∈ A.svcs, U.name = a ∧ U.Usable S.home ∧ (U.rpc = false → rank U.name < rank S.name)

/-- Dotless: a name without dots. -/
def NoDot (n : Name) : Prop := '.' ∉ n.toList

structure App.Fits (A : App) (rank : Name → Nat) : Prop where
  /-- the names of services and namespaces are different and without dots, and so are the names that plugins make for a service -/
  one : ∀ S ∈ A.svcs, ∀ S' ∈ A.svcs, S.name = S'.name → S = S'
  own : ∀ S ∈ A.svcs, NoDot S.name ∧ S.names.Nodup ∧ ∀ l, (S.name, l) ∉ A.spaces
  dotless : ∀ x l, (x, l) ∈ A.spaces → NoDot x
  level : ∀ x l l', (x, l) ∈ A.spaces → (x, l') ∈ A.spaces → l = l'
  /-- a service is in a process, which is in a container, and so on; a backend is in a deployment, and so on -/
  homes : ∀ S ∈ A.svcs, ∀ a x b, S.home = a ++ x :: b → (x, S.base + a.length + 1) ∈ A.spaces
  /-- a process or container is in one place only -/
  nested : ∀ S ∈ A.svcs, ∀ S' ∈ A.svcs, ∀ a x b a' b', S.home = a ++ x :: b → S'.home = a' ++ x :: b' → b = b'
  args : ∀ S ∈ A.svcs, S.ctor.length = S.args.length ∧ ∀ str a, (str, a) ∈ S.ctor.zip S.args → A.ArgOk rank S str a
  /-- a backend is called over the network; it depends on nothing and is not wrapped -/
  backs : ∀ S ∈ A.svcs, S.back = true → S.rpc = true ∧ S.ctor = [] ∧ S.args = [] ∧ S.wraps = []

/-- These declarations, in whatever order, are those of the application: each service's own declarations are in order. -/
structure App.Declared (A : App) (ds : List Decl) : Prop where
  services : ∀ S ∈ A.svcs, ds.filter (fun d => d.about == some S.name) = S.decls
  spaces : ∀ x l, (x, l) ∈ A.spaces ↔ .space x l ∈ ds
  nothingElse : ∀ d ∈ ds, ∀ T, d.about = some T → ∃ S ∈ A.svcs, S.name = T

/-! ### The nodes of an application -/

/-- The wrappers around a call, outermost first. -/
def wrapIn (xs : List Name) (t : Tree) : Tree := xs.foldr .wrap t

/-- The wrappers around a server, outermost last. -/
def wrapOut (xs : List Name) (t : Tree) : Tree := xs.foldl (fun t x => .wrap x t) t

/-- What runs in the service's process, if `h` is the service. -/
def Svc.servedTree (S : Svc) (h : Tree) : Tree :=
  if S.back then .container S.serverN S.addrN
  else if S.rpc then .grpcServer S.serverN (wrapOut (servers S.name S.wraps) h) S.addrN else wrapOut (servers S.name S.wraps) h

/-- What the innermost of the service's clients calls: over the network, or the service itself. -/
def Svc.calledTree (S : Svc) (h : Tree) : Tree :=
  if S.rpc then .grpcClient S.rpcClientN S.addrN else wrapOut (servers S.name S.wraps) h

/-- What a caller of the service holds. -/
def Svc.clientTree (S : Svc) (h : Tree) : Tree :=
  if S.back then S.calledTree h else wrapIn (clientN S.name :: clients S.name S.wraps) (S.calledTree h)

/-- What an argument of a constructor is, if `H` are the services: a client of the service with this name, or the string. -/
def App.argTree (A : App) (H : Svc → Tree) (a : Name) : Tree :=
  match A.svcs.find? (fun U => U.name == a) with
  | some U => U.clientTree (H U)
  | none => .value a

/-- What can be asked to be built: services that can be called from the application itself, and outermost namespaces of services. -/
def App.Requests (A : App) (nodes : List Name) : Prop :=
  ∀ n ∈ nodes, (∃ S ∈ A.svcs, n = S.name ∧ S.Usable []) ∨ ∃ S ∈ A.svcs, ∃ a, S.places = a ++ [n] ∧ S.ctx = []

/-- The services that have to be built: those asked for, those in namespaces that were asked for, those in namespaces of services that are
built, and those that services that are built depend on. -/
inductive App.Active (A : App) (nodes : List Name) : Svc → Prop where
  | requested {S : Svc} : S ∈ A.svcs → S.name ∈ nodes → A.Active nodes S
  | space {S : Svc} {x : Name} : S ∈ A.svcs → x ∈ nodes → x ∈ S.places → A.Active nodes S
  | beside {S U : Svc} {x : Name} : A.Active nodes S → x ∈ S.home → U ∈ A.svcs → x ∈ U.places → A.Active nodes U
  | called {S U : Svc} {str : Bool} : A.Active nodes S → (str, U.name) ∈ S.ctor.zip S.args → U ∈ A.svcs → A.Active nodes U

/-- The service is called from the namespace. -/
def App.Calls (A : App) (nodes : List Name) (sp : Space) (U : Svc) : Prop :=
  U ∈ A.svcs ∧ ((sp = [] ∧ U.name ∈ nodes) ∨ ∃ S str, A.Active nodes S ∧ sp = S.home ∧ (str, U.name) ∈ S.ctor.zip S.args)

/-- The nodes of each namespace. -/
inductive App.Expected (A : App) (nodes : List Name) (H : Svc → Tree) : Space → Tree → Prop where
  /-- at home: the service, -/
  | handler {S : Svc} : A.Active nodes S → S.back = false → A.Expected nodes H S.home (H S)
  /-- its wrappers, -/
  | serverWrap {S : Svc} {l1 l2 : List Name} {x : Name} : A.Active nodes S → S.back = false → servers S.name S.wraps = l1 ++ x :: l2 →
      A.Expected nodes H S.home (wrapOut (l1 ++ [x]) (H S))
  /-- and its gRPC, HTTP or Thrift server; or the container of a backend -/
  | server {S : Svc} : A.Active nodes S → S.rpc = true → A.Expected nodes H S.home (S.servedTree (H S))
  /-- where it is called: a client, -/
  | client {S : Svc} {sp : Space} : A.Calls nodes sp S → S.back = false → A.Expected nodes H sp (S.clientTree (H S))
  /-- the client's wrappers, -/
  | clientWrap {S : Svc} {sp : Space} {l1 l2 : List Name} {x : Name} : A.Calls nodes sp S → S.back = false → clients S.name S.wraps = l1 ++ x :: l2 →
      A.Expected nodes H sp (wrapIn (x :: l2) (S.calledTree (H S)))
  /-- and a gRPC, HTTP or Thrift client; or the client of a backend -/
  | grpcClient {S : Svc} {sp : Space} : A.Calls nodes sp S → S.rpc = true →
      A.Expected nodes H sp (.grpcClient S.rpcClientN S.addrN)
  /-- in the application: metadata and addresses -/
  | visibility {S : Svc} : A.Active nodes S → S.back = false → A.Expected nodes H [] (.visibility (visN S.name))
  | addr {S : Svc} : A.Active nodes S → S.rpc = true → A.Expected nodes H [] (.addr S.addrN)
  | bind {S : Svc} : A.Active nodes S → S.rpc = true → A.Expected nodes H [] (.bind (bindName S.addrN))
  | dial {S : Svc} {sp : Space} : A.Calls nodes sp S → S.rpc = true → A.Expected nodes H [] (.dial (dialName S.addrN))
  /-- processes in their containers, and so on -/
  | space {S : Svc} {a b : Space} {x : Name} : A.Active nodes S → S.home = a ++ x :: b → A.Expected nodes H b (.space x)

/-- What each namespace gets from outside: the addresses that its servers bind and its clients dial. -/
inductive App.Needed (A : App) (nodes : List Name) : Space → Tree → Prop where
  | bind {S : Svc} {a b : Space} {x : Name} : A.Active nodes S → S.rpc = true → S.home = a ++ x :: b →
      A.Needed nodes (x :: b) (.bind (bindName S.addrN))
  | dial {S : Svc} {a b : Space} {x : Name} : A.Calls nodes (a ++ x :: b) S → S.rpc = true →
      A.Needed nodes (x :: b) (.dial (dialName S.addrN))

end Verif.Compile
