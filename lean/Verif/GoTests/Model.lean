import Verif.GoCode.Model
import Verif.GoGen.Model
import Verif.Registry.Model
/-
Model of the gotests plugin, /repo/plugins/gotests/{findtests,ir}.go and codegen/blueprint_clients.go.go: which service registries of the test
packages get which clients, and what the generated packages do when `go test` runs them.

The registries themselves are the ones of `Registry/Model.lean`, the workspace is the one of `GoGen/Model.lean`.
-/
namespace Verif.GoTests
open Verif.GoCode (Name Ty Iface contains)

/-- Go expressions, as far as `isTestRegistryCall` looks at them. -/
inductive Expr where
  | ident (name : Name)
  | sel (x : Expr) (name : Name)
  | index (x i : Expr)
  | call (f : Expr) (args : List Expr)
  | other

/-- A variable declaration with the expressions on its right-hand side (goparser's `ParsedVar`, parser.go lines 101-105). -/
structure Var where
  name : Name
  values : List Expr

/-- What a registration builds: something of the test's own, or the client for a node of the generated client library. -/
inductive Build where
  | own (k : Nat)
  | client (node : Name)
deriving DecidableEq, Repr

/-- A statement of an `init` function.  Simplification: the init functions of tests do nothing else to the registries. -/
inductive Stmt where
  | register (var name : Name) (build : Build)
  | setDefault (var name : Name)
deriving DecidableEq, Repr

/-- A file of a test package; `test` says that its name ends in `_test.go`. -/
structure File where
  name : Name
  test : Bool
  vars : List Var
  init : List Stmt

/-- A package of the workflow spec's modules: its path, the module's path, and the last element of the module's directory. -/
structure Pkg where
  path : Name
  module : Name
  subdir : Name
  files : List File

def registryIdent : Name := "registry".toList
def newRegistryIdent : Name := "NewServiceRegistry".toList

/-- `isTestRegistryCall` (findtests.go lines 108-126). -/
def isTestRegistryCall : List Expr → Option Expr
  | [.call (.index (.sel (.ident x) s) t) _] => if x = registryIdent ∧ s = newRegistryIdent then some t else none
  | _ => none

/-- `serviceRegistry` (findtests.go lines 15-20). -/
structure Reg where
  pkg : Pkg
  var : Name
  type : Ty
  iface : Option Iface

/-- What the workflow spec knows of types (findtests.go lines 72-80 and 104): `ResolveType` in a file, and the interface of a service
type, if there is one. -/
structure Types where
  resolve : File → Expr → Ty
  iface : Ty → Option Iface

/-- The registries of a package, variable by variable (findtests.go lines 62-85). -/
def registriesOf (ts : Types) (p : Pkg) : List Reg :=
  p.files.flatMap fun f => f.vars.filterMap fun v =>
    (isTestRegistryCall v.values).map fun t => ⟨p, v.name, ts.resolve f t, ts.iface (ts.resolve f t)⟩

/-- `findWorkflowServiceRegistries` (findtests.go lines 51-94).  Go's maps of modules, packages and variables are lists here; the
theorems hold for every order. -/
def findRegistries (ts : Types) (pkgs : List Pkg) : List Reg := pkgs.flatMap (registriesOf ts)

/-- A service to test: its name, the node that was found for it, and the node's interface. -/
structure Service where
  name : Name
  node : Name
  type : Ty
  iface : Iface

/-- `serviceRegistries.Get` (findtests.go lines 26-38). -/
def getRegistries (regs : List Reg) (s : Service) : List Reg :=
  regs.filter fun r => s.type.equals r.type || contains (some s.iface) r.iface

/-- `clientRegistration` (codegen/blueprint_clients.go.go lines 32-37). -/
structure Client where
  name : Name
  var : Name
  type : Ty
  node : Name
deriving DecidableEq

/-- The map of builders (ir.go line 143): by package, the clients added so far. -/
abbrev Builders := List (Name × List Client)

/-- `AddClient` on the builder of a package (codegen/blueprint_clients.go.go lines 67-75). -/
def addClient (bs : Builders) (pkg : Name) (c : Client) : Builders :=
  bs.map fun b => if b.1 = pkg then (b.1, b.2 ++ [c]) else b

/-- One registry of one service (ir.go lines 164-186): the first time a package is seen its module is copied to the workspace.
`none` if that fails. -/
def addRegistration (state : GoGen.Workspace × Builders) (s : Service) (r : Reg) : Option (GoGen.Workspace × Builders) :=
  if (state.2.lookup r.pkg.path).isSome then some (state.1, addClient state.2 r.pkg.path ⟨s.name, r.var, r.type, s.node⟩)
  else
    match GoGen.addLocalModule state.1 r.pkg.subdir r.pkg.module with
    | (none, _) => none
    | (some _, ws) => some (ws, addClient (state.2 ++ [(r.pkg.path, [])]) r.pkg.path ⟨s.name, r.var, r.type, s.node⟩)

/-- The inner loop (ir.go line 164). -/
def addRegistrations (state : GoGen.Workspace × Builders) (s : Service) : List Reg → Option (GoGen.Workspace × Builders)
  | [] => some state
  | r :: rs => (addRegistration state s r).bind fun state => addRegistrations state s rs

/-- The outer loop of `GenerateArtifacts` (ir.go lines 149-188).  `ServicesToTest` is a map: the order of the services is arbitrary.
Simplification: every service has an interface. -/
def generate (state : GoGen.Workspace × Builders) (regs : List Reg) : List Service → Option (GoGen.Workspace × Builders)
  | [] => some state
  | s :: ss => (addRegistrations state s (getRegistries regs s)).bind fun state => generate state regs ss

/-- The name of the generated file (codegen/blueprint_clients.go.go line 79). -/
def clientsFile : Name := "blueprint_clients.go".toList

/-- The generated file (codegen/blueprint_clients.go.go lines 86-111). -/
def clientsGo (clients : List Client) : File :=
  ⟨clientsFile, false, [], clients.map fun c => .register c.var c.name (.client c.node)⟩

/-- The files of a test package in the output: the ones copied, and the generated one if the package has a builder.
Simplification: a file of that name is replaced (`ExecuteTemplateToFile` overwrites its beginning). -/
def outputFiles (bs : Builders) (p : Pkg) : List File :=
  match bs.lookup p.path with
  | none => p.files
  | some clients => p.files.filter (fun f => f.name ≠ clientsFile) ++ [clientsGo clients]

/-- File names in the order of their characters. -/
def File.le (f g : File) : Bool := decide (f.name ≤ g.name)

/-- What the init functions do when `go test` runs a package: the go command passes the compiler the files sorted by name, test files
after the others, and init functions run in this order (go/build `Package`, cmd/go's `load.TestPackagesFor`, the language
specification's "Package initialization"). -/
def initStmts (files : List File) : List Stmt :=
  ((files.filter (!·.test)).mergeSort File.le ++ (files.filter (·.test)).mergeSort File.le).flatMap (·.init)

/-- What they do to the registry in a variable. -/
def opsOf (R : Type) (code : Build → Nat) (var : Name) (stmts : List Stmt) : List (Registry.Op R) :=
  stmts.filterMap fun
    | .register v name b => if v = var then some (.register (String.ofList name) (code b)) else none
    | .setDefault v name => if v = var then some (.setDefault (String.ofList name)) else none

end Verif.GoTests
