import Verif.GoCode.Model
/-
Model of /repo/plugins/golang/gogen/{workspacebuilder,namespacebuilder}.go.
-/
namespace Verif.GoGen
open Verif.GoCode (Name shortName numbered)

/-! ### Workspaces -/

/-- `m[k] = v` on a Go map kept as a list of pairs with different keys. -/
def put (m : List (Name × Name)) (k v : Name) : List (Name × Name) := (k, v) :: m.filter (fun e => e.1 != k)

/-- `WorkspaceBuilderImpl` (workspacebuilder.go lines 23-29). -/
structure Workspace where
  moduleDirs : List (Name × Name) := []   -- module to directory
  modules : List (Name × Name) := []      -- directory to module
  generated : List (Name × Name) := []
  /-- what is on disk: directory and module whose go.mod was written there last -/
  disk : List (Name × Name) := []

/-- `CreateModule` (lines 64-98): the directory, or `none` for an error.  The search for an unused
subdirectory (lines 73-79) computes a value that is not used afterwards, so it is left out.
Simplification: file system operations succeed. -/
def createModule (w : Workspace) (module : Name) : Option Name × Workspace :=
  if (w.moduleDirs.lookup module).isSome then (none, w)
  else
    let dir := shortName module
    (some dir, { moduleDirs := put w.moduleDirs module dir
                 modules := put w.modules dir module
                 generated := put w.generated dir module
                 disk := put w.disk dir module })

/-- `AddLocalModule` (lines 101-146), for a readable go.mod that declares `module`. -/
def addLocalModule (w : Workspace) (dir module : Name) : Option Name × Workspace :=
  match w.moduleDirs.lookup module with
  | some existing => if existing ≠ dir then (none, w) else (some existing, w)
  | none =>
    let w := { w with moduleDirs := put w.moduleDirs module dir }
    match w.modules.lookup dir with
    | some existing => if existing ≠ module then (none, w) else (some dir, w)
    | none => (some dir, { w with modules := put w.modules dir module, disk := put w.disk dir module })

inductive WOp where
  | create (module : Name)
  | addLocal (dir module : Name)

def WOp.module : WOp → Name
  | .create m => m
  | .addLocal _ m => m

def wstep (w : Workspace) : WOp → Option Name × Workspace
  | .create m => createModule w m
  | .addLocal d m => addLocalModule w d m

/-- The results of a sequence of calls on a workspace, and the workspace afterwards. -/
def wrun (w : Workspace) : List WOp → List (Option Name) × Workspace
  | [] => ([], w)
  | op :: ops =>
    let (r, w') := wstep w op
    let (rs, w'') := wrun w' ops
    (r :: rs, w'')

/-! ### Namespace files -/

/-- A statement of the generated file, in the functions printed by `diFuncTemplate`
(namespacebuilder.go lines 248-279). -/
inductive Stmt where
  | required (name description : Name)
  | optional (name description : Name)
  | instantiate (name : Name)
  | define (name src : Name)
deriving DecidableEq

/-- `NamespaceBuilderImpl` (lines 21-35), without file names and imports. -/
structure NsBuilder where
  declarations : List (Name × Name) := []
  required : List (Name × Name) := []
  optional : List (Name × Name) := []
  instantiations : List Name := []

inductive NOp where
  | requiredArg (name description : Name)
  | optionalArg (name description : Name)
  | instantiate (name : Name)
  | declare (name src : Name)

/-- `RequiredArg`, `OptionalArg`, `Instantiate`, `Declare` (lines 104-131): false for an error. -/
def nstep (n : NsBuilder) : NOp → Bool × NsBuilder
  | .requiredArg k d => (true, { n with required := put n.required k d })
  | .optionalArg k d => (true, { n with optional := put n.optional k d })
  | .instantiate k =>
    if k ∈ n.instantiations then (true, n) else (true, { n with instantiations := n.instantiations ++ [k] })
  | .declare k src =>
    if (n.declarations.lookup k).isSome then (false, n)
    else (true, { n with declarations := put n.declarations k src })

def nrun (n : NsBuilder) : List NOp → List Bool × NsBuilder
  | [] => ([], n)
  | op :: ops =>
    let (r, n') := nstep n op
    let (rs, n'') := nrun n' ops
    (r :: rs, n'')

/-- The generated file (`Build`, lines 282-285).  Simplification: the template prints maps in key order;
here they appear in some order. -/
def NsBuilder.file (n : NsBuilder) : List Stmt :=
  n.required.map (fun e => .required e.1 e.2) ++ n.optional.map (fun e => .optional e.1 e.2) ++
  n.instantiations.map .instantiate ++ n.declarations.map (fun e => .define e.1 e.2)

/-! ### Generated constructor calls -/

/-- A constructor argument: metadata, a literal value, or any other node, given by its name. -/
inductive Arg where
  | metadata
  | value (literal : Name)
  | node (name : Name)

/-- An expression in the generated call: a literal or a variable. -/
inductive Expr where
  | literal (l : Name)
  | var (v : Name)

/-- The generated build function (`buildFuncTemplate`, lines 150-159): variables read from nodes of the
namespace `n`, in order, and the arguments of the constructor call after the context. -/
structure BuildFunc where
  gets : List (Name × Name)      -- variable, node
  args : List Expr

/-- The loop of `DeclareConstructor` (lines 177-201), over the constructor's parameter names after the
context and the argument nodes. -/
def buildArgs : List Name → List Arg → Option BuildFunc
  | v :: vs, a :: as =>
    match a with
    | .metadata => none
    | .value l => (buildArgs vs as).map fun f => { f with args := .literal l :: f.args }
    | .node n => (buildArgs vs as).map fun f => { gets := (v, n) :: f.gets, args := .var v :: f.args }
  | _, _ => some { gets := [], args := [] }

/-- `DeclareConstructor` (lines 162-209) up to the declaration: `params` are all parameter names of the
constructor, including the context. -/
def declareConstructor (params : List Name) (args : List Arg) : Option BuildFunc :=
  if params.length ≠ args.length + 1 then none else buildArgs params.tail args

/-- A value passed to the constructor when the generated function runs. -/
inductive Val where
  | literal (l : Name)
  | nodeValue (name : Name)
deriving DecidableEq

/-- Go's semantics of the generated function.  `var v T` hides an earlier meaning of `v`; the function uses
`n` for the namespace and `err` within each read.  A read through `n` after a variable `n` was declared, and
redeclaring a variable, do not compile: `none`. -/
def runGets (env : List (Name × Val)) : List (Name × Name) → Option (List (Name × Val))
  | [] => some env
  | (v, node) :: rest =>
    if v = ['n'] then none                             -- `n.Get` would be called on the variable
    else if v = ['e', 'r', 'r'] then none              -- `&err` would be the error declared in the `if`
    else if (env.lookup v).isSome then none            -- redeclared
    else runGets ((v, .nodeValue node) :: env) rest

def evalExpr (env : List (Name × Val)) : Expr → Option Val
  | .literal l => some (.literal l)
  | .var v => env.lookup v

/-- The values passed to the constructor after the context. -/
def BuildFunc.run (f : BuildFunc) : Option (List Val) :=
  (runGets [] f.gets).bind fun env => f.args.mapM (evalExpr env)

end Verif.GoGen
