import Verif.GoCode.Model
/-
Model of the Go parser that reads workflow specs, /repo/plugins/golang/goparser/parser.go, and of the search for services in
/repo/plugins/workflow/workflowspec/{service,spec}.go.

The input is the syntax tree that go/parser returns, which is assumed to be that of a package that compiles.
Simplifications:
* Bodies of functions, variables, constants and comments are left out.
* Go maps keyed by a name are association lists in which an insertion replaces the entry with the same key.  Go iterates over
  a map in any order; where the code does, the function takes the entries as a list in the order of the iteration, and the
  theorems are about all orders.
* Printing is left out.
-/
namespace Verif.GoParse

abbrev Name := List Char

/-! ### Syntax -/

inductive Dir where
  | both | send | recv
deriving DecidableEq

/-- The type expressions of go/ast.  Function, struct and interface types have their text only: the code does not look inside. -/
inductive Expr where
  | ident (n : Name)
  /-- with a length, an array type, and without, a slice type -/
  | array (len : Option Nat) (elt : Expr)
  | map (key value : Expr)
  | iface (text : Name)
  /-- `pkg.Name` -/
  | selector (pkg name : Name)
  | star (of : Expr)
  | ellipsis (elt : Expr)
  | chan (dir : Dir) (value : Expr)
  | func (text : Name)
  | struct (text : Name)
  /-- `IndexExpr`, `IndexListExpr`: a generic type with one argument (more are alike) -/
  | index (of arg : Expr)
deriving DecidableEq

/-- `ast.Field`: names that share a type. -/
structure Group where
  names : List Name
  type : Expr

structure Sig where
  params : List Group
  results : List Group

inductive Member where
  | method (name : Name) (sig : Sig)
  /-- an embedded interface or a type constraint -/
  | embedded
inductive Body where
  | iface (members : List Member)
  | struct (fields : List Group)
  | other

structure TypeDecl where
  name : Name
  params : List Name
  body : Body

inductive Recv where
  | value (n : Name)
  | pointer (n : Name)
  /-- `func (x *T[A]) ...` -/
  | pointerGeneric
  /-- `func (x T[A]) ...` -/
  | valueGeneric

structure FuncDecl where
  name : Name
  recv : Option Recv
  sig : Sig

structure Import where
  path : Name
  name : Option Name

structure File where
  imports : List Import
  types : List TypeDecl
  funcs : List FuncDecl

/-! ### Maps -/

/-- `m[k] = v`. -/
def insert {α : Type} (k : Name) (v : α) : List (Name × α) → List (Name × α)
  | [] => [(k, v)]
  | (k', v') :: m => if k' = k then (k, v) :: m else (k', v') :: insert k v m

/-! ### Types -/

/-- A `gocode.TypeName` as the parser makes it.  `nil` is the nil interface; a generic type has no type parameter: the field
`TypeParam` stays nil. -/
inductive Ty where
  | nil
  | basic (name : Name)
  | user (pkg name : Name)
  | slice (of : Ty)
  | ellipsis (of : Ty)
  | pointer (to : Ty)
  | map (key value : Ty)
  | chan (of : Ty)
  | recv (of : Ty)
  | send (of : Ty)
  | iface
  | any
  | func
  | struct
  | generic (base : Ty)
  | param (name : Name)
deriving DecidableEq, Repr

/-- `initBasics` (gocode/typename.go lines 36-54). -/
def basics : List Name :=
  ["bool", "string", "int", "int8", "int16", "int32", "int64", "uint", "uint8", "uint16", "uint32", "uint64", "byte", "rune",
    "float32", "float64", "complex64", "complex128", "error"].map String.toList

def anyName : Name := ['a', 'n', 'y']

/-- The part after the last slash. -/
def lastPart (path : Name) : Name := (path.reverse.takeWhile (· != '/')).reverse

/-- `importedAs` (parser.go lines 464-474). -/
def Import.as (i : Import) : Name := i.name.getD (lastPart i.path)

/-- `LoadImports` (lines 453-483): the imports with `.`, and the others by name. -/
def File.anonymous (f : File) : List Name := (f.imports.filter fun i => i.as = ['.']).map (·.path)
def File.named (f : File) : List (Name × Name) :=
  (f.imports.filter fun i => i.as ≠ ['.']).foldl (fun m i => insert i.as i.path m) []

/-- `ResolveIdent` (lines 372-398).  `declared` are the names of the types of the package `pkg`. -/
def resolveIdent (pkg : Name) (declared : List Name) (f : File) (params : List Name) (name : Name) : Ty :=
  if name ∈ basics then .basic name
  else if name = anyName then .any
  else if name ∈ declared then .user pkg name
  else if name ∈ params then .param name
  else match f.anonymous with
    | [p] => .user p name
    | _ => .nil

/-- `ResolveSelector` (lines 400-408). -/
def resolveSelector (f : File) (p name : Name) : Ty :=
  match f.named.lookup p with
  | none => .nil
  | some path => .user path name

/-- `ResolveType` (lines 412-451). -/
def resolve (pkg : Name) (declared : List Name) (f : File) (params : List Name) : Expr → Ty
  | .ident n => resolveIdent pkg declared f params n
  | .array _ e => .slice (resolve pkg declared f params e)
  | .map k v => .map (resolve pkg declared f params k) (resolve pkg declared f params v)
  | .iface _ => .iface
  | .selector p n => resolveSelector f p n
  | .star e => .pointer (resolve pkg declared f params e)
  | .ellipsis e => .ellipsis (resolve pkg declared f params e)
  | .chan .send e => .send (resolve pkg declared f params e)
  | .chan .recv e => .recv (resolve pkg declared f params e)
  | .chan .both e => .chan (resolve pkg declared f params e)
  | .func _ => .func
  | .struct _ => .struct
  | .index e _ => .generic (resolve pkg declared f params e)

/-- `Equals` (gocode/typename.go lines 342-493); `none` is a panic: a method of a nil interface is called. -/
def Ty.equals : Ty → Ty → Option Bool
  | .nil, _ => none
  | .basic a, .basic b => some (a == b)
  | .user p a, .user q b => some (p == q && a == b)
  | .slice a, .slice b => a.equals b
  | .ellipsis a, .ellipsis b => a.equals b
  | .pointer a, .pointer b => a.equals b
  | .map k v, .map k' v' => match k.equals k' with
    | some true => v.equals v'
    | r => r
  | .chan a, .chan b => a.equals b
  | .recv a, .recv b => a.equals b
  | .send a, .send b => a.equals b
  | .iface, .iface => some true
  | .any, .any => some true
  | .func, .func => some true
  | .struct, .struct => some true
  | .generic a, .generic b => match a.equals b with
    -- `t.TypeParam.Equals` (line 481), where `t.TypeParam` is nil
    | some true => none
    | r => r
  | .param a, .param b => some (a == b)
  | _, _ => some false

/-! ### Functions -/

structure Var where
  name : Name
  type : Ty
deriving DecidableEq

structure Func where
  name : Name
  args : List Var
  rets : List Var
deriving DecidableEq

/-- The loops of `ParsedFunc.Parse` (parser.go lines 323-340 and 342-359): `none` is an error. -/
def variables (ty : Expr → Ty) : List Group → Option (List Var)
  | [] => some []
  | g :: gs =>
    if ty g.type = .nil then none
    else match variables ty gs with
      | none => none
      | some vs => some ((if g.names = [] then [⟨[], ty g.type⟩] else g.names.map fun n => ⟨n, ty g.type⟩) ++ vs)

/-- `ParsedFunc.Parse` (lines 321-361). -/
def parseFunc (ty : Expr → Ty) (name : Name) (s : Sig) : Option Func :=
  match variables ty s.params with
  | none => none
  | some args => match variables ty s.results with
    | none => none
    | some rets => some ⟨name, args, rets⟩

/-! ### Packages -/

/-- A function or method that has been found but not parsed yet: with the file in which it is. -/
structure Found where
  file : File
  name : Name
  sig : Sig

structure IfaceDecl where
  methods : List (Name × Found)
structure Field where
  /-- the first name of the group, or nothing for an embedded field -/
  name : Option Name
  type : Expr
structure StructDecl where
  file : File
  params : List Name
  fields : List Field
  methods : List (Name × Found)

structure Pkg where
  name : Name
  declared : List Name := []
  ifaces : List (Name × IfaceDecl) := []
  structs : List (Name × StructDecl) := []
  funcs : List (Name × Found) := []

/-- The loop over the methods of an interface (parser.go lines 533-545): what has been loaded, and whether it went through. -/
def loadMembers (f : File) : List Member → List (Name × Found) → List (Name × Found) × Bool
  | [], m => (m, true)
  | .embedded :: _, m => (m, false)
  | .method n s :: ms, m => loadMembers f ms (insert n ⟨f, n, s⟩ m)

/-- The loop over the fields of a struct (lines 565-579): a field group gives one field. -/
def loadField (g : Group) : Field := ⟨g.names.head?, g.type⟩

/-- One type declaration (lines 498-582). -/
def loadType (f : File) (d : TypeDecl) (p : Pkg) : Pkg × Bool :=
  let p := { p with declared := d.name :: p.declared }
  match d.body with
  | .iface ms =>
    let r := loadMembers f ms []
    ({ p with ifaces := insert d.name ⟨r.1⟩ p.ifaces }, r.2)
  | .struct gs => ({ p with structs := insert d.name ⟨f, d.params, gs.map loadField, []⟩ p.structs }, true)
  | .other => (p, true)

/-- `LoadStructsAndInterfaces` (lines 494-585). -/
def loadTypes (f : File) : List TypeDecl → Pkg → Pkg × Bool
  | [], p => (p, true)
  | d :: ds, p => match loadType f d p with
    | (p, false) => (p, false)
    | (p, true) => loadTypes f ds p

/-- The name of the receiver's type (lines 651-669); `none` is an error. -/
def Recv.typeName : Recv → Option Name
  | .value n => some n
  | .pointer n => some n
  | .pointerGeneric => none
  | .valueGeneric => some []

/-- One function declaration (lines 625-677). -/
def loadFunc (f : File) (d : FuncDecl) (p : Pkg) : Pkg × Bool :=
  match d.recv with
  | none => ({ p with funcs := insert d.name ⟨f, d.name, d.sig⟩ p.funcs }, true)
  | some r => match r.typeName with
    | none => (p, false)
    | some n => match p.structs.lookup n with
      | none => (p, false)
      | some s => ({ p with structs := insert n { s with methods := insert d.name ⟨f, d.name, d.sig⟩ s.methods } p.structs }, true)

/-- `LoadFuncs` (lines 622-680). -/
def loadFuncs (f : File) : List FuncDecl → Pkg → Pkg × Bool
  | [], p => (p, true)
  | d :: ds, p => match loadFunc f d p with
    | (p, false) => (p, false)
    | (p, true) => loadFuncs f ds p

/-- The loop over the files that loads types (lines 253-258). -/
def loadAllTypes : List File → Pkg → Pkg × Bool
  | [], p => (p, true)
  | f :: fs, p => match loadTypes f f.types p with
    | (p, false) => (p, false)
    | (p, true) => loadAllTypes fs p

/-- The loop over the files that loads functions (lines 263-272). -/
def loadAllFuncs : List File → Pkg → Pkg × Bool
  | [], p => (p, true)
  | f :: fs, p => match loadFuncs f f.funcs p with
    | (p, false) => (p, false)
    | (p, true) => loadAllFuncs fs p

/-- `ParsedPackage.Load` (lines 225-275).  The two loops range over the map of the files, each in its own order.  The error is
dropped by the caller (line 213), and the package is used as far as it was loaded. -/
def load (name : Name) (files1 files2 : List File) : Pkg :=
  match loadAllTypes files1 { name } with
  | (p, false) => p
  | (p, true) => (loadAllFuncs files2 p).1

/-! ### Parsed packages -/

structure Iface where
  pkg : Name
  name : Name
  methods : List (Name × Func)
deriving DecidableEq
structure Struct where
  pkg : Name
  name : Name
  fields : List (Option Name × Ty)
  methods : List (Name × Func)
deriving DecidableEq
structure Parsed where
  name : Name
  ifaces : List (Name × Iface)
  structs : List (Name × Struct)
  funcs : List (Name × Func)

/-- `ParsedFunc.Parse` for all entries of a map: an error anywhere is an error. -/
def parseFuncs (p : Pkg) : List (Name × Found) → Option (List (Name × Func))
  | [] => some []
  | (k, g) :: m => match parseFunc (resolve p.name p.declared g.file []) g.name g.sig with
    | none => none
    | some x => match parseFuncs p m with
      | none => none
      | some xs => some ((k, x) :: xs)

/-- `ParsedField.Parse` (lines 313-319). -/
def parseFields (p : Pkg) (s : StructDecl) : List Field → Option (List (Option Name × Ty))
  | [] => some []
  | f :: fs =>
    let t := resolve p.name p.declared s.file s.params f.type
    if t = .nil then none
    else match parseFields p s fs with
      | none => none
      | some r => some ((f.name, t) :: r)

def parseIfaces (p : Pkg) : List (Name × IfaceDecl) → Option (List (Name × Iface))
  | [] => some []
  | (k, i) :: m => match parseFuncs p i.methods with
    | none => none
    | some ms => match parseIfaces p m with
      | none => none
      | some r => some ((k, ⟨p.name, k, ms⟩) :: r)

def parseStructs (p : Pkg) : List (Name × StructDecl) → Option (List (Name × Struct))
  | [] => some []
  | (k, s) :: m => match parseFuncs p s.methods with
    | none => none
    | some ms => match parseFields p s s.fields with
      | none => none
      | some fs => match parseStructs p m with
        | none => none
        | some r => some ((k, ⟨p.name, k, fs, ms⟩) :: r)

/-- `ParsedPackage.Parse` (lines 277-311). -/
def parse (p : Pkg) : Option Parsed :=
  match parseIfaces p p.ifaces with
  | none => none
  | some ifaces => match parseStructs p p.structs with
    | none => none
    | some structs => match parseFuncs p p.funcs with
      | none => none
      | some funcs => some ⟨p.name, ifaces, structs, funcs⟩

/-! ### Services (workflowspec/service.go) -/

def context : Ty := .user "context".toList "Context".toList
def error : Ty := .basic "error".toList

/-- `isInterfaceAValidService` (lines 135-157). -/
def isValidService (i : Iface) : Bool := i.methods.all fun (_, m) =>
  (match m.args with
    | [] => false
    | a :: _ => a.type == context) &&
  (match m.rets.getLast? with
    | none => false
    | some r => r.type == error)

/-- `sameTypes` (gocode/service.go lines 100-113). -/
def sameTypes : List Var → List Var → Option Bool
  | [], [] => some true
  | a :: as, b :: bs =>
    if as.length ≠ bs.length then some false
    else match a.type.equals b.type with
      | some true => sameTypes as bs
      | r => r
  | _, _ => some false

/-- `Func.Equals` (gocode/service.go lines 115-117). -/
def Func.equals (f g : Func) : Option Bool :=
  if f.name ≠ g.name then some false
  else match sameTypes f.args g.args with
    | some true => sameTypes f.rets g.rets
    | r => r

/-- `implements` (lines 197-208); `methods` are those of the interface in the order of the iteration; `none` is a panic. -/
def implements (s : Struct) : (methods : List (Name × Func)) → Option Bool
  | [] => some true
  | (n, m) :: ms => match s.methods.lookup n with
    | none => some false
    | some m' => match m.equals m' with
      | some true => implements s ms
      | r => r

/-- `validateConstructorSignature` (lines 243-270). -/
def validConstructor (f : Func) : Bool :=
  (match f.rets with
    | [_, e] => e.type == error
    | _ => false) &&
  (match f.args with
    | [] => false
    | a :: _ => a.type == context)

/-- `isConstructorOfIface`, `isConstructorOfStruct` (lines 272-315): the first result has the type. -/
def constructs (t : Ty) (f : Func) : Bool := validConstructor f &&
  (match f.rets with
    | r :: _ => r.type == t
    | [] => false)

inductive Res (α : Type) where
  | ok (a : α) | error | panic
deriving DecidableEq

structure Service where
  iface : Iface
  constructor : Func
  struct : Struct
deriving DecidableEq

/-- `findStructsFor` (lines 180-192). -/
def findStructs (i : Iface) : List Struct → Option (List Struct)
  | [] => some []
  | s :: ss => match implements s i.methods with
    | none => none
    | some b => match findStructs i ss with
      | none => none
      | some r => some (if b then s :: r else r)

/-- `findInterfacesFor` (lines 162-175). -/
def findIfaces (s : Struct) : List Iface → Option (List Iface)
  | [] => some []
  | i :: is => match implements s i.methods with
    | none => none
    | some b => match findIfaces s is with
      | none => none
      | some r => some (if b then i :: r else r)

/-- `makeServiceFromInterface` (lines 99-129).  `funcs` and `structs` are those of all packages of all modules, in the order of the
iteration. -/
def serviceFromIface (i : Iface) (funcs : List Func) (structs : List Struct) : Res Service :=
  if isValidService i then
    match funcs.filter (constructs (.user i.pkg i.name)) with
    | [] => .error
    | c :: _ => match findStructs i structs with
      | none => .panic
      | some [] => .error
      | some (s :: _) => .ok ⟨i, c, s⟩
  else .error

/-- `makeServiceFromStruct` (lines 56-97). -/
def serviceFromStruct (s : Struct) (funcs : List Func) (ifaces : List Iface) : Res Service :=
  match findIfaces s ifaces with
  | none => .panic
  | some found => match found.filter isValidService with
    | [] => .error
    | i :: _ => match funcs.filter (constructs (.pointer (.user s.pkg s.name))) with
      | [] => .error
      | c :: _ => .ok ⟨i, c, s⟩

/-- The methods of `ServiceInterface` (parser.go lines 707-721): without the first argument and the last result; `none` is a
panic. -/
def serviceMethods : List (Name × Func) → Option (List (Name × Func))
  | [] => some []
  | (n, m) :: ms =>
    if m.args = [] ∨ m.rets = [] then none
    else (serviceMethods ms).map ((n, ⟨m.name, m.args.drop 1, m.rets.take (m.rets.length - 1)⟩) :: ·)

/-! ### Output (workflowspec/service.go) -/

/-- A module that a service needs. -/
structure Module where
  name : Name
  isLocal : Bool
deriving DecidableEq

/-- A workspace builder: the names visited and the modules added. -/
structure Workspace where
  visited : List Name := []
  added : List Name := []

/-- `Visited` (gogen/workspacebuilder.go): whether it was visited, and from now on it is. -/
def Workspace.visit (w : Workspace) (n : Name) : Bool × Workspace := (decide (n ∈ w.visited), { w with visited := n :: w.visited })

/-- `Service.AddToWorkspace` (lines 44-54), for the modules of the interface and the constructor.  Note the `return` in the
loop.  `AddLocalModule` is assumed to succeed. -/
def addToWorkspace (w : Workspace) : List Module → Workspace
  | [] => w
  | m :: ms =>
    if m.isLocal then
      match w.visit m.name with
      | (true, w) => addToWorkspace w ms
      | (false, w) => { w with added := w.added ++ [m.name] }
    else addToWorkspace w ms

end Verif.GoParse
