import Verif.GoParse.Model
/-
What the Go language specification says about the names in a source file, written down without reference to the parser's
functions.
-/
namespace Verif.GoParse

/-! ### Types -/

/-- Go types; identical types are equal. -/
inductive GoTy where
  | predeclared (name : Name)
  | named (pkg name : Name)
  | slice (of : GoTy)
  | array (len : Nat) (of : GoTy)
  | variadic (of : GoTy)
  | pointer (to : GoTy)
  | map (key value : GoTy)
  | chan (dir : Dir) (of : GoTy)
  | inst (generic arg : GoTy)
  | param (name : Name)
  /-- function, struct and interface types, by kind, text and the package in which the text is to be read -/
  | literal (kind : Nat) (text pkg : Name)
deriving DecidableEq

/-- What surrounds a type expression. -/
structure Env where
  /-- the path of the package -/
  pkg : Name
  /-- the types declared in the package -/
  declared : List Name
  /-- the imports of the file -/
  imports : List Import
  /-- the type parameters in scope -/
  params : List Name
  /-- the name in the package clause of the packages with a path -/
  clause : Name → Name
  /-- the types exported by the packages with a path -/
  exports : Name → List Name

/-- Predeclared types ("Predeclared identifiers" in the Go specification), `byte`, `rune` and `any` being aliases. -/
def predeclaredTypes : List Name :=
  ["bool", "string", "int", "int8", "int16", "int32", "int64", "uint", "uint8", "uint16", "uint32", "uint64", "uintptr",
    "float32", "float64", "complex64", "complex128", "error"].map String.toList

/-- Predeclared identifiers as types. -/
def predeclared (n : Name) : Option GoTy :=
  if n = "byte".toList then some (.predeclared "uint8".toList)
  else if n = "rune".toList then some (.predeclared "int32".toList)
  else if n = "any".toList then some (.literal 0 [] [])
  else if n ∈ predeclaredTypes then some (.predeclared n)
  else none

/-- The packages imported with a dot that export the name. -/
def Env.dotted (env : Env) (n : Name) : List Name :=
  (env.imports.filter fun i => i.name = some ['.'] && decide (n ∈ env.exports i.path)).map (·.path)

/-- The name under which a package is imported: the given one or that of its package clause. -/
def Env.importName (env : Env) (i : Import) : Name := i.name.getD (env.clause i.path)

/-- The type that a name stands for ("Declarations and scope"): the innermost declaration counts, type parameters before the
package and imports, and those before predeclared names. -/
def Env.ident (env : Env) (n : Name) : Option GoTy :=
  if n ∈ env.params then some (.param n)
  else if n ∈ env.declared then some (.named env.pkg n)
  else match env.dotted n with
    | p :: _ => some (.named p n)
    | [] => predeclared n

/-- The type that a qualified name stands for. -/
def Env.qualified (env : Env) (p n : Name) : Option GoTy :=
  (env.imports.find? fun i => env.importName i = p).map fun i => .named i.path n

/-- The type that an expression stands for, if any. -/
def Env.meaning (env : Env) : Expr → Option GoTy
  | .ident n => env.ident n
  | .array none e => (env.meaning e).map .slice
  | .array (some k) e => (env.meaning e).map (.array k)
  | .map k v => match env.meaning k, env.meaning v with
    | some a, some b => some (.map a b)
    | _, _ => none
  | .selector p n => env.qualified p n
  | .star e => (env.meaning e).map .pointer
  | .ellipsis e => (env.meaning e).map .variadic
  | .chan d e => (env.meaning e).map (.chan d)
  | .iface t => some (.literal 0 t (if t = [] then [] else env.pkg))
  | .func t => some (.literal 1 t env.pkg)
  | .struct t => some (.literal 2 t env.pkg)
  | .index e a => match env.meaning e, env.meaning a with
    | some a, some b => some (.inst a b)
    | _, _ => none

/-- The parser is called for a file of the package. -/
def Env.resolve (env : Env) (e : Expr) : Ty :=
  GoParse.resolve env.pkg env.declared ⟨env.imports, [], []⟩ env.params e

/-- The parser's way to write a Go type. -/
inductive Writes : GoTy → Ty → Prop where
  | basic (n : Name) : Writes (.predeclared n) (.basic n)
  | user (p n : Name) : Writes (.named p n) (.user p n)
  | slice {g t} : Writes g t → Writes (.slice g) (.slice t)
  | variadic {g t} : Writes g t → Writes (.variadic g) (.ellipsis t)
  | pointer {g t} : Writes g t → Writes (.pointer g) (.pointer t)
  | map {g t h u} : Writes g t → Writes h u → Writes (.map g h) (.map t u)
  | chan {g t} : Writes g t → Writes (.chan .both g) (.chan t)
  | send {g t} : Writes g t → Writes (.chan .send g) (.send t)
  | recv {g t} : Writes g t → Writes (.chan .recv g) (.recv t)
  | any : Writes (.literal 0 [] []) .any
  | param (n : Name) : Writes (.param n) (.param n)

/-- Expressions without arrays, generic types, type literals, and `byte`, `rune` and `uintptr`. -/
def Expr.plain : Expr → Prop
  | .ident n => n ≠ "byte".toList ∧ n ≠ "rune".toList ∧ n ≠ "uintptr".toList
  | .array (some _) _ => False
  | .array none e => e.plain
  | .map k v => k.plain ∧ v.plain
  | .iface _ => False
  | .selector _ _ => True
  | .star e => e.plain
  | .ellipsis e => e.plain
  | .chan _ e => e.plain
  | .func _ => False
  | .struct _ => False
  | .index _ _ => False

/-- The names that the parser takes for predeclared types, whatever is declared. -/
def reserved : List Name := ["byte".toList, "rune".toList, "any".toList] ++ predeclaredTypes

/-- Source files on which the parser's rules for names agree with Go's. -/
structure Env.Simple (env : Env) : Prop where
  /-- predeclared names are not declared again -/
  unshadowed : ∀ n ∈ reserved, n ∉ env.params ∧ n ∉ env.declared ∧ env.dotted n = []
  /-- type parameters do not have the names of types -/
  params : ∀ n ∈ env.params, n ∉ env.declared
  /-- at most one import with a dot -/
  dots : ((env.imports.filter fun i => i.name = some ['.']).map (·.path)).length ≤ 1
  /-- packages that are imported without a name are called like the last part of their path -/
  clauses : ∀ i ∈ env.imports, i.name = none → ∃ pre, i.path = pre ++ env.clause i.path ∧ '/' ∉ env.clause i.path ∧
    env.clause i.path ≠ ['.'] ∧ (pre = [] ∨ ∃ q, pre = q ++ ['/'])
  /-- all imports have different names (`_` and `.` aside) -/
  names : ((env.imports.filter fun i => i.name ≠ some ['.'] && i.name ≠ some ['_']).map env.importName).Nodup
  /-- packages are not called `.` or `_` -/
  blank : ∀ i ∈ env.imports, i.name = none → env.clause i.path ≠ ['_']

/-- Go types without type arguments, and without the parts that the parser leaves out. -/
def Expr.noBlank : Expr → Prop
  | .selector p _ => p ≠ ['_'] ∧ p ≠ ['.']
  | .array _ e => e.noBlank
  | .map k v => k.noBlank ∧ v.noBlank
  | .star e => e.noBlank
  | .ellipsis e => e.noBlank
  | .chan _ e => e.noBlank
  | .index e a => e.noBlank ∧ a.noBlank
  | _ => True

/-! ### Functions -/

/-- The parameters (or results) that a list of groups declares, one by one. -/
def parameters : List Group → List (Name × Expr)
  | [] => []
  | ⟨[], t⟩ :: gs => ([], t) :: parameters gs
  | ⟨[n], t⟩ :: gs => (n, t) :: parameters gs
  | ⟨n :: m :: ns, t⟩ :: gs => ((n :: m :: ns).map fun x => (x, t)) ++ parameters gs

/-! ### Packages -/

/-- All type declarations of a package, with their files. -/
def allTypes (files : List File) : List (File × TypeDecl) := files.flatMap fun f => f.types.map fun d => (f, d)

/-- All function declarations of a package, with their files. -/
def allFuncs (files : List File) : List (File × FuncDecl) := files.flatMap fun f => f.funcs.map fun d => (f, d)

/-- The function has no receiver. -/
def FuncDecl.plain (d : FuncDecl) : Bool := match d.recv with
  | none => true
  | some _ => false

/-- The type of which the function is a method. -/
def FuncDecl.methodOf (d : FuncDecl) : Option Name := match d.recv with
  | some (.value n) => some n
  | some (.pointer n) => some n
  | _ => none

/-- The name of a method of an interface. -/
def Member.name? : Member → Option Name
  | .method n _ => some n
  | .embedded => none

/-- The packages that the parser can read: names are declared once, as in every package that compiles (unless it has files
for several platforms), methods are declared on structs that are not generic, and interfaces embed no others. -/
structure Regular (files : List File) : Prop where
  types : ((allTypes files).map (·.2.name)).Nodup
  funcs : (((allFuncs files).filter (·.2.plain)).map (·.2.name)).Nodup
  methods : ((allFuncs files).filterMap fun e => e.2.methodOf.map fun n => (n, e.2.name)).Nodup
  receivers : ∀ e ∈ allFuncs files, e.2.plain = true ∨
    ∃ n, e.2.methodOf = some n ∧ ∃ t ∈ allTypes files, t.2.name = n ∧ ∃ gs, t.2.body = .struct gs
  members : ∀ t ∈ allTypes files, ∀ ms, t.2.body = .iface ms → .embedded ∉ ms ∧ (ms.filterMap Member.name?).Nodup

/-! ### Services -/

/-- A function that Go code can call as a remote procedure: `func(ctx context.Context, ...) (..., error)`. -/
def Remote (f : Func) : Prop :=
  (∃ a as, f.args = a :: as ∧ a.type = .user "context".toList "Context".toList) ∧
  (∃ rs r, f.rets = rs ++ [r] ∧ r.type = .basic "error".toList)

/-- `func(ctx context.Context, ...) (t, error)`. -/
def Builds (f : Func) (t : Ty) : Prop :=
  (∃ a as, f.args = a :: as ∧ a.type = .user "context".toList "Context".toList) ∧
  (∃ r e, f.rets = [r, e] ∧ r.type = t ∧ e.type = .basic "error".toList)

/-- The struct has all methods of the interface, with the same types of parameters and results. -/
def HasMethods (s : Struct) (i : Iface) : Prop := ∀ n m, (n, m) ∈ i.methods → ∃ m', s.methods.lookup n = some m' ∧
  m.name = m'.name ∧ m.args.map (·.type) = m'.args.map (·.type) ∧ m.rets.map (·.type) = m'.rets.map (·.type)

/-- The types in the methods of the interface have been understood: they stand for Go types. -/
def Iface.Understood (i : Iface) : Prop := ∀ n m, (n, m) ∈ i.methods → ∀ v ∈ m.args ++ m.rets, ∃ g, Writes g v.type

end Verif.GoParse
