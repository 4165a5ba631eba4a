/-
Model of /repo/plugins/golang/gocode/{typename,service}.go and /repo/plugins/golang/gogen/imports.go.
Names and package paths are lists of characters.
-/
namespace Verif.GoCode

abbrev Name := List Char

/-- `TypeName` (typename.go lines 132-247).  Go `nil` types are not modelled. -/
inductive Ty where
  | basic (name : Name)
  | user (pkg name : Name)
  | slice (of : Ty)
  | ellipsis (of : Ty)
  | pointer (to : Ty)
  | map (key value : Ty)
  | chan (of : Ty)
  | recv (of : Ty)
  | send (of : Ty)
  | iface
  | any
  | func
  | struct
  | generic (base param : Ty)
  | param (name : Name)
deriving DecidableEq, Repr

/-- `Equals` (typename.go lines 342-493): each method checks that the other type is of its own kind and
then compares the parts. -/
def Ty.equals : Ty → Ty → Bool
  | .basic a, .basic b => a == b
  | .user p a, .user q b => p == q && a == b
  | .slice a, .slice b => a.equals b
  | .ellipsis a, .ellipsis b => a.equals b
  | .pointer a, .pointer b => a.equals b
  | .map k v, .map k' v' => k.equals k' && v.equals v'
  | .chan a, .chan b => a.equals b
  | .recv a, .recv b => a.equals b
  | .send a, .send b => a.equals b
  | .iface, .iface => true
  | .any, .any => true
  | .func, .func => true
  | .struct, .struct => true
  | .generic a b, .generic a' b' => a.equals a' && b.equals b'
  | .param a, .param b => a == b
  | _, _ => false

/-- `shortName` (typename.go lines 249-252), and the default import name (imports.go lines 51-52): the part
after the last slash. -/
def shortName (pkg : Name) : Name := (pkg.reverse.takeWhile (· != '/')).reverse

/-- `String` (typename.go lines 254-324). -/
def Ty.str : Ty → Name
  | .basic n => n
  | .user p n => shortName p ++ ['.'] ++ n
  | .slice a => ['[', ']'] ++ a.str
  | .ellipsis a => ['.', '.', '.'] ++ a.str
  | .pointer a => ['*'] ++ a.str
  | .map k v => ['m', 'a', 'p', '['] ++ k.str ++ [']'] ++ v.str
  | .chan a => ['c', 'h', 'a', 'n', ' '] ++ a.str
  | .recv a => ['<', '-', 'c', 'h', 'a', 'n', ' '] ++ a.str
  | .send a => ['c', 'h', 'a', 'n', '<', '-', ' '] ++ a.str
  | .iface => "interface{.}".toList
  | .any => "any".toList
  | .func => "func(.){.}".toList
  | .struct => "struct{...}".toList
  | .generic a b => a.str ++ ['['] ++ b.str ++ [']']
  | .param n => n

/-! ### Interfaces -/

/-- `Variable`, `Func` (service.go lines 13-24). -/
structure Var where
  name : Name
  type : Ty
structure Func where
  name : Name
  args : List Var
  rets : List Var

/-- `sameTypes` (service.go lines 100-113). -/
def sameTypes : List Var → List Var → Bool
  | [], [] => true
  | a :: as, b :: bs => a.type.equals b.type && sameTypes as bs
  | _, _ => false

/-- `Func.Equals` (service.go lines 115-117). -/
def Func.equals (f g : Func) : Bool := f.name == g.name && sameTypes f.args g.args && sameTypes f.rets g.rets

/-- The `Methods` map of a `ServiceInterface` (service.go lines 32-36); the keys are different. -/
structure Iface where
  methods : List (Name × Func)
  nodup : (methods.map (·.1)).Nodup

def Iface.get (i : Iface) (n : Name) : Option Func := i.methods.lookup n

/-- `Contains` (service.go lines 152-166), with `none` for a nil interface. -/
def contains : Option Iface → Option Iface → Bool
  | some i, some j => j.methods.all fun (name, jf) =>
      match i.get name with
      | none => false
      | some f => jf.equals f
  | _, _ => false

/-! ### Imports -/

/-- `Imports` (imports.go lines 21-27). -/
structure Imports where
  localPackage : Name
  packages : List (Name × Name) := []
  named : List (Name × Name) := []
  anonymous : List Name := []
  seen : List Name := []

/-- `fmt.Sprintf("%v%v", name, i)`. -/
def numbered (name : Name) (i : Nat) : Name := name ++ Nat.toDigits 10 i

/-- The loop of `AddPackage` (imports.go lines 53-60): the first free name among `name`, `name2`, `name3`...
`fuel` bounds the number of rounds; `addPackage` gives it more than the loop can need. -/
def freeName (seen : List Name) (default : Name) : (fuel i : Nat) → (candidate : Name) → Option Name
  | 0, _, _ => none
  | fuel + 1, i, candidate =>
    if candidate ∈ seen then freeName seen default fuel (i + 1) (numbered default i) else some candidate

/-- `AddPackage` (imports.go lines 43-70).  `none` if the loop does not end. -/
def addPackage (im : Imports) (pkg : Name) : Option (Name × Imports) :=
  if pkg = im.localPackage then some ([], im)
  else
    match im.packages.lookup pkg with
    | some n => some (n, im)
    | none =>
      match freeName im.seen (shortName pkg) (im.seen.length + 1) 2 (shortName pkg) with
      | none => none
      | some n =>
        let im := { im with packages := (pkg, n) :: im.packages, seen := n :: im.seen }
        some (n, if n = shortName pkg then { im with anonymous := pkg :: im.anonymous }
                 else { im with named := (pkg, n) :: im.named })

/-- `AddType` (imports.go lines 79-111).  Note the kinds without a case. -/
def addType (im : Imports) : Ty → Option Imports
  | .user p _ => (addPackage im p).map (·.2)
  | .pointer a => addType im a
  | .slice a => addType im a
  | .map k v => (addType im k).bind (addType · v)
  | .chan a => addType im a
  | .recv a => addType im a
  | .send a => addType im a
  | _ => some im

/-- `Qualify` (imports.go lines 132-140). -/
def qualify (im : Imports) (pkg name : Name) : Name :=
  if pkg = im.localPackage then name
  else
    match im.packages.lookup pkg with
    | some n => n ++ ['.'] ++ name
    | none => pkg ++ ['.'] ++ name

/-- `NameOf` (imports.go lines 143-185). -/
def nameOf (im : Imports) (t : Ty) : Option (Name × Imports) :=
  (addType im t).bind fun im =>
    match t with
    | .basic n => some (n, im)
    | .user p n => some (qualify im p n, im)
    | .pointer a => (nameOf im a).map fun (s, im) => (['*'] ++ s, im)
    | .slice a => (nameOf im a).map fun (s, im) => (['[', ']'] ++ s, im)
    | .map k v => (nameOf im k).bind fun (sk, im) => (nameOf im v).map fun (sv, im) =>
        (['m', 'a', 'p', '['] ++ sk ++ [']'] ++ sv, im)
    | .chan a => (nameOf im a).map fun (s, im) => (['c', 'h', 'a', 'n', ' '] ++ s, im)
    | .recv a => (nameOf im a).map fun (s, im) => (['<', '-', 'c', 'h', 'a', 'n', ' '] ++ s, im)
    | .send a => (nameOf im a).map fun (s, im) => (['c', 'h', 'a', 'n', '<', '-', ' '] ++ s, im)
    | t => some (t.str, im)

/-- The import declarations printed by `String` (imports.go lines 114-125): package and, if one is given,
the chosen name.  Simplification: a list instead of text. -/
def declarations (im : Imports) : List (Name × Option Name) :=
  im.anonymous.map (·, none) ++ im.named.map fun (p, n) => (p, some n)

/-- A call on an `Imports`. -/
inductive Op where
  | addPackage (pkg : Name)
  | addType (t : Ty)
  | nameOf (t : Ty)

/-- The state after a call. -/
def step (im : Imports) : Op → Option Imports
  | .addPackage p => (addPackage im p).map (·.2)
  | .addType t => addType im t
  | .nameOf t => (nameOf im t).map (·.2)

/-- The state after a sequence of calls on a new `Imports` (`NewImports`, imports.go lines 31-39). -/
def run (localPackage : Name) (ops : List Op) : Option Imports :=
  ops.foldlM step { localPackage := localPackage }

end Verif.GoCode
