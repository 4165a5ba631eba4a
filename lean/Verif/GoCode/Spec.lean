import Verif.GoCode.Model
/-
Specification for C28-C30.
-/
namespace Verif.GoCode

/-- The packages mentioned in a type. -/
def Ty.packages : Ty → List Name
  | .user p _ => [p]
  | .slice a | .ellipsis a | .pointer a | .chan a | .recv a | .send a => a.packages
  | .map k v => k.packages ++ v.packages
  | .generic a b => a.packages ++ b.packages
  | _ => []

/-- The types that the import helper handles throughout: no variadic, generic, inline interface, function
or struct types (and no `any`) at any depth. -/
def Ty.plain : Ty → Prop
  | .basic _ | .user _ _ => True
  | .slice a | .pointer a | .chan a | .recv a | .send a => a.plain
  | .map k v => k.plain ∧ v.plain
  | _ => False

/-- How a type is written in a file, given how its packages are referred to (`none`: not qualified). -/
def Ty.render (q : Name → Option Name) : Ty → Name
  | .basic n => n
  | .user p n =>
    match q p with
    | none => n
    | some s => s ++ ['.'] ++ n
  | .slice a => ['[', ']'] ++ a.render q
  | .pointer a => ['*'] ++ a.render q
  | .map k v => ['m', 'a', 'p', '['] ++ k.render q ++ [']'] ++ v.render q
  | .chan a => ['c', 'h', 'a', 'n', ' '] ++ a.render q
  | .recv a => ['<', '-', 'c', 'h', 'a', 'n', ' '] ++ a.render q
  | .send a => ['c', 'h', 'a', 'n', '<', '-', ' '] ++ a.render q
  | t => t.str

/-- The local name under which an import declaration makes a package available: the name given, or else the
last element of its path. -/
def declaredName : Name × Option Name → Name
  | (_, some n) => n
  | (p, none) => shortName p

/-- Two functions have the same signature: same name, and argument and result types equal one by one. -/
def SameSignature (f g : Func) : Prop :=
  f.name = g.name ∧ f.args.map (·.type) = g.args.map (·.type) ∧ f.rets.map (·.type) = g.rets.map (·.type)

end Verif.GoCode
