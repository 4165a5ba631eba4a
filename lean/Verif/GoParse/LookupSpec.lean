import Verif.GoParse.Lookup
/-
What users expect when a wiring spec names a service.
-/
namespace Verif.GoParse

/-- The go command tells the truth: `home` is the module in which each package is.  Asked for a package it includes that package, and asked
for all packages below a path it includes those of the module with that path. -/
structure GoTool.Tells (g : GoTool) (home : Name → Option GoModule) : Prop where
  sound : ∀ t p l, g.load t p = some l → ∀ e ∈ l, e.2 = home e.1
  package : ∀ t p l, g.load t p = some l → home p ≠ none → (p, home p) ∈ l
  below : ∀ t l q m, home q = some m → g.load t (m.path ++ ['.', '.', '.']) = some l → (q, home q) ∈ l

/-- A path means one module: it is the path of one module only, and if it is also the name of a package, of one in that module. -/
structure Clear (home : Name → Option GoModule) : Prop where
  path : ∀ p q m n, home p = some m → home q = some n → m.path = n.path → m = n
  package : ∀ p q m n, home p = some m → home q = some n → n.path = p → m = n

/-- The go command failed at one of the calls from the `t`-th on. -/
def GoTool.FailsFrom (g : GoTool) (t : Nat) : Prop := ∃ n p, t ≤ n ∧ g.load n p = none

/-- Different directories have different modules. -/
def Disk.Distinct (k : Disk) : Prop := ∀ d d' m m', k.parse d = some m → k.parse d' = some m' → m.name = m'.name → d = d'

/-- The search goes through all packages of all modules, in some order. -/
def Source.Complete (src : Source) : Prop :=
  ∀ set : MSet, ∀ p : Parsed, p ∈ src.visit set ↔ ∃ e ∈ set.modules, ∃ n, src.package e.2 n = some p

/-- The interface qualifies as a service, with a constructor and an implementation in the package `p`. -/
def ServiceIn (p : Parsed) (name : Name) (i : Iface) : Prop :=
  p.ifaces.lookup name = some i ∧ i.Understood ∧ (∀ n m, (n, m) ∈ i.methods → Remote m) ∧
  (∃ c ∈ p.funcs, Builds c.2 (.user i.pkg i.name)) ∧ ∃ s ∈ p.structs, HasMethods s.2 i

/-- A module as the go command downloads it to the module cache in `root`.  (Paths with upper-case letters, which are escaped there, are left
out.) -/
def Downloaded (root : Name) (m : GoModule) : Prop :=
  m.main = false ∧ m.replaced = false ∧ '@' ∉ m.path ∧ m.dir = root ++ '/' :: (m.path ++ '@' :: m.version) ∧
  m.goMod = root ++ '/' :: ("cache/download/".toList ++ m.path ++ "/@v/".toList ++ m.version ++ ".mod".toList)

end Verif.GoParse
