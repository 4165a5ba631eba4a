/-
Model of /repo/blueprint/pkg/ir/{ir,irutil,buildcontext,builders}.go: the tree of IR nodes, filters, the
visit tracker and the top-level artifact generation.
-/
namespace Verif.IR

/-! ### Traversal -/

/-- An IR node with its children.  A node that is not a `HasIRChildren` has none. -/
inductive Node where
  | mk (name : String) (children : List Node)

def Node.name : Node → String
  | .mk n _ => n
def Node.children : Node → List Node
  | .mk _ cs => cs

mutual
/-- `getNodes` (ir.go lines 103-117). -/
def getNodes : Node → List Node
  | .mk name children => Node.mk name children :: getAll children
/-- The loop over the children (lines 110-114). -/
def getAll : List Node → List Node
  | [] => []
  | child :: rest => getNodes child ++ getAll rest
end

/-- `Filter`/`FilterNodes` (irutil.go lines 27-35, 51-59): the loop with its accumulator. -/
def filterNodes {α : Type} (isT : α → Bool) (nodes : List α) : List α :=
  nodes.foldl (fun ts n => if isT n then ts ++ [n] else ts) []

/-- `Split` (irutil.go lines 39-48): the remaining nodes and the matches. -/
def splitNodes {α : Type} (isT : α → Bool) (nodes : List α) : List α × List α :=
  nodes.foldl (fun (r, m) n => if isT n then (r, m ++ [n]) else (r ++ [n], m)) ([], [])

/-- `Remove` (irutil.go lines 62-70). -/
def removeNodes {α : Type} (isT : α → Bool) (nodes : List α) : List α :=
  nodes.foldl (fun ts n => if !isT n then ts ++ [n] else ts) []

/-! ### Visit tracker -/

/-- The `visited` map: its keys. -/
abbrev Tracker := List String

/-- `Visited` (buildcontext.go lines 28-37). -/
def visited (t : Tracker) (name : String) : Bool × Tracker :=
  let has := t.contains name
  (has, if has then t else name :: t)

/-- A sequence of calls and their results. -/
def visits (t : Tracker) : List String → List Bool
  | [] => []
  | n :: ns => (visited t n).1 :: visits (visited t n).2 ns

/-! ### Top-level artifact generation -/

/-- A top-level node: its identity, its Go type, and whether that type is an `ArtifactGenerator`. -/
structure Top where
  id : Nat
  type : Nat
  isGenerator : Bool
deriving DecidableEq, Repr

/-- A registered namespace builder (builders.go lines 22-29): which node types are assignable to its type,
and whether its build function fails on given nodes. -/
structure Builder where
  name : String
  accepts : Nat → Bool
  fails : List Top → Bool

/-- What `buildAll` does to the outside: a call of a namespace builder, or of a node's own generator. -/
inductive Call where
  | namespaceBuild (b : Builder) (nodes : List Top)
  | generate (node : Top)

/-- `buildCompatibleNodes` (lines 65-84): the calls made and, unless it failed, the remaining nodes. -/
def buildCompatible (b : Builder) (nodes : List Top) : List Call × Option (List Top) :=
  let toBuild := nodes.filter (fun n => b.accepts n.type)
  let remaining := nodes.filter (fun n => !b.accepts n.type)
  if toBuild.isEmpty then ([], some remaining)
  else ([.namespaceBuild b toBuild], if b.fails toBuild then none else some remaining)

/-- `buildArtifactGeneratorNodes` (lines 86-103).  `dirFails` and `genFails` say for which nodes the
directory cannot be created, or generation fails. -/
def buildGenerators (dirFails genFails : Top → Bool) : List Top → List Call × Option (List Top)
  | [] => ([], some [])
  | n :: ns =>
    if n.isGenerator then
      if dirFails n then ([], none)
      else if genFails n then ([.generate n], none)
      else
        let (calls, r) := buildGenerators dirFails genFails ns
        (.generate n :: calls, r)
    else
      let (calls, r) := buildGenerators dirFails genFails ns
      (calls, r.map (n :: ·))

/-- The loop over the registered builders (lines 114-119), in the order `builders`. -/
def buildNamespaces : List Builder → List Top → List Call × Option (List Top)
  | [], nodes => ([], some nodes)
  | b :: bs, nodes =>
    match buildCompatible b nodes with
    | (calls, none) => (calls, none)
    | (calls, some remaining) =>
      let (calls', r) := buildNamespaces bs remaining
      (calls ++ calls', r)

/-- `buildAll` (lines 105-141): the calls made, and whether it returns no error.  `builders` is the order
in which Go happens to iterate over the registry map; `dirExists` is true if the output directory already
exists or cannot be created. -/
def buildAll (builders : List Builder) (dirFails genFails : Top → Bool) (dirExists : Bool) (nodes : List Top) :
    List Call × Bool :=
  if dirExists then ([], false)
  else
    match buildNamespaces builders nodes with
    | (calls, none) => (calls, false)
    | (calls, some remaining) =>
      match buildGenerators dirFails genFails remaining with
      | (calls', none) => (calls ++ calls', false)
      | (calls', some rest) => (calls ++ calls', rest.isEmpty)

end Verif.IR
