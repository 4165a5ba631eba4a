import Verif.IR.Model
/-
Specification for C25 and C26.
-/
namespace Verif.IR

/-- The node reached from `n` by taking the child with the given position at each level. -/
def follow (n : Node) : List Nat → Option Node
  | [] => some n
  | i :: path => (n.children[i]?).bind (follow · path)

/-- The nodes handed over in a call. -/
def Call.nodes : Call → List Top
  | .namespaceBuild _ ns => ns
  | .generate n => [n]

/-- A call is proper: a builder only gets nodes it accepts, and only generator nodes generate themselves. -/
def Call.proper : Call → Prop
  | .namespaceBuild b ns => ns ≠ [] ∧ ∀ n ∈ ns, b.accepts n.type = true
  | .generate n => n.isGenerator = true

end Verif.IR
