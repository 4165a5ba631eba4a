import Verif.Output.Model
/-
Specification for C135.
-/
namespace Verif.Output
open Verif.Strings (cleanName)

/-- The builders that a wiring spec can register, at most one for each kind of node: configuration (either nothing is
done or two dot files are written), metadata, containers, processes, and golang instances. -/
structure Registered (order : List Builder) : Prop where
  once : (order.map (·.kind)).Nodup
  config : ∀ b ∈ order, b.kind = .config → b.place = .dots ∨ b.place = .nowhere
  metadata : ∀ b ∈ order, b.kind = .metadata → b.place = .nowhere
  container : ∀ b ∈ order, b.kind = .container → b.place = .dir "docker".toList
  process : ∀ b ∈ order, b.kind = .process → b.place = .dir "linux".toList
  golang : ∀ b ∈ order, b.kind = .golang → b.place = .dir "golang".toList
  other : ∀ b ∈ order, b.kind ≠ .other

/-- The nodes for which no builder is registered, in the order of the application. -/
def own (order : List Builder) (parts : List Part) : List Part :=
  parts.filter fun p => order.all fun b => b.kind != p.kind

/-- The nodes of a kind. -/
def ofKind (k : Kind) (parts : List Part) : List Part := parts.filter fun p => p.kind == k

/-- Nodes that are not built by a registered builder have names that differ after cleaning, are not empty, and are
not the names of the builders' directories. -/
structure DistinctNames (order : List Builder) (parts : List Part) : Prop where
  distinct : ((own order parts).map fun p => cleanName p.name).Nodup
  nonempty : ∀ p ∈ own order parts, cleanName p.name ≠ []
  free : ∀ p ∈ own order parts, cleanName p.name ≠ "docker".toList ∧ cleanName p.name ≠ "linux".toList ∧
    cleanName p.name ≠ "golang".toList

/-- The output that one would expect: each node that generates itself has a directory with what it generates in an empty
directory; each builder that has nodes to build has its place, with what it generates from nothing; and there is nothing
else. -/
structure Expected (order : List Builder) (parts : List Part) (fs : FS) : Prop where
  part : ∀ p ∈ own order parts, ∃ g out, p.gen = some g ∧ g FS.empty = some out ∧
    ∀ q, q ≠ [] → fs (cleanName p.name :: q) = out q
  directory : ∀ b ∈ order, ofKind b.kind parts ≠ [] → ∀ d, b.place = .dir d →
    ∃ out, b.build (ofKind b.kind parts) FS.empty = some out ∧ ∀ q, q ≠ [] → fs (d :: q) = out q
  dots : ∀ b ∈ order, ofKind b.kind parts ≠ [] → b.place = .dots →
    ∃ out, b.build (ofKind b.kind parts) FS.empty = some out ∧ ∀ c, c.head? = some '.' → fs [c] = out [c]
  quiet : ∀ b ∈ order, ofKind b.kind parts ≠ [] → b.place = .nowhere →
    ∃ out, b.build (ofKind b.kind parts) FS.empty = some out
  nothingElse : ∀ path, fs path ≠ none →
    (∃ p ∈ own order parts, ∃ q, q ≠ [] ∧ path = cleanName p.name :: q) ∨
    (∃ b ∈ order, ofKind b.kind parts ≠ [] ∧ ∃ d q, b.place = .dir d ∧ q ≠ [] ∧ path = d :: q) ∨
    (∃ b ∈ order, ofKind b.kind parts ≠ [] ∧ b.place = .dots ∧ ∃ c, c.head? = some '.' ∧ path = [c])

end Verif.Output
