import Verif.Image.Model
import Verif.Strings.Props
/-
Vocabulary for C123.
-/
namespace Verif.Image
open Verif.Strings

/-- An ASCII letter. -/
def Letter (c : Char) : Prop := ('a' ≤ c ∧ c ≤ 'z') ∨ ('A' ≤ c ∧ c ≤ 'Z')

/-- What is needed for a process to be built in its stage: its clean name begins with a letter and has no space, nothing
is called so in the root directory of the Go image, it is not `src`, and its generated code compiles. -/
structure Buildable (env : Env) (p : Proc) : Prop where
  letter : ∃ c cs, cleanName p.name = c :: cs ∧ Letter c ∧ ' ' ∉ cs
  fresh : env.golang [cleanName p.name] = none
  notSrc : cleanName p.name ≠ "src".toList
  compiles : ∃ b, env.compile p.files (cleanName p.name) = some b

/-- The clean names of the processes differ, and not only in upper and lower case. -/
def Different (ps : List Proc) : Prop := (ps.map fun p => (cleanName p.name).map lower).Nodup

end Verif.Image
