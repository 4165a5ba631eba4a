import Verif.GoGen.Finish
import Verif.GoGen.Props
/-
What the go.mod files of a workspace have to say.
-/
namespace Verif.GoGen
open Verif.GoCode (Name shortName)

/-- The module that a call puts in the workspace, and the directory for it. -/
def BOp.placed : BOp → Option (Name × Name)
  | .create m => some (m, shortName m)
  | .addLocal d src => some (src.module, d)
  | .require _ _ _ => none

/-- The call as in C53. -/
def BOp.place : BOp → Option WOp
  | .create m => some (.create m)
  | .addLocal d src => some (.addLocal d src.module)
  | .require _ _ _ => none

/-- What was required of a module, in order. -/
def required (m : Name) (ops : List BOp) : List (Name × Name) :=
  ops.filterMap fun
    | .require m' path version => if m' = m then some (path, version) else none
    | _ => none

/-- The go.mod of a module before the end: that of its source, or an empty one for a generated module, and what was required after
that. -/
def origin (m : Name) : List BOp → Option GoMod
  | [] => none
  | .create m' :: ops => if m' = m then some ⟨m, required m ops, []⟩ else origin m ops
  | .addLocal _ src :: ops => if src.module = m then some { src with requires := src.requires ++ required m ops } else origin m ops
  | .require _ _ _ :: ops => origin m ops

/-- The directives about a module. -/
def about (f : GoMod) (m : Name) : List Replace := f.replaces.filter fun r => r.path = m

end Verif.GoGen
