import Verif.Deploy.RunModel

/-
Specification for run.sh (C63), in terms of what the processes declare.
-/
namespace Verif.Deploy.Run
open Verif.Strings

/-- `text` is what is between the outermost braces of a bash function declaration. -/
def HasBody (runfunc text : Str) : Prop :=
  ∃ pre post, runfunc = pre ++ '{' :: text ++ '}' :: post ∧ '{' ∉ pre ∧ '}' ∉ post

/-- The name is one of the container's processes. -/
def IsProc (ds : List Decl) (n : Str) : Prop := ∃ d ∈ ds, d.name = n

/-- The names of the processes and of what they depend on. -/
def Used (ds : List Decl) (n : Str) : Prop := IsProc ds n ∨ ∃ d ∈ ds, n ∈ d.deps

/-- Well-formed declarations: every process is declared once, with a function declaration
that is not empty, and different names have different variables. -/
structure WellFormed (ds : List Decl) : Prop where
  once : (ds.map (·.name)).Nodup
  vars : ∀ x y, Used ds x → Used ds y → envVar x = envVar y → x = y
  body : ∀ d ∈ ds, ∃ text, text ≠ [] ∧ HasBody d.runfunc text

/-- No process depends on itself, directly or indirectly. -/
def Acyclic (ds : List Decl) : Prop :=
  ∃ rank : Str → Nat, ∀ d ∈ ds, ∀ x ∈ d.deps, IsProc ds x → rank x < rank d.name

/-- The script is the one generated for these processes. -/
def Generated (ds : List Decl) (s : Script) : Prop := Script.declareAll ⟨[], []⟩ ds = some s

/-- The caller of the script sets everything that the processes need and that is not a
process itself. -/
def ArgsSet (ds : List Decl) (env : Env) : Prop :=
  ∀ d ∈ ds, ∀ x ∈ d.deps, ¬ IsProc ds x → env (envVar x) ≠ none

/-- Started from state `sh` the script ends with this status and state. -/
def Ends (beh : Behaviour) (s : Script) (sh : Shell) (status : Nat) (sh' : Shell) : Prop :=
  ∃ fuel, runAll beh fuel s sh = some (status, sh')

/-- Start commands that succeed: they set the variable of their process and leave the others
alone. -/
def Succeed (ds : List Decl) (beh : Behaviour) : Prop :=
  ∀ d ∈ ds, ∀ text, HasBody d.runfunc text → ∀ sh, (beh text sh).1 = 0 ∧
    (beh text sh).2.1 (envVar d.name) ≠ none ∧
    ∀ x, x ≠ envVar d.name → (beh text sh).2.1 x = sh.env x

/-- Start commands that may fail, but unset no variable. -/
def UnsetNothing (beh : Behaviour) : Prop :=
  ∀ text sh x, sh.env x ≠ none → (beh text sh).2.1 x ≠ none

/-- How often a process was started. -/
def timesStarted (n : Str) (starts : List Start) : Nat := (starts.filter fun e => e.proc = n).length

end Verif.Deploy.Run
