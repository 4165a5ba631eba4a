import Verif.Strings.Model

/-
Model of /repo/plugins/linuxcontainer/linuxgen (run.sh.go, runfunc.go, template.go) and of
deploy.go's DeclareRunCommand: which functions the generated run.sh has, and what bash does
with them.
Not modelled: the text that is echoed, `-h`, the reindentation of the bodies (C24), and what
happens if a process is called like a builtin, a variable of the script, or another
process's inner function `run_…`.  Names with spaces (see C23) are not valid bash names; the
model treats them like the others.
-/
namespace Verif.Deploy.Run
open Verif.Strings

scoped notation "Str" => List Char

/-! ### Generation -/

/-- runfunc.go:37-45 (getFuncBody): the text after the first `{` and before the last `}`;
`none` stands for the empty text. -/
def getFuncBody (runcmd : Str) : Option Str :=
  let after := (runcmd.dropWhile (· != '{')).drop 1
  -- without `{` Go starts at the beginning
  let after := if '{' ∈ runcmd then after else runcmd
  if '}' ∈ after then
    let body := (after.reverse.dropWhile (· != '}')).drop 1 |>.reverse
    if body.isEmpty then none else some body
  else none

/-- runfunc.go:47-51: the generated function: its process, dependencies and body. -/
structure Func where
  name : Str
  deps : List Str
  body : Str
deriving DecidableEq, Repr

/-- run.sh.go:16-24 (RunScript): RunFuncs, in the order of the names, in which the template
visits the map, and the names in AllNodes. -/
structure Script where
  funcs : List Func
  nodes : List Str
deriving DecidableEq, Repr

/-- An entry of the map RunFuncs is set. -/
def putFunc (f : Func) : List Func → List Func
  | [] => [f]
  | g :: l => if g.name = f.name then f :: l else if f.name < g.name then f :: g :: l else g :: putFunc f l

/-- What a process declares: deploy.go:147-152 (DeclareRunCommand). -/
structure Decl where
  name : Str
  runfunc : Str
  deps : List Str
deriving DecidableEq, Repr

/-- deploy.go:147-152 with runfunc.go:21-35 (GenerateRunFunc) and run.sh.go:56-64 (Add). -/
def Script.declare (s : Script) (d : Decl) : Option Script :=
  match getFuncBody d.runfunc with
  | none => none
  | some body => some ⟨putFunc ⟨d.name, d.deps, body⟩ s.funcs, s.nodes ++ d.deps⟩

/-- deploy.go:88-104: all processes of the container. -/
def Script.declareAll (s : Script) : List Decl → Option Script
  | [] => some s
  | d :: ds => match s.declare d with
    | none => none
    | some s => s.declareAll ds

/-- run.sh.go:66-77: the nodes that have no function must be set by the caller. -/
def Script.args (s : Script) : List Str :=
  s.nodes.filter fun n => !(s.funcs.any fun f => f.name = n)

/-! ### Execution -/

/-- The variables of the shell. -/
scoped notation "Env" => List Char → Option (List Char)

/-- A body is about to run: the process, the text, the variables and the directory. -/
structure Start where
  proc : Str
  text : Str
  env : Env
  cwd : Str

/-- The state of the shell, and what has been started, latest first. -/
structure Shell where
  env : Env
  cwd : Str
  starts : List Start

/-- What a body does: its exit code, and the variables and directory it leaves behind.  It
may depend on everything that happened before. -/
scoped notation "Behaviour" => List Char → Shell → Nat × (List Char → Option (List Char)) × List Char

/-- The function that bash finds under a name: the last one that was defined. -/
def lookup (funcs : List Func) (n : Str) : Option Func :=
  funcs.reverse.find? fun f => funcName f.name = n

/-- template.go:61-68 (Get), for all dependencies (runfunc.go:56-59), given how functions
are called.  `true`: all went well; `false`: the function that contains these lines returns
with status 0: `$?` after `! f` is 0 if `f` failed. -/
def getAll (call : Str → Shell → Option (Nat × Shell)) : List Str → Shell → Option (Bool × Shell)
  | [], sh => some (true, sh)
  | d :: ds, sh =>
    if sh.env (envVar d) = none then
      match call (funcName d) sh with
      | none => none
      | some (0, sh) => getAll call ds sh
      | some (_ + 1, sh) => some (false, sh)
    else getAll call ds sh

/-- runfunc.go:53-80: the generated function; `root` is WORKSPACE_DIR.  `none` means that
the calls are nested more than `fuel` deep; an unknown function has status 127. -/
def call (beh : Behaviour) (root : Str) (funcs : List Func) : Nat → Str → Shell → Option (Nat × Shell)
  | 0, _, _ => none
  | fuel + 1, n, sh =>
    match lookup funcs n with
    | none => some (127, sh)
    | some f =>
      match getAll (call beh root funcs fuel) f.deps { sh with cwd := root } with
      | none => none
      | some (false, sh) => some (0, sh)
      | some (true, sh) =>
        let sh := { sh with starts := ⟨f.name, f.body, sh.env, sh.cwd⟩ :: sh.starts }
        let (code, env, cwd) := beh f.body sh
        let sh := { sh with env := env, cwd := cwd }
        if code = 0 then
          if sh.env (envVar f.name) = none then some (1, sh) else some (0, sh)
        else some (code, sh)

/-- run.sh.go:141-144: all functions are called; their status is ignored. -/
def callAll (beh : Behaviour) (root : Str) (funcs : List Func) (fuel : Nat) :
    List Func → Shell → Option Shell
  | [], sh => some sh
  | f :: fs, sh => match call beh root funcs fuel (funcName f.name) sh with
    | none => none
    | some (_, sh) => callAll beh root funcs fuel fs sh

/-- run.sh.go:119-149 (run_all): the exit status of run.sh and the final state.  The status
of `wait` is 0. -/
def runAll (beh : Behaviour) (fuel : Nat) (s : Script) (sh : Shell) : Option (Nat × Shell) :=
  if s.args.any fun n => sh.env (envVar n) = none then some (1, sh)
  else match callAll beh sh.cwd s.funcs fuel s.funcs sh with
    | none => none
    | some sh => some (0, sh)

/-- What a Go process does (/repo/plugins/goproc/linuxgen/runfunc.go:40-56): it sets its
variable to the process id, and stays in its directory. -/
def goproc (name pid : Str) (sh : Shell) : Nat × (Env) × Str :=
  (0, fun x => if x = envVar name then some pid else sh.env x, sh.cwd ++ '/' :: name)

end Verif.Deploy.Run
