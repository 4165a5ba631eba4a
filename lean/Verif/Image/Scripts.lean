import Verif.Strings.Model
/-
Model of /repo/plugins/linuxcontainer/linuxgen/build.sh.go: the build scripts of the processes in a workspace, and what
the shell does with the generated build.sh.
-/
namespace Verif.Image.Scripts

scoped notation "Str" => List Char

/-- A path without `.` and empty elements (`filepath.Clean`), absolute or not. -/
structure FilePath where
  absolute : Bool
  elems : List Str
deriving DecidableEq, Repr

def up : Str := "..".toList

/-- Removes the common beginning. -/
def strip : List Str → List Str → List Str × List Str
  | a :: as, b :: bs => if a = b then strip as bs else (a :: as, b :: bs)
  | as, bs => (as, bs)

/-- `filepath.Rel` of clean paths (Go's path/filepath). -/
def rel (base target : FilePath) : Option (List Str) :=
  if base.absolute ≠ target.absolute then none
  else
    let (b, t) := strip base.elems target.elems
    if up ∈ b then none else some (List.replicate b.length up ++ t)

/-- `filepath.Abs`: a path that is not absolute is below the working directory. -/
def abs (cwd : List Str) (p : FilePath) : List Str := if p.absolute then p.elems else cwd ++ p.elems

/-- `scriptInfo` (build.sh.go lines 90-95): the file's absolute path and its path in the workspace, the last element
of which is the file. -/
structure Script where
  host : List Str
  dir : List Str
  file : Str
deriving DecidableEq, Repr

/-- In the order of the keys.  The keys are compared element by element; the template compares the text of the paths,
which can give another order for names with characters before `/`. -/
def insert (s : Script) : List Script → List Script
  | [] => [s]
  | t :: l => if s.host < t.host then s :: t :: l else t :: insert s l

/-- An entry of the map `Scripts` is set (build.sh.go line 63). -/
def put (s : Script) (l : List Script) : List Script := insert s (l.filter fun t => t.host ≠ s.host)

/-- `Add` (build.sh.go lines 50-70): `none` is an error.  A path that is the workspace itself gives an empty file name. -/
def add (cwd : List Str) (workspace : FilePath) (scripts : List Script) (path : FilePath) : Option (List Script) :=
  let host := abs cwd path
  match rel workspace ⟨true, host⟩ with
  | none => none
  | some p => some (put ⟨host, p.dropLast, p.getLastD []⟩ scripts)

def addAll (cwd : List Str) (workspace : FilePath) (scripts : List Script) : List FilePath → Option (List Script)
  | [] => some scripts
  | p :: ps => match add cwd workspace scripts p with
    | none => none
    | some s => addAll cwd workspace s ps

/-- The shell: its working directory, the one before (`OLDPWD`), the files it ran, and the exit status of the last
command. -/
structure Shell where
  cwd : List Str
  old : Option (List Str)
  ran : List (List Str × Str)
  ok : Bool
deriving DecidableEq, Repr

/-- `..` is taken away together with the element before it. -/
def resolve (cwd : List Str) : List Str → List Str
  | [] => cwd
  | e :: es => resolve (if e = up then cwd.dropLast else cwd ++ [e]) es

/-- `cd DIR`. -/
def cd (isDir : List Str → Bool) (sh : Shell) (d : List Str) : Shell :=
  let p := resolve sh.cwd d
  if isDir p then { sh with cwd := p, old := some sh.cwd, ok := true } else { sh with ok := false }

/-- `cd -`. -/
def cdBack (sh : Shell) : Shell :=
  match sh.old with
  | some o => { sh with cwd := o, old := some sh.cwd, ok := true }
  | none => { sh with ok := false }

/-- `chmod +x FILE` and `./FILE`: `succeeds` says how the script ends, or whether there is one. -/
def exec (succeeds : List Str → Str → Bool) (sh : Shell) (f : Str) : Shell :=
  { sh with ran := sh.ran ++ [(sh.cwd, f)], ok := succeeds sh.cwd f }

/-- One script in the template (build.sh.go lines 79-85); `echo` is left out. -/
def one (isDir : List Str → Bool) (succeeds : List Str → Str → Bool) (sh : Shell) (s : Script) : Shell :=
  cdBack (exec succeeds (cd isDir sh s.dir) s.file)

/-- The generated build.sh, started in a directory. -/
def buildSh (isDir : List Str → Bool) (succeeds : List Str → Str → Bool) (start : List Str) (scripts : List Script) : Shell :=
  scripts.foldl (one isDir succeeds) ⟨start, none, [], true⟩

end Verif.Image.Scripts
