import Verif.Strings.Model
/-
Model of the output directory of a compilation: /repo/blueprint/pkg/ir/builders.go,
/repo/blueprint/pkg/blueprint/ioutil/ioutil.go, the default builders in
/repo/plugins/{goproc,linuxcontainer,dockercompose}/defaults.go and /repo/plugins/environment/wiring.go, and
/repo/plugins/workload/ir.go.
-/
namespace Verif.Output
open Verif.Strings (cleanName)

abbrev Str := List Char

/-- The files below a directory, by their paths.  Simplification: empty directories, permissions and time stamps
are left out. -/
abbrev FS := List Str → Option Str

def FS.empty : FS := fun _ => none

/-- The type of a node of the application, as far as builders are registered for it (builders.go lines 38-39,
environment/wiring.go line 82, goproc/defaults.go line 22, linuxcontainer/defaults.go line 21,
dockercompose/defaults.go line 21).  No type of node in /repo/plugins is of two of these kinds. -/
inductive Kind where
  | config | metadata | container | process | golang | other
deriving DecidableEq, Repr

/-- Where a builder or a node writes to: the output directory itself, a directory in it, files in it whose
names begin with a dot, or nowhere. -/
inductive Place where
  | root
  | dir (d : Str)
  | dots
  | nowhere
deriving DecidableEq, Repr

/-- Is this the path of a file whose name begins with a dot, in the output directory itself? -/
def isDots : List Str → Bool
  | [c] => c.head? == some '.'
  | _ => false

/-- Is the path one of the place? -/
def Place.has : Place → List Str → Bool
  | .root, _ => true
  | .dir d, p => p.head? == some d
  | .dots, p => isDots p
  | .nowhere, _ => false

/-- What a generator finds at its place: it knows paths relative to the directory that it was given. -/
def Place.view : Place → FS → FS
  | .root, fs => fs
  | .dir d, fs => fun q => if q = [] then none else fs (d :: q)
  | .dots, fs => fun p => if isDots p then fs p else none
  | .nowhere, _ => FS.empty

/-- What is at a path of the place, if `out` is what the generator left there. -/
def Place.file (pl : Place) (out : FS) (p : List Str) : Option Str :=
  match pl with
  | .dir _ => if p.tail = [] then none else out p.tail
  | _ => out p

/-- The files after a generator has run.  Simplification: it writes only to its place. -/
def Place.put (pl : Place) (fs out : FS) : FS := fun p => if pl.has p then pl.file out p else fs p

/-- A generator: from the files that it finds to those that it leaves; `none`: it returns an error. -/
abbrev Gen := FS → Option FS

/-- `CheckDir(path, true)` (ioutil.go lines 28-46), and a generator that is started in that directory.  It
is no error if the directory is there already, but it is if there is a file of that name. -/
def enter (pl : Place) (fs : FS) (g : Gen) : Option FS :=
  match pl with
  | .dir d => if (fs [d]).isSome then none else (g (pl.view fs)).map (pl.put fs)
  | pl => (g (pl.view fs)).map (pl.put fs)

/-- `CreateNodeDir` (ioutil.go lines 50-56).  `filepath.Join(dir, "")` is `dir`. -/
def placeOf (name : Str) : Place := if cleanName name = [] then .root else .dir (cleanName name)

/-- A node of the application, and its `GenerateArtifacts` if it has one. -/
structure Part where
  name : Str
  kind : Kind
  gen : Option Gen

/-- A registered builder (builders.go lines 22-29): for which nodes, where it writes to, and what. -/
structure Builder where
  kind : Kind
  place : Place
  build : List Part → Gen

/-- `buildCompatibleNodes` (builders.go lines 65-84). -/
def runBuilder (b : Builder) (parts : List Part) (fs : FS) : Option (List Part × FS) :=
  let toBuild := parts.filter (fun p => p.kind == b.kind)
  let remaining := parts.filter (fun p => p.kind != b.kind)
  if toBuild.isEmpty then some (remaining, fs)
  else (enter b.place fs (b.build toBuild)).map (remaining, ·)

/-- The loop over the registered builders (builders.go lines 115-120). -/
def runBuilders : List Builder → List Part → FS → Option (List Part × FS)
  | [], parts, fs => some (parts, fs)
  | b :: bs, parts, fs =>
    match runBuilder b parts fs with
    | none => none
    | some (rest, fs') => runBuilders bs rest fs'

/-- `buildArtifactGeneratorNodes` (builders.go lines 86-103). -/
def runParts : List Part → FS → Option (List Part × FS)
  | [], fs => some ([], fs)
  | p :: ps, fs =>
    match p.gen with
    | some g =>
      match enter (placeOf p.name) fs g with
      | none => none
      | some fs' => runParts ps fs'
    | none => (runParts ps fs).map fun r => (p :: r.1, r.2)

/-- `buildAll` (builders.go lines 105-141): the files in the output directory, or `none` if it returns an
error.  `order` is the order in which Go happens to iterate over the registered builders. -/
def buildAll (exists_ : Bool) (order : List Builder) (parts : List Part) : Option FS :=
  if exists_ then none
  else
    match runBuilders order parts FS.empty with
    | none => none
    | some (rest, fs) =>
      match runParts rest fs with
      | none => none
      | some (unbuilt, fs') => if unbuilt.isEmpty then some fs' else none

/-- `GenerateArtifacts` of a workload generator (workload/ir.go lines 44-69).  `proc` generates the files of the
process; `goBuild` is `go build -C DIR/PROC`, which sees these files; the executable is put into the directory in
which it is started and has the name of the module, whose path ends in the process's name
(goproc/ir_goproc.go lines 28-33). -/
def workload (name : Str) (proc : Gen) (goBuild : FS → Option Str) : Gen := fun fs =>
  let procName := cleanName (name ++ ".proc".toList)
  match enter (placeOf (name ++ ".proc".toList)) fs proc with
  | none => none
  | some fs' =>
    match goBuild ((placeOf (name ++ ".proc".toList)).view fs') with
    | none => none
    | some bin => some fun p => if p = [procName, procName, procName] then some bin else fs' p

end Verif.Output
