import Verif.GoGen.Model
/-
The go.mod files of a workspace: /repo/plugins/golang/gogen/modulebuilder.go and the end of
/repo/plugins/golang/gogen/workspacebuilder.go.
-/
namespace Verif.GoGen
open Verif.GoCode (Name shortName)

/-- A `replace` directive of a go.mod file; without versions if these are empty. -/
structure Replace where
  path : Name
  version : Name
  target : Name
  targetVersion : Name
deriving DecidableEq

/-- A go.mod file (golang.org/x/mod/modfile.File), without the directives that nothing here reads or changes. -/
structure GoMod where
  module : Name
  requires : List (Name × Name) := []
  replaces : List Replace := []
deriving DecidableEq

/-- `modfile.File.AddReplace(path, "", target, "")`, after the first match: the other directives for the path are deleted. -/
def dropReplaces (path : Name) (rs : List Replace) : List Replace := rs.filter fun r => r.path != path

/-- `modfile.File.AddReplace(path, "", target, "")` of golang.org/x/mod (a dependency, not in /repo): the first directive for the path, in
whatever version, is changed, and there is a new one at the end if there is none. -/
def addReplace (path target : Name) : List Replace → List Replace
  | [] => [⟨path, [], target, []⟩]
  | r :: rs => if r.path = path then ⟨path, [], target, []⟩ :: dropReplaces path rs else r :: addReplace path target rs

/-- A workspace directory while it is filled: what the builder knows, the go.mod file of each subdirectory, and the directory and the file
that the builder of a generated module holds in memory. -/
structure Build where
  ws : Workspace := {}
  files : Name → Option GoMod := fun _ => none
  memory : Name → Option (Name × GoMod) := fun _ => none

def write {α : Type} (f : Name → Option α) (k : Name) (v : α) : Name → Option α := fun x => if x = k then some v else f x

/-- The calls that fill a workspace. -/
inductive BOp where
  /-- `NewModuleBuilder` -/
  | create (module : Name)
  /-- `AddLocalModule`, of a module with this go.mod -/
  | addLocal (dir : Name) (source : GoMod)
  /-- `Require` of the builder of a generated module -/
  | require (module path version : Name)

/-- One call; false for an error.  File system operations succeed. -/
def bstep (b : Build) : BOp → Bool × Build
  -- modulebuilder.go lines 39-51 and workspacebuilder.go lines 63-98
  | .create m =>
    match createModule b.ws m with
    | (none, ws) => (false, { b with ws := ws })
    | (some d, ws) => (true, ⟨ws, write b.files d ⟨m, [], []⟩, write b.memory m (d, ⟨m, [], []⟩)⟩)
  -- workspacebuilder.go lines 101-146
  | .addLocal d src =>
    let copied := (b.ws.moduleDirs.lookup src.module).isNone && (b.ws.modules.lookup d).isNone
    match addLocalModule b.ws d src.module with
    | (r, ws) => (r.isSome, { b with ws := ws, files := if copied then write b.files d src else b.files })
  -- modulebuilder.go lines 93-100
  | .require m path version =>
    if version = [] then (false, b)
    else match b.memory m with
      | none => (false, b)
      | some (d, f) =>
        let f := { f with requires := f.requires ++ [(path, version)] }
        (true, { b with files := write b.files d f, memory := write b.memory m (d, f) })

def brun (b : Build) : List BOp → List Bool × Build
  | [] => ([], b)
  | op :: ops =>
    let (r, b') := bstep b op
    let (rs, b'') := brun b' ops
    (r :: rs, b'')

/-- The loop of `updateModfile` (workspacebuilder.go lines 224-236): `none` for an error. -/
def addAll (files : Name → Option GoMod) (module : Name) : List (Name × Name) → List Replace → Option (List Replace)
  | [], rs => some rs
  | (dir, other) :: rest, rs =>
    if module = other then addAll files module rest rs
    else match files dir with
      | none => none
      | some g => addAll files module rest (addReplace g.module ("../".toList ++ dir) rs)

/-- `updateModfile` (lines 216-245), with the order in which the map is iterated.  Nothing is written after an error. -/
def updateModfile (order : List (Name × Name)) (files : Name → Option GoMod) (dir module : Name) : Name → Option GoMod :=
  match files dir with
  | none => files
  | some f =>
    match addAll files module order f.replaces with
    | none => files
    | some rs => write files dir { f with replaces := rs }

/-- `Finish` (lines 185-213) up to `go mod tidy`: the directories listed in go.work, and the go.mod files.  `order` is the order in which the
map of modules is iterated, and `inner d` the one while the module in `d` is updated. -/
def finish (order : List (Name × Name)) (inner : Name → List (Name × Name)) (b : Build) : List Name × (Name → Option GoMod) :=
  (b.ws.modules.map (·.1), order.foldl (fun files e => updateModfile (inner e.1) files e.1 e.2) b.files)

end Verif.GoGen
