import Verif.Strings.Model
/-
Model of the images of linux containers: /repo/plugins/linuxcontainer/deploy.go, deploy_docker.go,
dockergen/dockerfile_.go, /repo/plugins/goproc/deploy_linux_.go and goproc/linuxgen, together with what Docker
does with the generated Dockerfile (reference documentation of Docker: COPY, RUN, FROM … AS, COPY --from).
Contents of files are numbers; base images, the Go compiler and the files of busybox are parameters.
-/
namespace Verif.Image
open Verif.Strings

scoped notation "Str" => List Char

/-- An absolute path, as the list of its elements. -/
abbrev Path := List Str

/-- What can be at a path. -/
inductive Node where
  | dir
  | file (content : Nat)
deriving DecidableEq, Repr

/-- A file system. -/
abbrev FS := Path → Option Node

/-- A node is written. -/
def FS.set (fs : FS) (p : Path) (n : Node) : FS := fun q => if q = p then some n else fs q

/-- Docker's COPY of the file or directory at `src` to `dst`, whose parent exists: what is below a directory is merged
into what is there.  It fails if there is nothing at `src`.  Simplification: copying a directory over a file is not an
error. -/
def copy (origin : FS) (src dst : Path) (fs : FS) : Option FS :=
  match origin src with
  | none => none
  | some _ => some fun p =>
    if dst.isPrefixOf p then
      match origin (src ++ p.drop dst.length) with
      | some n => some n
      | none => fs p
    else fs p

/-- What the build happens on. -/
structure Env where
  /-- golang:1.25-bookworm -/
  golang : FS
  /-- gcr.io/distroless/base-debian12 -/
  base : FS
  /-- the shell of busybox -/
  sh : Nat
  /-- `go mod download` and `go build ./NAME` in a directory with these files: the binary, if it succeeds -/
  compile : FS → Str → Option Nat

/-- The commands of the Dockerfiles that are generated for Go processes (goproc/linuxgen/dockerfile_buildcommands.go
lines 20-40). -/
inductive Cmd where
  /-- `COPY ./NAME /DIR` -/
  | copy (src dst : Str)
  /-- `RUN mkdir /DIR` -/
  | mkdir (d : Str)
  /-- `WORKDIR /src`, `RUN go mod download`, `RUN go build -o /OUT ./PACKAGE`; the directory `/OUT` exists, so the
  binary gets the name of the package's directory -/
  | goBuild (out package : Str)
deriving DecidableEq, Repr

def src : Str := "src".toList

/-- One command, in a stage that has these files, with the files of the image's directory at hand. -/
def runCmd (env : Env) (context : FS) (fs : FS) : Cmd → Option FS
  | .copy s d => copy context [s] [d] fs
  | .mkdir d => if fs [d] = none then some (fs.set [d] .dir) else none
  | .goBuild out package =>
    match env.compile (fun p => fs (src :: p)) package with
    | none => none
    | some b => some (fs.set [out, package] (.file b))

def runCmds (env : Env) (context : FS) (fs : FS) : List Cmd → Option FS
  | [] => some fs
  | c :: cs => match runCmd env context fs c with
    | none => none
    | some fs => runCmds env context fs cs

/-- goproc/linuxgen/dockerfile_buildcommands.go lines 9-40: the stage is called like the process. -/
def goprocCmds (procName : Str) : List Cmd := [.copy procName src, .mkdir procName, .goBuild procName procName]

/-- What Docker accepts as the name of a stage: lower case letters, digits, `-`, `_` and `.`, beginning with a letter,
after changing upper case to lower case. -/
def stageName (n : Str) : Option Str :=
  let l := n.map lower
  match l with
  | [] => none
  | c :: cs => if isLower c && cs.all (fun c => isLower c || isDigit c || c == '-' || c == '_' || c == '.') then some l else none

/-- A docker workspace under construction: `dockerWorkspaceImpl` (deploy_docker.go lines 46-50) with
`filesystemWorkspace` (deploy.go lines 49-59). -/
structure Workspace where
  /-- what `Visited` was called with -/
  visited : List Str
  /-- the files of the workspace's directory -/
  files : FS
  /-- the keys of `ProcDirs` -/
  procDirs : List Str
  /-- the keys of `Dockerfile.CustomProcs`, with their commands; the template visits them in the order of the keys -/
  custom : List (Str × List Cmd)

/-- A new workspace: an empty directory (deploy.go lines 108-119, deploy_docker.go lines 96-102). -/
def Workspace.new : Workspace := ⟨[], fun p => if p = [] then some .dir else none, [], []⟩

/-- `AddCustomCommands` (dockerfile_.go lines 29-31), on a list in the order of the keys. -/
def putCustom (n : Str) (c : List Cmd) : List (Str × List Cmd) → List (Str × List Cmd)
  | [] => [(n, c)]
  | x :: l => if x.1 = n then (n, c) :: l else if n < x.1 then (n, c) :: x :: l else x :: putCustom n c l

/-- A Go process: its name, and the files that `GenerateArtifacts` writes (goproc/deploy.go) relative to the directory
it is given. -/
structure Proc where
  name : Str
  files : FS

/-- Files are written below a directory. -/
def writeBelow (fs : FS) (d : Str) (files : FS) : FS := fun p =>
  match p with
  | e :: q => if e = d then (match files q with | some n => some n | none => fs p) else fs p
  | [] => fs []

/-- `AddProcessArtifacts` of a Go process (deploy_linux_.go lines 28-53) with `CreateProcessDir` (deploy.go lines
131-135; the process calls it with its `ProcName`, which is its clean name, ir_goproc.go line 28). -/
def Workspace.addProc (w : Workspace) (p : Proc) : Workspace :=
  let key := p.name ++ ".artifacts".toList
  if key ∈ w.visited then w
  else
    let dir := cleanName (cleanName p.name)
    { visited := key :: w.visited
      files := writeBelow w.files dir p.files
      procDirs := if dir ∈ w.procDirs then w.procDirs else dir :: w.procDirs
      custom := putCustom (cleanName p.name) (goprocCmds (cleanName p.name)) w.custom }

/-- `generateArtifacts` (deploy.go lines 85-106): all processes. -/
def Workspace.addProcs (w : Workspace) (ps : List Proc) : Workspace := ps.foldl addProc w

def buildSh : Str := "build.sh".toList
def runSh : Str := "run.sh".toList

/-- `Finish` (deploy.go lines 163-171, deploy_docker.go lines 113-121): the scripts are written. -/
def Workspace.finish (w : Workspace) (build run : Nat) : FS := (w.files.set [buildSh] (.file build)).set [runSh] (.file run)

/-- `Generate` (dockerfile_.go lines 33-40): the processes that are just copied. -/
def Workspace.defaults (w : Workspace) : List Str := w.procDirs.filter fun d => d ∉ w.custom.map (·.1)

/-- Step 1 of the Dockerfile (dockerfile_.go lines 50-56): one stage after the other. -/
def runStages (env : Env) (context : FS) : List (Str × List Cmd) → Option (List (Str × FS))
  | [] => some []
  | (n, cs) :: l =>
    match stageName n, runCmds env context env.golang cs with
    | some s, some fs => match runStages env context l with
      | some rest => some ((s, fs) :: rest)
      | none => none
    | _, _ => none

/-- `COPY ./NAME /NAME` for each process (lines 65-68). -/
def copyDefaults (context : FS) (fs : FS) : List Str → Option FS
  | [] => some fs
  | d :: ds => match copy context [d] [d] fs with
    | some fs => copyDefaults context fs ds
    | none => none

/-- The files of the last stage with this name. -/
def findStage (stages : List (Str × FS)) (n : Str) : Option FS :=
  (stages.reverse.find? fun x => x.1 == n.map lower).map (·.2)

/-- `COPY --from=NAME /NAME /NAME` for each process (lines 70-73). -/
def copyCustom (stages : List (Str × FS)) (fs : FS) : List Str → Option FS
  | [] => some fs
  | d :: ds => match findStage stages d with
    | none => none
    | some st => match copy st [d] [d] fs with
      | some fs => copyCustom stages fs ds
      | none => none

/-- `docker build` of the generated Dockerfile (dockerfile_.go lines 42-88).  `effect` is what running `build.sh` does
to the files; its exit status is that of its last command (see `Scripts.lean`). -/
def buildImage (env : Env) (w : Workspace) (build run : Nat) (effect : FS → FS) : Option FS :=
  let context := w.finish build run
  match runStages env context w.custom with
  | none => none
  | some stages =>
    match copyDefaults context env.base w.defaults with
    | none => none
    | some fs => match copyCustom stages fs (w.custom.map (·.1)) with
      | none => none
      | some fs =>
        let fs := fs.set ["bin".toList, "sh".toList] (.file env.sh)
        match copy context [buildSh] [buildSh] fs with
        | none => none
        | some fs => copy context [runSh] [runSh] (effect fs)

/-- The file that `run.sh` starts, which runs in `/` (dockerfile_.go lines 84-87): `cd NAME`, `./NAME`
(goproc/linuxgen/runfunc.go lines 41-48, with the name from deploy_linux_.go line 61). -/
def started (p : Proc) : Path := [cleanName p.name, cleanName p.name]

end Verif.Image
