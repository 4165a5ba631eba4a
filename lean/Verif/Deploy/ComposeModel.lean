import Verif.Deploy.Common

/-
Model of /repo/plugins/dockercompose/deploy.go and
/repo/plugins/dockercompose/dockergen/dockercompose.go: which environment variables, exposed
ports and port mappings each container of a docker-compose file gets.
Not modelled: images and build contexts, volumes, custom commands and custom keys, and the
text of the file (dockercompose.go:186-236).
-/
namespace Verif.Deploy.Compose
open Verif.Deploy Verif.Strings

/-- The value of an environment variable. -/
inductive Value where
  /-- a text given by a plugin -/
  | lit (s : Str)
  /-- `host:port` -/
  | addr (host : Str) (port : Nat)
  /-- `0.0.0.0:port` -/
  | listen (port : Nat)
  /-- `${var?key must be set by the calling environment}` -/
  | required (var key : Str)
  /-- `${var:-}` -/
  | optional (var : Str)
deriving DecidableEq, Repr

/-- dockercompose.go:28-39, the fields Config, Expose and Ports. -/
structure Inst where
  config : Str → Option Value
  expose : Nat → Bool
  ports : Value → Option Nat

/-- dockercompose.go:23, the map Instances. -/
scoped notation "File" => Str → Option Inst

/-- dockercompose.go:75-81 (getInstance), followed by a change of the instance; the error
for an unknown instance is dropped, as processArgNodes does. -/
def modify (f : File) (name : Str) (g : Inst → Inst) : File :=
  fun c => if c = cleanName name then (f c).map g else f c

/-- dockercompose.go:84-92 (AddEnvVar). -/
def addEnvVar (f : File) (name key : Str) (v : Value) : File :=
  modify f name fun i => { i with config := fun x => if x = envVar key then some v else i.config x }

/-- dockercompose.go:125-133 (PassthroughEnvVar), the value. -/
def passValue (key : Str) (optional : Bool) : Value :=
  if optional then .optional (envVar key) else .required (envVar key) key

/-- dockercompose.go:125-133 (PassthroughEnvVar). -/
def passthrough (f : File) (name key : Str) (optional : Bool) : File :=
  addEnvVar f name key (passValue key optional)

/-- dockercompose.go:136-143 (ExposePort). -/
def exposePort (f : File) (name : Str) (port : Nat) : File :=
  modify f name fun i => { i with expose := fun p => p == port || i.expose p }

/-- dockercompose.go:148-162 (MapPort, MapPortToEnvVar). -/
def mapPort (f : File) (name : Str) (port : Nat) (key : Str) : File :=
  modify f name fun i =>
    { i with ports := fun e => if e = .required (envVar key) key then some port else i.ports e }

/-- dockercompose.go:172-182, a new instance. -/
def Inst.empty : Inst := { config := fun _ => none, expose := fun _ => false, ports := fun _ => none }

/-- deploy.go:37-48 (dockerComposeWorkspace): InstanceArgs and the file.  The map
InstanceArgs is a list here; the order in which Go iterates over it is chosen by `finish`. -/
structure Workspace where
  args : List (Str × List Arg)
  file : File

/-- deploy.go:83-93 (NewDockerComposeWorkspace). -/
def Workspace.empty : Workspace := ⟨[], fun _ => none⟩

/-- What the container nodes ask of the workspace. -/
inductive Op where
  /-- DeclarePrebuiltInstance and DeclareLocalImage -/
  | declare (name : Str) (args : List Arg)
  /-- SetEnvironmentVariable -/
  | setEnv (name key val : Str)

/-- deploy.go:110-124 with dockercompose.go:164-183 (addInstance) and 84-92; `none` is an
error, on which the generation stops. -/
def Workspace.step (w : Workspace) : Op → Option Workspace
  | .declare name args =>
    match w.file (cleanName name) with
    | some _ => none
    | none => some
      { args := w.args ++ [(name, args)]
        file := fun c => if c = cleanName name then some .empty else w.file c }
  | .setEnv name key val =>
    match w.file (cleanName name) with
    | none => none
    | some _ => some { w with file := addEnvVar w.file name key (.lit val) }

/-- deploy.go:62-76: the calls of all container nodes. -/
def Workspace.run (w : Workspace) : List Op → Option Workspace
  | [] => some w
  | op :: ops => match w.step op with
    | none => none
    | some w => w.run ops

/-- The variables of processArgNodes (deploy.go:161-162), with the bind config objects. -/
structure St where
  file : File
  heap : Heap
  addresses : Str → Option (Str × Nat)

/-- deploy.go:171-180: the arguments that are not addresses. -/
def passConfigs (f : File) (name : Str) : List Arg → Outcome File
  | [] => .ok f
  | .config n optional hasValue :: rest =>
    passConfigs (if hasValue then f else passthrough f name n optional) name rest
  | .other :: _ => .error
  | .bind _ :: rest => passConfigs f name rest
  | .dial _ _ :: rest => passConfigs f name rest

/-- deploy.go:189-191. -/
def setAssigned (h : Heap) (name : Str) (f : File) : List Nat → File
  | [] => f
  | i :: ids => setAssigned h name (addEnvVar f name (h i).key (.listen (h i).port)) ids

/-- deploy.go:196-200, the addresses. -/
def noteAddresses (h : Heap) (name : Str) (a : Str → Option (Str × Nat)) :
    List Nat → Str → Option (Str × Nat)
  | [] => a
  | i :: ids =>
    noteAddresses h name (fun x => if x = (h i).addr then some (cleanName name, (h i).port) else a x) ids

/-- deploy.go:196-200, the exposed ports. -/
def exposeAll (h : Heap) (name : Str) (f : File) : List Nat → File
  | [] => f
  | i :: ids => exposeAll h name (exposePort f name (h i).port) ids

/-- deploy.go:205-207. -/
def mapAll (h : Heap) (name : Str) (f : File) : List Nat → File
  | [] => f
  | i :: ids => mapAll h name (mapPort f name (h i).port (h i).key) ids

/-- deploy.go:163-209: the body of the first loop. -/
def processInstance (s : St) (name : Str) (args : List Arg) : Outcome St :=
  match passConfigs s.file name args with
  | .error => .error
  | .diverges => .diverges
  | .ok f =>
    match assignPorts s.heap (bindIds args) with
    | .error => .error
    | .diverges => .diverges
    | .ok (h, assigned) =>
      let binds := bindIds args
      let f := setAssigned h name f assigned
      let f := exposeAll h name f binds
      let f := mapAll h name f binds
      .ok { file := f, heap := clearPorts h binds, addresses := noteAddresses h name s.addresses binds }

/-- deploy.go:163-209: the first loop. -/
def firstLoop (s : St) : List (Str × List Arg) → Outcome St
  | [] => .ok s
  | (name, args) :: rest =>
    match processInstance s name args with
    | .ok s => firstLoop s rest
    | .error => .error
    | .diverges => .diverges

/-- deploy.go:215-222: the dials of one instance. -/
def setDials (addresses : Str → Option (Str × Nat)) (name : Str) (f : File) : List Arg → File
  | [] => f
  | .dial key addr :: rest =>
    setDials addresses name (match addresses addr with
      | some (host, port) => addEnvVar f name key (.addr host port)
      | none => passthrough f name key false) rest
  | _ :: rest => setDials addresses name f rest

/-- deploy.go:214-223: the second loop. -/
def secondLoop (addresses : Str → Option (Str × Nat)) (f : File) : List (Str × List Arg) → File
  | [] => f
  | (name, args) :: rest => secondLoop addresses (setDials addresses name f args) rest

/-- deploy.go:161-226 (processArgNodes).  `o1` and `o2` are the orders in which the two
loops see the map InstanceArgs. -/
def finish (w : Workspace) (h : Heap) (o1 o2 : List (Str × List Arg)) : Outcome (File × Heap) :=
  match firstLoop ⟨w.file, h, fun _ => none⟩ o1 with
  | .error => .error
  | .diverges => .diverges
  | .ok s => .ok (secondLoop s.addresses s.file o2, s.heap)

end Verif.Deploy.Compose
