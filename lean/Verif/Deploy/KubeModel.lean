import Verif.Deploy.Common

/-
Model of /repo/plugins/kubernetes: kubepod/deploy.go, kubepod/deploygen/deployfile.go, ir.go
and kubeconfig/codegen.go: which variables and ports the containers of a Kubernetes
application get, and what the services and the config map contain.
Not modelled: images, volumes, custom commands and custom configurations, logging, file
system errors, and the text of the files apart from which entries it has.
-/
namespace Verif.Deploy.Kube
open Verif.Deploy Verif.Strings

/-- Maps as lists of entries with different keys: the entry of a key is replaced, or a new
one is added. -/
def put {α : Type} (k : Str) (v : α) : List (Str × α) → List (Str × α)
  | [] => [(k, v)]
  | e :: l => if e.1 = k then (k, v) :: l else e :: put k v l

/-- Look up a key. -/
def get {α : Type} (k : Str) : List (Str × α) → Option α
  | [] => none
  | e :: l => if e.1 = k then some e.2 else get k l

/-- kubepod/deploy.go:47-49 (KubernetesName). -/
def kubernetesName (s : Str) : Str := s.map fun c => if c = '_' then '-' else c

/-- kubetemplate/template.go:65-69 (KubernetesName in templates). -/
def templateName (s : Str) : Str := s.map fun c => if c = '_' ∨ c = '.' then '-' else c

/-- The value of an environment variable of a container. -/
inductive Value where
  /-- a text given by a plugin -/
  | lit (s : Str)
  /-- `0.0.0.0:port` -/
  | listen (port : Nat)
  /-- `localhost:port` -/
  | localhost (port : Nat)
deriving DecidableEq, Repr

/-- deployfile.go:24-33 (instance), the fields Ports, Config and ConfigMap. -/
structure Inst where
  ports : List (Str × Nat)
  config : List (Str × Value)
  configMap : List (Str × Bool)
deriving DecidableEq, Repr

/-- deployfile.go:21, the map Instances. -/
scoped notation "File" => List (Str × Inst)

/-- deployfile.go:64-71 (getInstance), followed by a change of the instance; the error for
an unknown instance is dropped, as processArgNodes does. -/
def modify (f : File) (name : Str) (g : Inst → Inst) : File :=
  f.map fun e => if e.1 = cleanName name then (e.1, g e.2) else e

/-- deployfile.go:73-82 (AddEnvVar). -/
def addEnvVar (f : File) (name key : Str) (v : Value) : File :=
  modify f name fun i => { i with config := put (envVar key) v i.config }

/-- deployfile.go:84-91 (AddConfigMapVar). -/
def addConfigMapVar (f : File) (name key : Str) : File :=
  modify f name fun i => { i with configMap := put key true i.configMap }

/-- deployfile.go:93-101 (ExposePort). -/
def exposePort (f : File) (name portName : Str) (port : Nat) : File :=
  modify f name fun i => { i with ports := put portName port i.ports }

/-- kubepod/deploy.go:29-44 (kubeDeploymentWorkspace): InstanceArgs and the file.  The map
InstanceArgs is a list here; the order in which Go iterates over it is chosen by
`processArgNodes`. -/
structure Workspace where
  args : List (Str × List Arg)
  file : File

/-- kubepod/deploy.go:83-96 (NewKubePodWorkspace). -/
def Workspace.empty : Workspace := ⟨[], []⟩

/-- What the container nodes ask of the workspace. -/
inductive Op where
  /-- DeclarePrebuiltInstance and DeclareLocalImage -/
  | declare (name : Str) (args : List Arg)
  /-- SetEnvironmentVariable -/
  | setEnv (name key val : Str)
deriving DecidableEq, Repr

/-- kubepod/deploy.go:112-133 with deployfile.go:130-148 (addInstance) and 73-82; `none` is
an error, on which the generation stops. -/
def Workspace.step (w : Workspace) : Op → Option Workspace
  | .declare name args =>
    match get (cleanName name) w.file with
    | some _ => none
    | none => some
      { args := w.args ++ [(name, args)]
        file := put (cleanName name) ⟨[], [], []⟩ w.file }
  | .setEnv name key val =>
    match get (cleanName name) w.file with
    | none => none
    | some _ => some { w with file := addEnvVar w.file name key (.lit val) }

/-- kubepod/deploy.go:59-72: the calls of all container nodes. -/
def Workspace.run (w : Workspace) : List Op → Option Workspace
  | [] => some w
  | op :: ops => match w.step op with
    | none => none
    | some w => w.run ops

/-- kubepod/deploy.go:185-188: the ports of the local addresses. -/
def localAddresses (h : Heap) : List (Str × Nat) → List Nat → List (Str × Nat)
  | m, [] => m
  | m, i :: ids => localAddresses h (put (h i).addr (h i).port m) ids

/-- kubepod/deploy.go:199-213: the arguments that are not addresses. -/
def checkConfigs : List Arg → Bool
  | [] => true
  | .config _ _ hasValue :: rest => hasValue && checkConfigs rest
  | .other :: _ => false
  | .bind _ :: rest => checkConfigs rest
  | .dial _ _ :: rest => checkConfigs rest

/-- kubepod/deploy.go:216-220. -/
def setAssigned (h : Heap) (assigned : List Nat) (name : Str) (f : File) : List Nat → File
  | [] => f
  | i :: ids =>
    setAssigned h assigned name
      (if i ∈ assigned then addEnvVar f name (h i).key (.listen (h i).port) else f) ids

/-- kubepod/deploy.go:223-225. -/
def exposeAll (h : Heap) (name : Str) (f : File) : List Nat → File
  | [] => f
  | i :: ids => exposeAll h name (exposePort f name (h i).addr (h i).port) ids

/-- kubepod/deploy.go:229-236. -/
def setDials (local_ : List (Str × Nat)) (name : Str) (f : File) : List Arg → File
  | [] => f
  | .dial key addr :: rest =>
    setDials local_ name (match get addr local_ with
      | some port => addEnvVar f name key (.localhost port)
      | none => addConfigMapVar f name (envVar key)) rest
  | _ :: rest => setDials local_ name f rest

/-- The dial configs among the arguments
(blueprint/pkg/coreplugins/address/portassignment.go:10-22). -/
def dialsOf (args : List Arg) : List (Str × Str) :=
  args.filterMap fun | .dial key addr => some (key, addr) | _ => none

/-- kubepod/deploy.go:195-239: the second loop; the result contains AllDials. -/
def secondLoop (h : Heap) (assigned : List Nat) (local_ : List (Str × Nat)) (f : File)
    (dials : List (Str × Str)) : List (Str × List Arg) → Option ((File) × List (Str × Str))
  | [] => some (f, dials)
  | (name, args) :: rest =>
    if checkConfigs args then
      let f := setAssigned h assigned name f (bindIds args)
      let f := exposeAll h name f (bindIds args)
      let f := setDials local_ name f args
      secondLoop h assigned local_ f (dials ++ dialsOf args) rest
    else none

/-- What a pod leaves behind: the file, AllBinds and AllDials. -/
structure Pod where
  file : File
  binds : List Nat
  dials : List (Str × Str)

/-- kubepod/deploy.go:161-242 (processArgNodes).  `o1` and `o2` are the orders in which the
two loops see the map InstanceArgs. -/
def processArgNodes (w : Workspace) (h : Heap) (o1 o2 : List (Str × List Arg)) :
    Outcome (Pod × Heap) :=
  let allBinds := o1.flatMap fun a => bindIds a.2
  match assignPorts h allBinds with
  | .error => .error
  | .diverges => .diverges
  | .ok (h, assigned) =>
    match secondLoop h assigned (localAddresses h [] allBinds) w.file [] o2 with
    | none => .error
    | some (f, dials) => .ok (⟨f, allBinds, dials⟩, h)

/-- A pod of the application: its name, what its containers ask for, and the orders in
which its map is visited. -/
structure PodIn where
  name : Str
  ops : List Op
  o1 : List (Str × List Arg)
  o2 : List (Str × List Arg)

/-- kubepod/deploy.go:52-81 (GenerateArtifacts, generateArtifacts). -/
def generatePod (p : PodIn) (h : Heap) : Outcome (Pod × Heap) :=
  match Workspace.empty.run p.ops with
  | none => .error
  | some w => processArgNodes w h p.o1 p.o2

/-- The variables of GenerateArtifacts (ir.go:39-41), the bind configs and the files that
were written: `name-deployment.yaml` and `name-service.yaml`, by Kubernetes name. -/
structure St where
  addrs : List (Str × (Str × Nat))
  dials : List (Str × Str)
  heap : Heap
  files : List (Str × File)

/-- ir.go:50-52; the address info keeps a pointer to the bind config. -/
def noteBinds (h : Heap) (pod : Str) : List (Str × (Str × Nat)) → List Nat → List (Str × (Str × Nat))
  | m, [] => m
  | m, i :: ids => noteBinds h pod (put (h i).addr (kubernetesName pod, i) m) ids

/-- ir.go:43-53: the loop over the pods. -/
def generatePods (s : St) : List PodIn → Outcome St
  | [] => .ok s
  | p :: ps =>
    match generatePod p s.heap with
    | .error => .error
    | .diverges => .diverges
    | .ok (pod, h) =>
      generatePods
        { addrs := noteBinds h p.name s.addrs pod.binds
          dials := s.dials ++ pod.dials
          heap := h
          files := put (kubernetesName p.name) pod.file s.files } ps

/-- ir.go:57-63: the data of the config map; a value is `host:port`. -/
def configData (addrs : List (Str × (Str × Nat))) (h : Heap) :
    List (Str × (Str × Nat)) → List (Str × Str) → Option (List (Str × (Str × Nat)))
  | data, [] => some data
  | data, (key, addr) :: dials =>
    match get addr addrs with
    | some (pod, i) => configData addrs h (put (envVar key) (pod, (h i).port) data) dials
    | none => none

/-- What is generated: the files of the pods and the config map. -/
structure Output where
  files : List (Str × File)
  data : List (Str × (Str × Nat))
deriving DecidableEq

/-- ir.go:38-66 (GenerateArtifacts). -/
def generateArtifacts (pods : List PodIn) (h : Heap) : Outcome Output :=
  match generatePods ⟨[], [], h, []⟩ pods with
  | .error => .error
  | .diverges => .diverges
  | .ok s =>
    match configData s.addrs s.heap [] s.dials with
    | none => .error
    | some data => .ok ⟨s.files, data⟩

/-- An entry of `env` in a deployment file. -/
inductive EnvSource where
  | value (v : Value)
  /-- from the config map `app-config` -/
  | configMapKeyRef (key : Str)
deriving DecidableEq, Repr

/-- deployfile.go:168-182: the entries of `env`.  The entries for the config map are inside
`{{if .Config}}`. -/
def Inst.env (i : Inst) : List (Str × EnvSource) :=
  if i.config.isEmpty then []
  else i.config.map (fun e => (e.1, .value e.2)) ++ i.configMap.map (fun e => (e.1, .configMapKeyRef e.1))

/-- deployfile.go:183-188: the entries of `ports`. -/
def Inst.containerPorts (i : Inst) : List Nat := i.ports.map (·.2)

/-- deployfile.go:202-209: the ports of the service of a pod. -/
def servicePorts (f : File) : List (Str × Nat) :=
  f.flatMap fun e => e.2.ports.map fun p => (templateName p.1, p.2)

end Verif.Deploy.Kube
