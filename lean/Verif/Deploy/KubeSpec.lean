import Verif.Deploy.KubeModel
import Verif.Deploy.ComposeSpec

/-
What a Kubernetes application should contain, in terms of the pods and the containers'
arguments.
-/
namespace Verif.Deploy.Kube
open Verif.Deploy Verif.Strings
open Verif.Deploy.Compose (argKey NoClash)

/-- The containers of a pod, with their arguments. -/
def containers (ops : List Op) : List (Str × List Arg) :=
  ops.filterMap fun | .declare name args => some (name, args) | .setEnv _ _ _ => none

/-- The servers of a pod. -/
def servers (p : PodIn) : List Nat := (containers p.ops).flatMap fun a => bindIds a.2

/-- `out` was generated for the pods: every map is visited in some order, no bind config
object is an argument twice, and the pods have different Kubernetes names. -/
structure Generated (pods : List PodIn) (h : Heap) (out : Output) : Prop where
  perm1 : ∀ p ∈ pods, p.o1.Perm (containers p.ops)
  perm2 : ∀ p ∈ pods, p.o2.Perm (containers p.ops)
  names : (pods.map fun p => kubernetesName p.name).Nodup
  objects : (pods.flatMap servers).Nodup
  bits : Ports16 h
  done : generateArtifacts pods h = .ok out

/-- What a variable of a container is set to. -/
inductive Seen where
  | lit (s : Str)
  | listen (port : Nat)
  | addr (host : Str) (port : Nat)
deriving DecidableEq, Repr

/-- The value of variable `x` in a container: Kubernetes takes the last entry with that
name, and reads references to the config map. -/
def seen (out : Output) (pod container x : Str) : Option Seen :=
  match get pod out.files with
  | none => none
  | some f =>
    match get container f with
    | none => none
    | some i =>
      match get x i.env.reverse with
      | none => none
      | some (.value (.lit s)) => some (.lit s)
      | some (.value (.listen p)) => some (.listen p)
      | some (.value (.localhost p)) => some (.addr "localhost".toList p)
      | some (.configMapKeyRef k) => (get k out.data).map fun v => .addr v.1 v.2

/-- The server with bind config `i` in container `name` of `pod` listens on port `p`: the
port fixed in advance, or else the one that the container is told to listen on.  The
container and the pod's service publish the port. -/
def Serves (out : Output) (h : Heap) (pod name : Str) (i p : Nat) : Prop :=
  ((h i).port ≠ 0 → p = (h i).port) ∧
  ((h i).port = 0 →
    seen out (kubernetesName pod) (cleanName name) (envVar (h i).key) = some (.listen p)) ∧
  ∃ f c, get (kubernetesName pod) out.files = some f ∧ get (cleanName name) f = some c ∧
    p ∈ c.containerPorts ∧ (templateName (h i).addr, p) ∈ servicePorts f

/-- No container binds an address twice. -/
def OncePerContainer (h : Heap) (p : PodIn) : Prop :=
  ∀ c ∈ containers p.ops, ∀ i j, .bind i ∈ c.2 → .bind j ∈ c.2 → (h i).addr = (h j).addr → i = j

end Verif.Deploy.Kube
