import Verif.Deploy.ComposeModel

/-
What a docker-compose file should contain, in terms of the containers' arguments.
-/
namespace Verif.Deploy.Compose
open Verif.Deploy Verif.Strings

/-- The name under which an argument is configured. -/
def argKey (h : Heap) : Arg → Option Str
  | .bind i => some (h i).key
  | .dial key _ => some key
  | .config name _ _ => some name
  | .other => none

/-- No two arguments of a container are configured by the same environment variable. -/
def NoClash (h : Heap) (args : List Arg) : Prop :=
  ∀ a ∈ args, ∀ b ∈ args, ∀ k l, argKey h a = some k → argKey h b = some l →
    envVar k = envVar l → a = b

/-- The containers `w` were declared by the calls `ops`, no bind config object is an
argument twice, and the docker-compose file `file` was made from them, with the map of
containers visited in the orders `o1` and `o2`. -/
structure Generated (ops : List Op) (w : Workspace) (h : Heap) (o1 o2 : List (Str × List Arg))
    (file : File) : Prop where
  run : Workspace.empty.run ops = some w
  perm1 : o1.Perm w.args
  perm2 : o2.Perm w.args
  objects : (w.args.flatMap fun a => bindIds a.2).Nodup
  bits : Ports16 h
  done : ∃ h', finish w h o1 o2 = .ok (file, h')

/-- In the file, the server with bind config `i` in container `name` listens on port `p`:
the port fixed in advance, or else the one that the container is told to listen on.  The
port is reachable from the other containers, and from the host machine through the
variable named after the bind config. -/
def Serves (file : File) (h : Heap) (name : Str) (i : Nat) (p : Nat) : Prop :=
  ∃ c, file (cleanName name) = some c ∧
    ((h i).port ≠ 0 → p = (h i).port) ∧
    ((h i).port = 0 → c.config (envVar (h i).key) = some (.listen p)) ∧
    c.expose p = true ∧
    c.ports (.required (envVar (h i).key) (h i).key) = some p

end Verif.Deploy.Compose
