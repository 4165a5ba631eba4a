import Verif.Live.Spec
import Verif.Live.DeployModel
import Verif.Compile.Spec
import Verif.Strings.Model
/-
What a deployed application should be: which applications are meant, and what the objects of the running services are.
-/
namespace Verif.Live
open Verif.Wiring (Name)
open Verif.Compile
open Verif.Strings (cleanName envVar)

/-- The names of processes, containers and addresses. -/
def Outer (A : App) (x : Name) : Prop :=
  (∃ l, (x, l) ∈ A.spaces) ∨ ∃ S ∈ A.svcs, S.rpc = true ∧ (x = bindName S.addrN ∨ x = dialName S.addrN ∨ S.back = true ∧ x = S.serverN)

/-- The services are in processes, which are in containers, which are in one deployment; backends are in the deployment; the names of
processes, containers and addresses are different as environment variables too, and have no blanks, newlines and `=`, so that they can be
names and flags in shell scripts; there are ports for all services; and what runs in the images of backends listens on a port. -/
structure Deployable (A : App) (deployment : Space) (image : Name → Image) : Prop where
  places : ∀ S ∈ A.svcs, S.back = false → ∃ p c, S.home = p :: c :: deployment
  backends : ∀ S ∈ A.svcs, S.back = true → S.home = deployment
  vars : ∀ x y, Outer A x → Outer A y → envVar x.toList = envVar y.toList → x = y
  plain : ∀ x, Outer A x → ' ' ∉ x.toList ∧ '\n' ∉ x.toList ∧ '=' ∉ x.toList ∧ cleanName x.toList ≠ []
  size : A.svcs.length ≤ 53191
  images : ∀ S ∈ A.svcs, S.back = true → (image S.serverN).port ≠ 0 ∧ (image S.serverN).port < 65536

/-- The container that the service is in; a backend has a container of its own. -/
def container (S : Svc) : Name := if S.back then S.serverN else S.home.getD 1 ""

/-- The address that the service should listen on, and the one that its clients should dial. -/
def listenAddr (port : Svc → Nat) (S : Svc) : String := "0.0.0.0:" ++ toString (port S)
def dialAddr (port : Svc → Nat) (S : Svc) : String := String.ofList (cleanName (container S).toList) ++ ":" ++ toString (port S)

/-- The clients of workflow services (as opposed to their wrappers). -/
def isClient (A : App) (n : Name) : Bool := A.svcs.any fun S => !S.back && clientN S.name == n

/-- Wrappers around an object, outermost first, and outermost last. -/
def wrapsIn (xs : List Name) (o : Obj) : Obj := xs.foldr (fun x o => .made x [o]) o
def wrapsOut (xs : List Name) (o : Obj) : Obj := xs.foldl (fun o x => .made x [o]) o

mutual
/-- The object is this service, with the right arguments, if `addr` are the services' addresses. -/
inductive IsService (A : App) (addr : Svc → String) : Svc → Obj → Prop where
  | made {S : Svc} {args : List Obj} : IsArgs A addr S.args args → IsService A addr S (.made S.name args)

inductive IsArgs (A : App) (addr : Svc → String) : List Name → List Obj → Prop where
  | nil : IsArgs A addr [] []
  | cons {a : Name} {as : List Name} {o : Obj} {os : List Obj} : IsArg A addr a o → IsArgs A addr as os → IsArgs A addr (a :: as) (o :: os)

/-- The object is what the argument with this name in the wiring spec should be. -/
inductive IsArg (A : App) (addr : Svc → String) : Name → Obj → Prop where
  /-- a string; -/
  | str {a : Name} : (∀ U ∈ A.svcs, U.name ≠ a) → IsArg A addr a (.str a)
  /-- a service that is deployed: a gRPC, HTTP or Thrift client for its address, in the service's client wrappers; or a client for the address of a
  backend; -/
  | remote {U : Svc} : U ∈ A.svcs → U.rpc = true →
      IsArg A addr U.name (wrapsIn (clients U.name U.wraps) (.made U.rpcClientN [.str (addr U)]))
  /-- or else the service itself, in its server wrappers and client wrappers -/
  | here {U : Svc} {o : Obj} : U ∈ A.svcs → U.rpc = false → IsService A addr U o →
      IsArg A addr U.name (wrapsIn (clients U.name U.wraps) (wrapsOut (servers U.name U.wraps) o))
end

/-- What has happened in a process that has started: for each of its services, -/
structure Serving (A : App) (nodes : List Name) (port : Svc → Nat) (home : Space) (log : List Event) : Prop where
  /-- it was made once, with the right arguments, and, if it is deployed, one server was made for it, with the service in its server
  wrappers, that listens on the service's port; -/
  services : ∀ S, A.Active nodes S → S.home = home → ∃ args, IsService A (dialAddr port) S (.made S.name args) ∧
    .made S.name args ∈ log ∧ madeCount S.name log = 1 ∧
    (S.rpc = true → .made S.serverN [wrapsOut (servers S.name S.wraps) (.made S.name args), .str (listenAddr port S)] ∈ log ∧
      madeCount S.serverN log = 1)
  /-- and for each deployed service and each backend that they call one client was made, which dials the container and the port of the service -/
  clients : ∀ U, A.Calls nodes home U → U.rpc = true →
    .made U.rpcClientN [.str (dialAddr port U)] ∈ log ∧ madeCount U.rpcClientN log = 1

end Verif.Live
