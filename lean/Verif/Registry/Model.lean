/-
Model of the service registry /repo/runtime/core/registry/registry.go (lines 18-70).

Simplifications: a build function is identified by a number; what it would return if it were run (value and
error together, type `R`) is an input of each Get, so it may differ from call to call.  Logging is omitted.
The registry has no locks; the model is sequential.
-/
namespace Verif.Registry

/-- What a Get returns: the pair returned by a build function, or one of the registry's own errors
(registry.go lines 57-58 and 63-64). -/
inductive Ret (R : Type) where
  | built (r : R)
  | noClients
  | unknownDefault (name : String)
deriving DecidableEq, Repr

/-- `ServiceRegistry` (registry.go lines 18-25).  `defaultBuildFunc` is initially the empty string;
`result` stands for the fields `isBuilt` (is it set), `built` and `buildError`. -/
structure State (R : Type) where
  defaultBuildFunc : String
  registered : List (String × Nat)
  result : Option (Ret R)

/-- `NewServiceRegistry` (registry.go lines 27-33). -/
def init (R : Type) : State R := ⟨"", [], none⟩

/-- Calls of the API; `get w` is a Get in a situation where build function `f` would return `w f`. -/
inductive Op (R : Type) where
  | setDefault (name : String)
  | register (name : String) (build : Nat)
  | get (w : Nat → R)

/-- Look up a key of the map `registered`: the latest registration of a name wins. -/
def lookup (l : List (String × Nat)) (name : String) : Option Nat :=
  (l.find? (fun p => p.1 = name)).map (·.2)

/-- `SetDefault` (registry.go lines 35-37). -/
def setDefault {R} (s : State R) (name : String) : State R := { s with defaultBuildFunc := name }

/-- `Register` (registry.go lines 39-45).  The map is a list of entries, latest first. -/
def register {R} (s : State R) (name : String) (build : Nat) : State R :=
  let s := if s.registered.length = 0 then { s with defaultBuildFunc := name } else s
  { s with registered := (name, build) :: s.registered }

/-- `Get` (registry.go lines 50-70): new state, result, and the build function that was run, if any. -/
def get {R} (s : State R) (w : Nat → R) : State R × Ret R × Option Nat :=
  match s.result with
  | some r => (s, r, none)                                            -- lines 51-53
  | none =>
    if s.registered.length = 0 then                                   -- lines 56-59
      ({ s with result := some .noClients }, .noClients, none)
    else
      match lookup s.registered s.defaultBuildFunc with
      | none =>                                                       -- lines 61-65
        let r := Ret.unknownDefault s.defaultBuildFunc
        ({ s with result := some r }, r, none)
      | some f =>                                                     -- lines 68-69
        let r := Ret.built (w f)
        ({ s with result := some r }, r, some f)

/-- Run a history; the trace records, for each Get, its result and the build function it ran. -/
def run {R} (s : State R) : List (Op R) → State R × List (Ret R × Option Nat)
  | [] => (s, [])
  | .setDefault n :: ops => run (setDefault s n) ops
  | .register n f :: ops => run (register s n f) ops
  | .get w :: ops =>
    let g := get s w
    let rest := run g.1 ops
    (rest.1, g.2 :: rest.2)

end Verif.Registry
