/-
Model of the wiring spec: blueprint/pkg/wiring/wiring.go.
-/
namespace Verif.Wiring

/-- Names of wiring definitions, aliases and property keys (Go strings). -/
abbrev Name := String

/-- A Go map, as the list of its entries; Go's iteration order is unspecified, so
nothing below may depend on the order of this list. -/
abbrev GoMap (α : Type) := List (Name × α)

namespace GoMap
variable {α : Type}

/-- `m[k]` -/
def get (m : GoMap α) (k : Name) : Option α := (m.find? fun e => e.1 == k).map (·.2)

/-- `delete(m, k)` -/
def del (m : GoMap α) (k : Name) : GoMap α := m.filter fun e => e.1 != k

/-- `m[k] = v` -/
def set (m : GoMap α) (k : Name) (v : α) : GoMap α := (k, v) :: m.del k

end GoMap

/-- blueprint/pkg/wiring/wiring.go:66-75 (WiringDef).  `T` stands for node types,
`B` for build functions and `P` for property values; `nodeType` and `build` are
`none` in a definition that only ever received properties.  The options are left
out (they only carry flags for the namespace). -/
structure Def (T B P : Type) where
  name : Name
  nodeType : Option T
  build : Option B
  properties : Name → List P

/-- blueprint/pkg/wiring/wiring.go:77-84 (wiringSpecImpl).  Errors are left out. -/
structure Spec (T B P : Type) where
  defs : GoMap (Def T B P)
  aliases : GoMap Name

variable {T B P : Type}

/-- blueprint/pkg/wiring/wiring.go:97-105 (NewWiringSpec). -/
def Spec.new : Spec T B P := ⟨[], []⟩

/-- blueprint/pkg/wiring/wiring.go:163-176 (getDef with createIfAbsent = true): the
definition and the spec in which it exists. -/
def Spec.getOrCreate (s : Spec T B P) (n : Name) : Def T B P × Spec T B P :=
  match s.defs.get n with
  | some d => (d, s)
  | none =>
    let d : Def T B P := ⟨n, none, none, fun _ => []⟩
    (d, { defs := s.defs.set n d, aliases := s.aliases.del n })

/-- Writing through the `*WiringDef` that getDef returned. -/
def Spec.update (s : Spec T B P) (n : Name) (f : Def T B P → Def T B P) : Spec T B P :=
  let (d, s) := s.getOrCreate n
  { s with defs := s.defs.set n (f d) }

/-- The property key under which Define stores the call site. -/
def callsite : Name := "callsite"

/-- The calls a plugin or a user makes on a wiring spec. -/
inductive Op (T B P : Type) where
  | define (n : Name) (nodeType : T) (build : B) (stack : P)
  | alias (a : Name) (pointsto : Name)
  | setProperty (n : Name) (key : Name) (value : P)
  | addProperty (n : Name) (key : Name) (value : P)

/-- blueprint/pkg/wiring/wiring.go:180-191 (Define), 208-214 (Alias), 225-229
(SetProperty), 232-235 (AddProperty). -/
def Spec.step (s : Spec T B P) : Op T B P → Spec T B P
  | .define n t b st => s.update n fun d =>
      { d with
        nodeType := some t
        build := some b
        properties := fun k => if k = callsite then [st] else d.properties k }
  | .alias a p => { defs := s.defs.del a, aliases := s.aliases.set a p }
  | .setProperty n key v => s.update n fun d =>
      { d with properties := fun k => if k = key then [v] else d.properties k }
  | .addProperty n key v => s.update n fun d =>
      { d with properties := fun k => if k = key then d.properties key ++ [v] else d.properties k }

/-- A sequence of calls on a new spec. -/
def Spec.run (ops : List (Op T B P)) : Spec T B P := ops.foldl Spec.step Spec.new

/-- blueprint/pkg/wiring/wiring.go:152-161 (resolveAlias): follow aliases, for at
most `fuel` rounds of the loop (`none`: still looping). -/
def Spec.resolveAlias (s : Spec T B P) : (fuel : Nat) → Name → Option Name
  | 0, _ => none
  | fuel + 1, a =>
    match s.aliases.get a with
    | some p => s.resolveAlias fuel p
    | none => some a

/-- blueprint/pkg/wiring/wiring.go:194-197 (GetDef), cut off after `fuel` rounds. -/
def Spec.getDef (s : Spec T B P) (fuel : Nat) (n : Name) : Option (Option (Def T B P)) :=
  (s.resolveAlias fuel n).map fun m => s.defs.get m

/-- blueprint/pkg/wiring/wiring.go:219-222 (GetAlias). -/
def Spec.getAlias (s : Spec T B P) (n : Name) : Option Name := s.aliases.get n

/-- blueprint/pkg/wiring/wiring.go:199-205 (Defs), in unspecified order. -/
def Spec.defNames (s : Spec T B P) : List Name := s.defs.map (·.1)

/-- What a Get…Property call leaves in its destination. -/
inductive PropResult (P : Type) where
  /-- no such definition: no error, the destination is not touched -/
  | untouched
  | zero
  | value (v : P)
deriving DecidableEq, Repr

/-- blueprint/pkg/wiring/wiring.go:238-244 and 111-118 (GetProperty).  The copy into
the destination is modelled in Verif.GoValue. -/
def Spec.getProperty (s : Spec T B P) (n key : Name) : PropResult P :=
  match s.defs.get n with
  | none => .untouched
  | some d =>
    match d.properties key with
    | [v] => .value v
    | _ => .zero

/-- blueprint/pkg/wiring/wiring.go:247-253 and 120-122 (GetProperties); `none` when
there is no such definition and the destination is not touched. -/
def Spec.getProperties (s : Spec T B P) (n key : Name) : Option (List P) :=
  (s.defs.get n).map fun d => d.properties key

end Verif.Wiring
