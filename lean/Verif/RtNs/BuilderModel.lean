import Verif.Strings.Model
/-
Model of the runtime's NamespaceBuilder: definitions and configuration arguments,
runtime/plugins/golang/namespace.go:53-193, 209-221, 259-268, 293-368.
-/
namespace Verif.RtNs

abbrev Name := String

/-- What a builder has for a name: a build function (identified by a number), a fixed
string (runtime/plugins/golang/namespace.go:119-122), or the build function that
reports a missing optional argument (namespace.go:332-334). -/
inductive Src where
  | defined (f : Nat)
  | value (v : String)
  | unset (n : Name)
deriving DecidableEq, Repr

/-- runtime/plugins/golang/namespace.go:53-65.  The maps `required` and `optional` are
kept as lists of their keys.  Descriptions, the list of nodes to instantiate and the
never assigned `err` are left out. -/
structure Builder where
  defs : Name → Option Src
  required : List Name
  optional : List Name
  parsed : Bool

/-- runtime/plugins/golang/namespace.go:104-114 (NewNamespaceBuilder). -/
def Builder.new : Builder := ⟨fun _ => none, [], [], false⟩

/-- runtime/plugins/golang/namespace.go:130-135 (Define); the warning is left out. -/
def Builder.define (b : Builder) (n : Name) (d : Src) : Builder :=
  { b with defs := fun m => if m = n then some d else b.defs m }

/-- The configuration calls of a program. -/
inductive Op where
  | define (n : Name) (f : Nat)
  | set (n : Name) (v : String)
  | required (n : Name)
  | optional (n : Name)
deriving DecidableEq, Repr

/-- One call; `reg` are the flags registered with package flag, which is shared by all
builders of the process.  `none`: panic, since `flag.String` (namespace.go:178, 191)
panics on a name that is registered already. -/
def Builder.step (reg : List Name) (b : Builder) : Op → Option (List Name × Builder)
  | .define n f => some (reg, b.define n (.defined f))
  | .set n v => some (reg, b.define n (.value v))
  | .required n =>
    if reg.contains n then none else some (n :: reg, { b with required := b.required ++ [n] })
  | .optional n =>
    if reg.contains n then none else some (n :: reg, { b with optional := b.optional ++ [n] })

/-- A sequence of calls. -/
def Builder.run : List Name → Builder → List Op → Option (List Name × Builder)
  | reg, b, [] => some (reg, b)
  | reg, b, op :: ops =>
    match b.step reg op with
    | none => none
    | some (reg, b) => Builder.run reg b ops

/-- The outside world: values of command line flags (empty when not given) and of
environment variables (empty when not set). -/
structure World where
  flag : Name → String
  env : List Char → String

/-- runtime/plugins/golang/namespace.go:145-147 (EnvVar). -/
def envOf (w : World) (n : Name) : String := w.env (Verif.Strings.envVar n.toList)

/-- runtime/plugins/golang/namespace.go:306-316: one required argument. -/
def Builder.parseRequired (w : World) (b : Builder) (n : Name) : Builder :=
  if (b.defs n).isSome then b
  else if w.flag n ≠ "" then b.define n (.value (w.flag n))
  else if envOf w n ≠ "" then b.define n (.value (envOf w n))
  else b

/-- runtime/plugins/golang/namespace.go:320-335: one optional argument. -/
def Builder.parseOptional (w : World) (b : Builder) (n : Name) : Builder :=
  if (b.defs n).isSome then b
  else if w.flag n ≠ "" then b.define n (.value (w.flag n))
  else if envOf w n ≠ "" then b.define n (.value (envOf w n))
  else b.define n (.unset n)

/-- runtime/plugins/golang/namespace.go:294-337 (parseFlags); `ro` and `oo` are the
orders in which Go happens to range over the two maps. -/
def Builder.parseFlags (w : World) (ro oo : List Name) (b : Builder) : Builder :=
  if b.parsed then b
  else
    let b := { b with parsed := true }
    oo.foldl (Builder.parseOptional w) (ro.foldl (Builder.parseRequired w) b)

/-- runtime/plugins/golang/namespace.go:339-354 (checkRequired): the missing names;
`has` tells what the parent namespace has. -/
def Builder.missing (b : Builder) (ro : List Name) (has : Name → Bool) : List Name :=
  ro.filter fun n => !(b.defs n).isSome && !has n

/-- The definitions of the new namespace, or the names in the error message. -/
inductive Outcome where
  | ok (defs : Name → Option Src)
  | missing (names : List Name)

/-- runtime/plugins/golang/namespace.go:209-229 (Build), up to the instantiation of
nodes; `rc` is the order of the second iteration over the required arguments.  Also
returns the builder, which can be built again. -/
def Builder.build (w : World) (ro oo rc : List Name) (b : Builder) : Builder × Outcome :=
  let b := b.parseFlags w ro oo
  match b.missing rc (fun _ => false) with
  | [] => (b, .ok b.defs)
  | m :: ms => (b, .missing (m :: ms))

/-- runtime/plugins/golang/namespace.go:259-278 (BuildWithParent), up to the
instantiation of nodes; `has` is the parent's `has` (namespace.go:357-368). -/
def Builder.buildWithParent (rc : List Name) (has : Name → Bool) (b : Builder) : Outcome :=
  match b.missing rc has with
  | [] => .ok b.defs
  | m :: ms => .missing (m :: ms)

end Verif.RtNs
