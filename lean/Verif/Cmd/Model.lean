/-
The command line programs that compile wiring specs: /repo/plugins/cmdbuilder/cmdbuilder.go.

Simplifications: log messages are left out; the flag package has parsed the arguments (`Flags`); wiring specs, IR nodes, analysis passes and
generators are arbitrary functions that return an error or a result.
-/
namespace Verif.Cmd

abbrev Name := List Char

/-- `SpecOption` (lines 79-83). -/
structure SpecOption (W E : Type) where
  name : Name
  description : Name
  build : W → Except E (W × List Name)

/-- The values of the flags (lines 152-156): -o, -w, -quiet, -env and -port. -/
structure Flags where
  output : Name
  spec : Name
  quiet : Bool
  env : Bool
  port : Nat

/-- What a program can do, in order. -/
inductive Event (IR : Type) where
  | registerDefaults
  | assignPorts (start : Nat)
  | suppressLogging
  | generate (dir : Name) (ir : IR)
deriving DecidableEq

/-- `Registry` (lines 98, 142-146): the specs that were added, the latest first. -/
def add {W E : Type} (reg : List (SpecOption W E)) (specs : List (SpecOption W E)) : List (SpecOption W E) :=
  specs.foldl (fun r s => s :: r.filter (fun x => x.name != s.name)) reg

/-- `b.Registry[name]` -/
def lookup {W E : Type} (reg : List (SpecOption W E)) (n : Name) : Option (SpecOption W E) := reg.find? (fun s => s.name == n)

/-- `uint16(*port)` (line 164). -/
def startPort (f : Flags) : Nat := f.port % 65536

/-- `ValidateArgs` (lines 167-188): the spec that was selected, or none for an error. -/
def validate {W E : Type} (reg : List (SpecOption W E)) (f : Flags) : Option (SpecOption W E) :=
  if f.output = [] then none
  else if f.spec = [] then none
  else lookup reg f.spec

/-- The environment of a build: the empty wiring spec of an application, BuildIR, and GenerateArtifacts, which can fail. -/
structure Env (W IR E : Type) where
  new : W
  buildIR : W → List Name → Except E IR
  generate : Name → IR → Option E

/-- The loop over the analysis passes (lines 226-238): a pass may modify the IR. -/
def analyse {W IR E : Type} (w : W) : List (W → IR → Except E IR) → IR → Except E IR
  | [], ir => .ok ir
  | p :: ps, ir => match p w ir with
    | .error e => .error e
    | .ok ir' => analyse w ps ir'

/-- `Build` (lines 199-250): the error, if any, and what was done. -/
def build {W IR E : Type} (env : Env W IR E) (passes : List (W → IR → Except E IR)) (s : SpecOption W E) (f : Flags) :
    Option E × List (Event IR) :=
  let ev := .registerDefaults :: if f.env then [.assignPorts (startPort f)] else []
  match s.build env.new with
  | .error e => (some e, ev)
  | .ok (w, nodes) =>
    match env.buildIR w nodes with
    | .error e => (some e, ev)
    | .ok ir =>
      match analyse w passes ir with
      | .error e => (some e, ev)
      | .ok ir => (env.generate f.output ir, ev ++ [.generate f.output ir])

/-- `MakeAndExecute` and `MakeAndExecuteWithPasses` (lines 103-134): the exit status and what was done. -/
def run {W IR E : Type} (env : Env W IR E) (passes : List (W → IR → Except E IR)) (specs : List (SpecOption W E)) (f : Flags) :
    Nat × List (Event IR) :=
  match validate (add [] specs) f with
  | none => (1, [])
  | some s =>
    let ev := if f.quiet then [.suppressLogging] else []
    match build env passes s f with
    | (some _, l) => (2, ev ++ l)
    | (none, l) => (0, ev ++ l)

end Verif.Cmd
