import Verif.Wiring.Model
/-
Model of compilation namespaces (blueprint/pkg/wiring/namespace.go) and of the
application build (blueprint/pkg/wiring/application.go).

Build functions are arbitrary Go closures that act through the Namespace
interface.  They are modelled as programs (`Prog`) over these actions: a program
can branch on every result it gets, swallow errors, create nodes, read and write
fields of nodes, derive namespaces and defer work.
-/
namespace Verif.Wiring.Ns

/-- An IR node: its identity (the pointer), its Name(), and whether it is IRMetadata. -/
structure Node where
  uid : Nat
  name : Name
  isMeta : Bool
deriving DecidableEq, Repr

/-- Namespaces are identified by number; 0 is the application. -/
scoped notation "NsId" => Nat

/-- Build functions and deferred functions.  `T` stands for node types. -/
inductive Prog (T : Type) where
  /-- `return node, nil` -/
  | ret (n : Node)
  /-- `return nil, err` -/
  | fail
  /-- `&SomeNode{…}` -/
  | new (name : Name) (isMeta : Bool) (k : Node → Prog T)
  /-- `ns.Get(name, &dst)` (`edge = true`) or `ns.Instantiate(name, &dst)`; the
  program sees `none` for an error -/
  | get (ns : NsId) (edge : Bool) (name : Name) (k : Option Node → Prog T)
  /-- `ns.DeriveNamespace(name, handler)` where the handler accepts these types -/
  | derive (ns : NsId) (name : Name) (accepts : T → Bool) (k : Option NsId → Prog T)
  /-- `ns.GetNamespace(name)` -/
  | child (ns : NsId) (name : Name) (k : Option NsId → Prog T)
  /-- `ns.Defer(f, DeferOpts{Front: front})` -/
  | defer (ns : NsId) (front : Bool) (f : Prog T) (k : Prog T)
  /-- reading a (nil-able) node-valued field of a node -/
  | load (uid : Nat) (k : Option Node → Prog T)
  /-- assigning a node to such a field -/
  | store (uid : Nat) (v : Node) (k : Prog T)

/-- What `GetDef` returns for the namespace: blueprint/pkg/wiring/wiring.go:66-75.
`build = none` is a definition that was only given properties. -/
structure NsDef (T : Type) where
  nodeType : T
  proxy : Bool
  build : Option (NsId → Prog T)

/-- The wiring spec as the namespace sees it: the resolved name and definition of
each name.  Resolution of aliases is modelled in Verif.Wiring.Model; here it is
assumed to end. -/
abbrev Lookup (T : Type) := Name → Option (Name × NsDef T)

/-- What a namespace does that its handler or an observer can see. -/
inductive Event where
  /-- the build function of `name` succeeded in namespace `ns` -/
  | built (ns : NsId) (name : Name) (n : Node)
  | addNode (ns : NsId) (name : Name) (n : Node)
  | addEdge (ns : NsId) (name : Name) (n : Node)
  /-- the node was marked as added without telling the handler; `edge` says whether
  it was asked for by Get (and not by Instantiate) -/
  | hidden (ns : NsId) (name : Name) (n : Node) (edge : Bool)
  /-- a function was deferred and given this ticket -/
  | deferred (ticket : Nat) (front : Bool)
  /-- a deferred function (identified by its ticket) was started -/
  | ran (ticket : Nat)
deriving DecidableEq, Repr

/-- The namespaces of a compilation, blueprint/pkg/wiring/namespace.go:98-112.
`seen` has `some none` for a nil node stored in the map.  `deferred` is the
application's queue; each function carries a ticket (its serial number). -/
structure St (T : Type) where
  size : Nat
  parent : NsId → Option NsId
  accepts : NsId → T → Bool
  seen : NsId → Name → Option (Option Node)
  added : NsId → Name → Bool
  children : NsId → Name → Option NsId
  nextUid : Nat
  fields : Nat → Option Node
  deferred : List (Nat × Prog T)
  nextTicket : Nat
  log : List Event

/-- Result of a call: a node, an error, or a panic (which ends the compiler). -/
inductive Res where
  | ok (n : Node)
  | err
  | panic
deriving DecidableEq, Repr

variable {T : Type}

/-- `namespace.Seen[name] = node` -/
def St.setSeen (s : St T) (ns : NsId) (name : Name) (v : Option Node) : St T :=
  { s with seen := fun m x => if m = ns ∧ x = name then some v else s.seen m x }

/-- `namespace.Added[name] = true` -/
def St.setAdded (s : St T) (ns : NsId) (name : Name) : St T :=
  { s with added := fun m x => if m = ns ∧ x = name then true else s.added m x }

/-- Record an event. -/
def St.emit (s : St T) (e : Event) : St T := { s with log := s.log ++ [e] }

/-- blueprint/pkg/wiring/namespace.go:197-205: after a node was gotten from the
parent. -/
def St.afterParent (s : St T) (ns : NsId) (name : Name) (edge proxy : Bool) (n : Node) : St T :=
  let s :=
    if s.added ns n.name then s
    else (if !n.isMeta && edge && !proxy then s.emit (.addEdge ns name n)
      else s.emit (.hidden ns name n edge)).setAdded ns n.name
  s.setSeen ns name (some n)

/-- blueprint/pkg/wiring/namespace.go:222-231: after a node was built. -/
def St.afterBuild (s : St T) (ns : NsId) (name : Name) (proxy : Bool) (n : Node) : St T :=
  let s := s.emit (.built ns name n)
  let s :=
    if s.added ns n.name then s
    else (if !proxy then s.emit (.addNode ns name n)
      else s.emit (.hidden ns name n true)).setAdded ns n.name
  s.setSeen ns name (some n)

/-- blueprint/pkg/wiring/namespace.go:293-311 (DeriveNamespace), the new child. -/
def St.addChild (s : St T) (ns : NsId) (name : Name) (acc : T → Bool) : St T :=
  { s with
    size := s.size + 1
    parent := fun m => if m = s.size then some ns else s.parent m
    accepts := fun m => if m = s.size then acc else s.accepts m
    seen := fun m => if m = s.size then fun _ => none else s.seen m
    added := fun m => if m = s.size then fun _ => false else s.added m
    children := fun m x =>
      if m = s.size then none
      else if m = ns ∧ x = name then some s.size else s.children m x }

/-- blueprint/pkg/wiring/namespace.go:258-272 (Defer); a child passes the function on
to its parent, so it ends up in the application's queue. -/
def St.defer (s : St T) (front : Bool) (f : Prog T) : St T :=
  { s with
    deferred := if front then (s.nextTicket, f) :: s.deferred else s.deferred ++ [(s.nextTicket, f)]
    nextTicket := s.nextTicket + 1
    log := s.log ++ [.deferred s.nextTicket front] }

/-- A call of `namespace.get`, or the run of a build function. -/
inductive Task (T : Type) where
  | get (ns : NsId) (edge : Bool) (name : Name)
  | prog (p : Prog T)

/-- blueprint/pkg/wiring/namespace.go:154-232 (get) and the running of build
functions.  `fuel` bounds the depth of the recursion (`none`: not finished yet).
`copyResult` into the caller's destination is the caller's business (a program can
fail on a node it does not like); logging is left out, except that `Info` panics on
a definition without a call site, i.e. one that was never Defined. -/
def exec (look : Lookup T) : (fuel : Nat) → St T → Task T → Option (St T × Res)
  | 0, _, _ => none
  | fuel + 1, s, .get ns edge name =>
    match s.seen ns name with
    | some (some n) => some (s, .ok n)
    | some none => some (s, .panic)
    | none =>
      match look name with
      | none => some (s, .err)
      | some (dn, d) =>
        match d.build with
        | none => some (s, .panic)
        | some build =>
          if dn ≠ name then
            match exec look fuel s (.get ns edge dn) with
            | none => none
            | some (s', .ok n) => some (s'.setSeen ns name (some n), .ok n)
            | some (s', .err) => some (s'.setSeen ns name none, .err)
            | some (s', .panic) => some (s', .panic)
          else if s.accepts ns d.nodeType then
            match exec look fuel s (.prog (build ns)) with
            | none => none
            | some (s', .ok n) => some (s'.afterBuild ns name d.proxy n, .ok n)
            | some (s', r) => some (s', r)
          else
            match s.parent ns with
            | none => some (s, .err)
            | some p =>
              match exec look fuel s (.get p edge name) with
              | none => none
              | some (s', .ok n) => some (s'.afterParent ns name edge d.proxy n, .ok n)
              | some (s', r) => some (s', r)
  | fuel + 1, s, .prog p =>
    match p with
    | .ret n => some (s, .ok n)
    | .fail => some (s, .err)
    | .new name isMeta k =>
      exec look fuel { s with nextUid := s.nextUid + 1 } (.prog (k ⟨s.nextUid, name, isMeta⟩))
    | .get ns edge name k =>
      if ns < s.size then
        match exec look fuel s (.get ns edge name) with
        | none => none
        | some (s', .ok n) => exec look fuel s' (.prog (k (some n)))
        | some (s', .err) => exec look fuel s' (.prog (k none))
        | some (s', .panic) => some (s', .panic)
      else some (s, .panic)
    | .derive ns name acc k =>
      if ns < s.size then
        match s.children ns name with
        | some _ => exec look fuel s (.prog (k none))
        | none => exec look fuel (s.addChild ns name acc) (.prog (k (some s.size)))
      else some (s, .panic)
    | .child ns name k => exec look fuel s (.prog (k (s.children ns name)))
    | .defer _ front f k => exec look fuel (s.defer front f) (.prog k)
    | .load uid k => exec look fuel s (.prog (k (s.fields uid)))
    | .store uid v k =>
      exec look fuel { s with fields := fun u => if u = uid then some v else s.fields u } (.prog k)

/-- blueprint/pkg/wiring/application.go:18-34: the application's namespace, which
accepts everything. -/
def St.init : St T :=
  { size := 1, parent := fun _ => none, accepts := fun _ _ => true, seen := fun _ _ => none,
    added := fun _ _ => false, children := fun _ _ => none, nextUid := 0, fields := fun _ => none,
    deferred := [], nextTicket := 0, log := [] }

/-- blueprint/pkg/wiring/application.go:42-50: the queue initially holds a Get for
each requested node. -/
def St.queueNodes (s : St T) (nodes : List Name) : St T :=
  nodes.foldl (fun s n => s.defer true (.get 0 true n fun r => match r with
    | some node => .ret node
    | none => .fail)) s

/-- How the build of the application ends. -/
inductive Ending where
  | success
  | failed
  | panicked
deriving DecidableEq, Repr

/-- blueprint/pkg/wiring/application.go:52-60: run deferred functions until the queue
is empty or one fails.  `fuel` bounds rounds and recursion. -/
def runQueue (look : Lookup T) : (fuel : Nat) → St T → Option (St T × Ending)
  | 0, _ => none
  | fuel + 1, s =>
    match s.deferred with
    | [] => some (s, .success)
    | (t, f) :: rest =>
      match exec look fuel ({ s with deferred := rest }.emit (.ran t)) (.prog f) with
      | none => none
      | some (s', .ok _) => runQueue look fuel s'
      | some (s', .err) => some (s', .failed)
      | some (s', .panic) => some (s', .panicked)

/-- blueprint/pkg/wiring/application.go:18-62 (BuildApplicationIR) with a non-empty
list of nodes. -/
def buildApplication (look : Lookup T) (fuel : Nat) (nodes : List Name) :
    Option (St T × Ending) :=
  runQueue look fuel (St.init.queueNodes nodes)

end Verif.Wiring.Ns
