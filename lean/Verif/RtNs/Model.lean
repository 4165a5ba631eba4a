import Verif.RtNs.BuilderModel
/-
Model of the runtime's Namespace: Get, Instantiate and child namespaces,
runtime/plugins/golang/namespace.go:81-91, 209-291, 356-418.

Build functions are arbitrary Go closures that act through the Namespace API.  They are
modelled as programs (`Prog`): they can branch on every result, swallow errors, create
objects and build child namespaces.  Get is modelled as called from one goroutine at a
time (Namespace has no lock; see Verif.RtNs.Race for concurrent calls).
-/
namespace Verif.RtNs

/-- A node: a string or an object; `runnable` says whether it implements Runnable. -/
inductive Val where
  | str (s : String)
  | obj (uid : Nat) (runnable : Bool)
deriving DecidableEq, Repr

/-- Namespaces are identified by number. -/
scoped notation "NsId" => Nat

/-- Code that uses namespaces. -/
inductive Prog where
  /-- `return node, nil` -/
  | ret (v : Val)
  /-- `return nil, err` -/
  | fail
  /-- `&Object{…}` -/
  | new (runnable : Bool) (k : Val → Prog)
  /-- `ns.Get(name, &receiver)`; `recv` says which nodes can be assigned to the
  receiver (backend.CopyResult, modelled in Verif.GoValue); the program sees `none` for
  an error -/
  | get (ns : NsId) (name : Name) (recv : Val → Bool) (k : Option Val → Prog)
  /-- a builder with the given definitions, required names and names to instantiate, and
  `BuildWithParent(ns)`; the program sees `none` for an error -/
  | child (ns : NsId) (isDef : Name → Bool) (defn : Name → NsId → Prog) (required : List Name)
      (inst : List Name) (k : Option NsId → Prog)

/-- What an observer of the build functions, of Get and of Run sees. -/
inductive Event where
  /-- the build function of `name` was called by namespace `ns` -/
  | start (ns : NsId) (name : Name)
  /-- … and returned a node -/
  | built (ns : NsId) (name : Name) (v : Val)
  /-- … or returned an error -/
  | failed (ns : NsId) (name : Name)
  /-- Run was called on the node -/
  | run (ns : NsId) (name : Name) (v : Val)
  /-- `ns.Get(name, …)` returned this node -/
  | got (ns : NsId) (name : Name) (v : Val)
deriving DecidableEq, Repr

/-- The namespaces of a process, runtime/plugins/golang/namespace.go:81-91, without
context and wait group (see Verif.RtNs.Wait). -/
structure St where
  size : Nat
  parent : NsId → Option NsId
  isDef : NsId → Name → Bool
  defn : NsId → Name → NsId → Prog
  built : NsId → Name → Option Val
  nextUid : Nat
  log : List Event

/-- Result of a call: a node, success without a result, or an error. -/
inductive Res where
  | ok (v : Val)
  | done
  | err
deriving DecidableEq, Repr

/-- Record an event. -/
def St.emit (s : St) (e : Event) : St := { s with log := s.log ++ [e] }

/-- Whether Get starts a goroutine for the node, runtime/plugins/golang/namespace.go:391. -/
def Val.isRunnable : Val → Bool
  | .str _ => false
  | .obj _ r => r

/-- runtime/plugins/golang/namespace.go:389-410: remember the node and run it. -/
def St.finish (s : St) (ns : NsId) (name : Name) (v : Val) : St :=
  let s := s.emit (.built ns name v)
  let s := { s with built := fun m x => if m = ns ∧ x = name then some v else s.built m x }
  if v.isRunnable then s.emit (.run ns name v) else s

/-- runtime/plugins/golang/namespace.go:271-278: the new child namespace. -/
def St.addChild (s : St) (ns : NsId) (isDef : Name → Bool) (defn : Name → NsId → Prog) : St :=
  { s with
    size := s.size + 1
    parent := fun m => if m = s.size then some ns else s.parent m
    isDef := fun m => if m = s.size then isDef else s.isDef m
    defn := fun m => if m = s.size then defn else s.defn m
    built := fun m => if m = s.size then fun _ => none else s.built m }

/-- runtime/plugins/golang/namespace.go:357-368 (has); `fuel` bounds the length of the
chain of parents. -/
def St.has (s : St) : (fuel : Nat) → NsId → Name → Bool
  | 0, _, _ => false
  | fuel + 1, ns, name =>
    if (s.built ns name).isSome then true
    else if s.isDef ns name then true
    else match s.parent ns with
      | some p => s.has fuel p name
      | none => false

/-- A call of Get, the run of a program, or the instantiation of the listed nodes. -/
inductive Task where
  | get (ns : NsId) (name : Name) (recv : Val → Bool)
  | prog (p : Prog)
  | inst (ns : NsId) (names : List Name)

/-- runtime/plugins/golang/namespace.go:372-418 (Get), 281-286 (instantiation) and the
running of programs.  `fuel` bounds the depth of the recursion (`none`: not finished
yet).  Logging is left out; build functions do not return nil as a node. -/
def exec : (fuel : Nat) → St → Task → Option (St × Res)
  | 0, _, _ => none
  | fuel + 1, s, .get ns name recv =>
    match s.built ns name with
    | some v => if recv v then some (s.emit (.got ns name v), .ok v) else some (s, .err)
    | none =>
      if s.isDef ns name then
        match exec fuel (s.emit (.start ns name)) (.prog (s.defn ns name ns)) with
        | none => none
        | some (s', .ok v) =>
          if recv v then some ((s'.finish ns name v).emit (.got ns name v), .ok v)
          else some (s'.finish ns name v, .err)
        | some (s', _) => some (s'.emit (.failed ns name), .err)
      else
        match s.parent ns with
        | none => some (s, .err)
        | some p =>
          match exec fuel s (.get p name recv) with
          | none => none
          | some (s', .ok v) => some (s'.emit (.got ns name v), .ok v)
          | some (s', _) => some (s', .err)
  | fuel + 1, s, .prog p =>
    match p with
    | .ret v => some (s, .ok v)
    | .fail => some (s, .err)
    | .new r k => exec fuel { s with nextUid := s.nextUid + 1 } (.prog (k (.obj s.nextUid r)))
    | .get ns name recv k =>
      if ns < s.size then
        match exec fuel s (.get ns name recv) with
        | none => none
        | some (s', .ok v) => exec fuel s' (.prog (k (some v)))
        | some (s', _) => exec fuel s' (.prog (k none))
      else some (s, .err)
    | .child ns isDef defn required inst k =>
      if ns < s.size then
        if required.all fun n => isDef n || s.has (ns + 1) ns n then
          match exec fuel (s.addChild ns isDef defn) (.inst s.size inst) with
          | none => none
          | some (s', .done) => exec fuel s' (.prog (k (some s.size)))
          | some (s', _) => exec fuel s' (.prog (k none))
        else exec fuel s (.prog (k none))
      else some (s, .err)
  | _ + 1, s, .inst _ [] => some (s, .done)
  | fuel + 1, s, .inst ns (n :: ns') =>
    match exec fuel s (.get ns n fun _ => true) with
    | none => none
    | some (s', .ok _) => exec fuel s' (.inst ns ns')
    | some (s', _) => some (s', .err)

/-- runtime/plugins/golang/namespace.go:223-230: the namespace made by Build (number 0),
before nodes are instantiated. -/
def St.root (isDef : Name → Bool) (defn : Name → NsId → Prog) : St :=
  { size := 1, parent := fun _ => none, isDef := fun m => if m = 0 then isDef else fun _ => false,
    defn := fun _ => defn, built := fun _ _ => none, nextUid := 0, log := [] }

end Verif.RtNs
