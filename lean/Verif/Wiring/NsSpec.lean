import Verif.Wiring.NsModel
/-
Vocabulary for the properties of compilation namespaces.
-/
namespace Verif.Wiring.Ns
variable {T : Type}

/-- Every name the program may Get, whatever the results it sees, has a rank below
`r`. -/
inductive Below (rank : Name → Nat) (r : Nat) : Prog T → Prop where
  | ret (n : Node) : Below rank r (.ret n)
  | fail : Below rank r .fail
  | new (name : Name) (b : Bool) (k : Node → Prog T) : (∀ n, Below rank r (k n)) →
      Below rank r (.new name b k)
  | get (ns : NsId) (e : Bool) (name : Name) (k : Option Node → Prog T) : rank name < r →
      (∀ n, Below rank r (k n)) → Below rank r (.get ns e name k)
  | derive (ns : NsId) (name : Name) (acc : T → Bool) (k : Option NsId → Prog T) :
      (∀ n, Below rank r (k n)) → Below rank r (.derive ns name acc k)
  | child (ns : NsId) (name : Name) (k : Option NsId → Prog T) :
      (∀ n, Below rank r (k n)) → Below rank r (.child ns name k)
  | defer (ns : NsId) (front : Bool) (f k : Prog T) : Below rank r k →
      Below rank r (.defer ns front f k)
  | load (uid : Nat) (k : Option Node → Prog T) : (∀ n, Below rank r (k n)) →
      Below rank r (.load uid k)
  | store (uid : Nat) (v : Node) (k : Prog T) : Below rank r k → Below rank r (.store uid v k)

/-- The wiring has no dependency cycle: an alias points to a name of lower rank, and
a build function only Gets names of lower rank (deferred functions may Get
anything). -/
def Acyclic (look : Lookup T) (rank : Name → Nat) : Prop :=
  ∀ name dn d, look name = some (dn, d) →
    (dn ≠ name → rank dn < rank name) ∧
    (dn = name → ∀ build ns, d.build = some build → Below rank (rank name) (build ns))

/-- How often `name` was successfully built in `ns`. -/
def builtCount (s : St T) (ns : NsId) (name : Name) : Nat :=
  (s.log.filter fun e => match e with
    | .built m x _ => m == ns && x == name
    | _ => false).length

/-- How often the handler of `ns` was told (AddNode or AddEdge) about a node called
`nodeName`. -/
def toldCount (s : St T) (ns : NsId) (nodeName : Name) : Nat :=
  (s.log.filter fun e => match e with
    | .addNode m _ n => m == ns && n.name == nodeName
    | .addEdge m _ n => m == ns && n.name == nodeName
    | _ => false).length

/-- How often a node called `nodeName` was recorded in `ns` without telling the
handler. -/
def hiddenCount (s : St T) (ns : NsId) (nodeName : Name) : Nat :=
  (s.log.filter fun e => match e with
    | .hidden m _ n _ => m == ns && n.name == nodeName
    | _ => false).length

/-- A history of a compilation: Gets and Instantiates of existing namespaces, and
arbitrary functions, one after the other. -/
inductive History (look : Lookup T) : St T → St T → Prop where
  | refl (s : St T) : History look s s
  | step {s s1 s2 : St T} (fuel : Nat) (t : Task T) (r : Res) :
      (∀ ns e name, t = .get ns e name → ns < s.size) →
      exec look fuel s t = some (s1, r) → History look s1 s2 → History look s s2

/-- The nearest namespace, from `ns` outwards, that accepts type `t`: `path` are the
namespaces passed on the way that do not. -/
inductive Nearest (s : St T) (t : T) : NsId → List NsId → NsId → Prop where
  | here {ns : NsId} : s.accepts ns t = true → Nearest s t ns [] ns
  | up {ns p a : NsId} {path : List NsId} : s.accepts ns t = false → s.parent ns = some p →
      Nearest s t p path a → Nearest s t ns (ns :: path) a

/-- The tickets of the deferred functions that were started, in order. -/
def ranTickets (l : List Event) : List Nat :=
  l.filterMap fun e => match e with
    | .ran t => some t
    | _ => none

/-- The tickets handed out, in order. -/
def defTickets (l : List Event) : List Nat :=
  l.filterMap fun e => match e with
    | .deferred t _ => some t
    | _ => none

/-- `a` occurs before an occurrence of `b`. -/
def Before (l : List Event) (a b : Event) : Prop := ∃ A B, l = A ++ a :: B ∧ b ∈ B

/-- Rounds of the application's queue in which the deferred function succeeded. -/
inductive Rounds (look : Lookup T) : St T → St T → Prop where
  | refl (s : St T) : Rounds look s s
  | round {s s1 s2 : St T} {t : Nat} {f : Prog T} {rest : List (Nat × Prog T)} {fuel : Nat}
      {n : Node} : s.deferred = (t, f) :: rest →
      exec look fuel ({ s with deferred := rest }.emit (.ran t)) (.prog f) = some (s1, .ok n) →
      Rounds look s1 s2 → Rounds look s s2

end Verif.Wiring.Ns
