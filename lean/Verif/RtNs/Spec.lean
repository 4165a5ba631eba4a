import Verif.RtNs.Model
/-
Vocabulary for the properties of runtime namespaces.
-/
namespace Verif.RtNs

/-- A task that only mentions an existing namespace. -/
def TaskOk (s : St) : Task → Prop
  | .get ns _ _ => ns < s.size
  | .prog _ => True
  | .inst ns _ => ns < s.size

/-- A history of a process: Gets, instantiations and programs, one after the other. -/
inductive History : St → St → Prop where
  | refl (s : St) : History s s
  | step {s s1 s2 : St} (fuel : Nat) (t : Task) (r : Res) : TaskOk s t →
      exec fuel s t = some (s1, r) → History s1 s2 → History s s2

/-- How often the build function of `name` in `ns` has returned a node. -/
def builtCount (l : List Event) (ns : NsId) (name : Name) : Nat :=
  l.countP fun e => match e with
    | .built m x _ => m == ns && x == name
    | _ => false

/-- How often the build function of `name` in `ns` has been called. -/
def startCount (l : List Event) (ns : NsId) (name : Name) : Nat :=
  l.countP fun e => match e with
    | .start m x => m == ns && x == name
    | _ => false

/-- How often the build function of `name` in `ns` has returned an error. -/
def failedCount (l : List Event) (ns : NsId) (name : Name) : Nat :=
  l.countP fun e => match e with
    | .failed m x => m == ns && x == name
    | _ => false

/-- How often a node was run for `name` in `ns`. -/
def runCount (l : List Event) (ns : NsId) (name : Name) : Nat :=
  l.countP fun e => match e with
    | .run m x _ => m == ns && x == name
    | _ => false

/-- How many calls of the build function have not returned yet. -/
def pending (l : List Event) (ns : NsId) (name : Name) : Int :=
  startCount l ns name - builtCount l ns name - failedCount l ns name

/-- No build function was called while a call of the same build function was under way:
no dependency cycle was followed. -/
def NoReentry (l : List Event) : Prop :=
  ∀ A B ns name, l = A ++ .start ns name :: B → pending A ns name = 0

/-- The nearest namespace, from `ns` outwards, that defines `name`. -/
inductive Definer (s : St) (name : Name) : NsId → NsId → Prop where
  | here {ns : NsId} : s.isDef ns name = true → Definer s name ns ns
  | up {ns p d : NsId} : s.isDef ns name = false → s.parent ns = some p →
      Definer s name p d → Definer s name ns d

end Verif.RtNs
