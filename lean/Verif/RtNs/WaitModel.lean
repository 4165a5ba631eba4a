/-
Model of the runtime's goroutines, wait groups and contexts,
runtime/plugins/golang/namespace.go:229-230, 277-278, 391-410, 429-439.

Every shared access (an Add, a Done, a cancel, the return of Run) is one atomic step;
the steps of all goroutines interleave arbitrarily.
-/
namespace Verif.RtNs.Wait

/-- Where the handling of one Runnable stands, runtime/plugins/golang/namespace.go:393-409. -/
inductive Pc where
  /-- `n.wg.Add(1)` was done (line 393), `n.parent.wg.Add(1)` and `go` are to come -/
  | added
  /-- Run is executing (line 398) -/
  | running
  /-- Run returned an error, `n.cancel()` is to come (line 401) -/
  | failing
  /-- `n.wg.Done()` is to come (line 405) -/
  | leaving
  /-- `n.parent.wg.Done()` is to come (line 407) -/
  | leavingParent
  | finished
deriving DecidableEq, Repr

/-- One Runnable: its namespace, where it stands, and whether its Run has returned an
error. -/
structure Job where
  ns : Nat
  pc : Pc
  err : Bool
deriving DecidableEq, Repr

/-- All namespaces of a process; number 0 is made by Build. -/
structure St where
  size : Nat
  parent : Nat → Option Nat
  wg : Nat → Int
  cancelled : Nat → Bool
  jobs : List Job

def St.init : St :=
  { size := 1, parent := fun _ => none, wg := fun _ => 0, cancelled := fun _ => false, jobs := [] }

def St.add (s : St) (m : Nat) (d : Int) : St :=
  { s with wg := fun k => if k = m then s.wg k + d else s.wg k }

/-- What can happen next. -/
inductive Step where
  /-- BuildWithParent(p) -/
  | newChild (p : Nat)
  /-- a Get in `ns` built a Runnable -/
  | start (ns : Nat)
  /-- … and continues to `go` -/
  | go (i : Nat)
  /-- the Run of job `i` returns, with an error or not -/
  | ret (i : Nat) (err : Bool)
  /-- job `i` takes its next step after Run -/
  | next (i : Nat)
  /-- Shutdown(false) -/
  | shutdown (ns : Nat)

/-- One step; `none` when it is not possible. -/
def St.step (s : St) : Step → Option St
  | .newChild p =>
    if p < s.size then
      some { s with size := s.size + 1, parent := fun m => if m = s.size then some p else s.parent m }
    else none
  | .start ns =>
    if ns < s.size then some { s.add ns 1 with jobs := s.jobs ++ [⟨ns, .added, false⟩] } else none
  | .go i =>
    match s.jobs[i]? with
    | some ⟨ns, .added, e⟩ =>
      let s := match s.parent ns with
        | some p => s.add p 1
        | none => s
      some { s with jobs := s.jobs.set i ⟨ns, .running, e⟩ }
    | _ => none
  | .ret i err =>
    match s.jobs[i]? with
    | some ⟨ns, .running, _⟩ =>
      some { s with jobs := s.jobs.set i ⟨ns, if err then .failing else .leaving, err⟩ }
    | _ => none
  | .next i =>
    match s.jobs[i]? with
    | some ⟨ns, .failing, e⟩ =>
      some { s with
        cancelled := fun m => if m = ns then true else s.cancelled m
        jobs := s.jobs.set i ⟨ns, .leaving, e⟩ }
    | some ⟨ns, .leaving, e⟩ =>
      some { s.add ns (-1) with
        jobs := s.jobs.set i ⟨ns, if (s.parent ns).isSome then .leavingParent else .finished, e⟩ }
    | some ⟨ns, .leavingParent, e⟩ =>
      match s.parent ns with
      | some p => some { s.add p (-1) with jobs := s.jobs.set i ⟨ns, .finished, e⟩ }
      | none => none
    | _ => none
  | .shutdown ns => some { s with cancelled := fun m => if m = ns then true else s.cancelled m }

/-- Await on `ns` can return in this state, runtime/plugins/golang/namespace.go:437-439. -/
def St.awaitReturns (s : St) (ns : Nat) : Prop := s.wg ns = 0

/-- The context of `ns` is done: `ns` or one of its ancestors was cancelled
(runtime/plugins/golang/namespace.go:229, 277, context.WithCancel). -/
inductive St.ctxDone (s : St) : Nat → Prop where
  | here {ns : Nat} : s.cancelled ns = true → s.ctxDone ns
  | up {ns p : Nat} : s.parent ns = some p → s.ctxDone p → s.ctxDone ns

/-- All executions. -/
inductive Reach : St → Prop where
  | init : Reach .init
  | step {s s' : St} (e : Step) : Reach s → s.step e = some s' → Reach s'

end Verif.RtNs.Wait
