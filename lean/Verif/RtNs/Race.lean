/-
Concurrent calls of the runtime's Namespace.Get for one name,
runtime/plugins/golang/namespace.go:372-412.  Namespace has no lock, and generated client
pools build child namespaces (and so call Get on their parent) from the goroutines of
concurrent requests (plugins/clientpool/ir.go:193-206).
-/
namespace Verif.RtNs.Race

/-- Where a caller stands. -/
inductive Pc where
  /-- about to look into `n.built` (line 373) -/
  | check
  /-- about to call the build function (line 377) -/
  | build
  /-- about to store the node (line 389) -/
  | store (node : Nat)
  /-- Get returned the node -/
  | got (node : Nat)
deriving DecidableEq, Repr

/-- The map entry, the number of nodes built so far (which numbers them), and the
callers. -/
structure St where
  built : Option Nat
  count : Nat
  callers : List Pc
deriving Repr

/-- One step of caller `i`.  (Go may also abort the process on concurrent map writes;
that is not modelled.) -/
def St.step (s : St) (i : Nat) : Option St :=
  match s.callers[i]? with
  | some .check =>
    match s.built with
    | some n => some { s with callers := s.callers.set i (.got n) }
    | none => some { s with callers := s.callers.set i .build }
  | some .build => some { s with count := s.count + 1, callers := s.callers.set i (.store s.count) }
  | some (.store n) => some { s with built := some n, callers := s.callers.set i (.got n) }
  | _ => none

def run : St → List Nat → Option St
  | s, [] => some s
  | s, i :: is => match s.step i with
    | some s => run s is
    | none => none

/-- A caller that runs alone, from the check to the return. -/
def callAlone (s : St) (i : Nat) : Option St :=
  match s.built with
  | some _ => run s [i]
  | none => run s [i, i, i]

theorem callAlone_eq (s : St) (i : Nat) (h : s.callers[i]? = some .check) :
    callAlone s i = some (match s.built with
      | some n => { s with callers := s.callers.set i (.got n) }
      | none => ⟨some s.count, s.count + 1, s.callers.set i (.got s.count)⟩) := by
  have hlt : i < s.callers.length := (List.getElem?_eq_some_iff.1 h).1
  unfold callAlone
  cases hb : s.built with
  | some n => simp only [run, St.step, h, hb]
  | none =>
    have g1 : (s.callers.set i .build)[i]? = some .build := by simp [hlt]
    have g2 : ((s.callers.set i .build).set i (.store s.count))[i]? = some (.store s.count) := by
      simp [hlt]
    simp only [run, St.step, h, hb, g1, g2]
    simp

/-- When calls do not overlap, the node is built once and all callers get it. -/
theorem C10_callers_in_turn : ∀ (l : List Nat) (s s' : St),
    (s.count = 0 ∧ s.built = none ∨ s.count = 1 ∧ s.built = some 0) →
    (∀ pc ∈ s.callers, pc = .check ∨ pc = .got 0) →
    l.foldlM callAlone s = some s' →
    (s'.count = 0 ∧ s'.built = none ∨ s'.count = 1 ∧ s'.built = some 0) ∧
      ∀ pc ∈ s'.callers, pc = .check ∨ pc = .got 0 := by
  intro l
  induction l with
  | nil =>
    intro s s' h1 h2 h
    simp only [List.foldlM_nil, Option.pure_def, Option.some.injEq] at h
    subst h; exact ⟨h1, h2⟩
  | cons i l ih =>
    intro s s' h1 h2 h
    simp only [List.foldlM_cons, Option.bind_eq_bind] at h
    cases hc : callAlone s i with
    | none => simp [hc] at h
    | some s1 =>
      rw [hc] at h
      simp only [Option.bind_some] at h
      have hs : s.callers[i]? = some .check := by
        cases hp : s.callers[i]? with
        | none =>
          unfold callAlone at hc
          cases hb : s.built <;> simp only [hb, run, St.step, hp] at hc <;> cases hc
        | some pc =>
          rcases h2 pc (List.mem_of_getElem? hp) with rfl | rfl
          · rfl
          · unfold callAlone at hc
            cases hb : s.built <;> simp only [hb, run, St.step, hp] at hc <;> cases hc
      rw [callAlone_eq s i hs] at hc
      injection hc with hc
      subst hc
      refine ih _ s' ?_ ?_ h
      · rcases h1 with ⟨a, b⟩ | ⟨a, b⟩ <;> simp [a, b]
      · intro pc hpc
        rcases h1 with ⟨a, b⟩ | ⟨a, b⟩ <;> simp only [a, b] at hpc <;>
          rcases List.mem_or_eq_of_mem_set hpc with h | h
        · exact h2 pc h
        · exact .inr h
        · exact h2 pc h
        · exact .inr h

/-- C10 fails for concurrent callers: two goroutines that Get the same name can both
build it and get different instances. -/
theorem C10_concurrent_refuted : ∃ s, run ⟨none, 0, [.check, .check]⟩ [0, 1, 0, 0, 1, 1] = some s ∧
    s.count = 2 ∧ s.callers = [.got 0, .got 1] ∧ s.built = some 1 :=
  ⟨_, rfl, rfl, rfl, rfl⟩

end Verif.RtNs.Race
