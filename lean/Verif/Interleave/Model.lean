/-
Methods that run at the same time.  A method is a program that makes calls of caches and databases, one after the other; each call of a
backend happens at one moment (what the backends do inside a call is in `Verif.Races` and `Verif.Cache`).  Which program makes the next
call is up to the schedule.
-/
namespace Verif.Interleave

/-- A program on a store: it ends, or makes a call, which changes the store, and goes on in a way that depends on what the store
was. -/
inductive Prog (σ ρ : Type) where
  | done (r : ρ)
  | act (effect : σ → σ) (next : σ → Prog σ ρ)

variable {σ ρ : Type}

/-- A store with the goroutines that work on it. -/
structure Sys (σ ρ : Type) where
  store : σ
  threads : List (Prog σ ρ)

/-- Goroutine `i` makes its next call. -/
def Sys.step (s : Sys σ ρ) (i : Nat) : Sys σ ρ :=
  match s.threads[i]? with
  | some (.act f k) => ⟨f s.store, s.threads.set i (k s.store)⟩
  | _ => s

def Sys.run (s : Sys σ ρ) (schedule : List Nat) : Sys σ ρ := schedule.foldl Sys.step s

/-- All goroutines have ended: `wg.Wait` returns. -/
def Sys.Ended (s : Sys σ ρ) : Prop := ∀ t ∈ s.threads, ∃ r, t = .done r

/-- A program that runs alone. -/
def Prog.run : Prog σ ρ → σ → σ × ρ
  | .done r, s => (s, r)
  | .act f k, s => (k s).run (f s)

/-- The first calls of a program that runs alone. -/
def Prog.steps : Nat → Prog σ ρ → σ → σ × Prog σ ρ
  | 0, p, s => (s, p)
  | _ + 1, .done r, s => (s, .done r)
  | n + 1, .act f k, s => (k s).steps n (f s)

end Verif.Interleave
