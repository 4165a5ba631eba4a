import Verif.Races.Model
/-
What concurrent calls should do: what they would do one after the other.
-/
namespace Verif.Races
variable {K V : Type} [DecidableEq K]

/-- What a call does to the cache's contents, and what it returns. -/
def Does : Op K V → (K → Option V) → (K → Option V) → Option V → Prop
  | .put k v, before, after, r => after k = some v ∧ (∀ j, j ≠ k → after j = before j) ∧ r = none
  | .delete k, before, after, r => after k = none ∧ (∀ j, j ≠ k → after j = before j) ∧ r = none
  | .get k, before, after, r => after = before ∧ r = before k

/-- These calls, one after the other in this order and none twice, return this and leave these contents. -/
inductive OneByOne (ops : List (Op K V)) (values : K → Option V) : List (Nat × Option V) → (K → Option V) → Prop where
  | nil : OneByOne ops values [] values
  | snoc {log : List (Nat × Option V)} {before after : K → Option V} {i : Nat} {op : Op K V} {r : Option V} :
      OneByOne ops values log before → ops[i]? = some op → i ∉ log.map (·.1) → Does op before after r →
      OneByOne ops values (log ++ [(i, r)]) after

def Op.isWrite : Op K V → Bool
  | .get _ => false
  | _ => true

/-- The goroutine has finished its call with this result. -/
def Sys.Finished (s : Sys K V) (i : Nat) (r : Option V) : Prop := ∃ t, s.threads[i]? = some t ∧ t.phase = .done r

/-- The goroutine has not begun its call. -/
def Sys.Waiting (s : Sys K V) (i : Nat) : Prop := ∃ t, s.threads[i]? = some t ∧ t.phase = .start

end Verif.Races
