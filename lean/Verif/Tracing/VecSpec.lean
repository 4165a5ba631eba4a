import Verif.Tracing.VecModel
/-
Causality, independent of clocks.
-/
namespace Verif.Tracing

/-- Event `i` of a log happened before event `j`: earlier in the same process, or `j` received
what `i` sent, or through other events. -/
inductive HB (log : List Event) : Nat → Nat → Prop
  | order {i j : Nat} {a b : Event} : log[i]? = some a → log[j]? = some b → a.proc = b.proc → i < j → HB log i j
  | message {i j : Nat} {b : Event} : log[j]? = some b → b.kind = .receive (some i) → HB log i j
  | trans {i j k : Nat} : HB log i j → HB log j k → HB log i k

/-- The clock `c` is smaller than `d`. -/
def Less (c d : List Char → Nat) : Prop := (∀ q, c q ≤ d q) ∧ c ≠ d

end Verif.Tracing
