import Verif.Shipping.Run
/-
Concrete cases of the theorems of C147.
-/
namespace Verif.Shipping.Run.Examples
open Verif.Shipping (Str Shipment)

def s1 : Shipment := ⟨['1'], ['a'], ['n']⟩
def s2 : Shipment := ⟨['2'], ['b'], ['n']⟩

/-- A first `Pop` fails, the second gives a shipment whose update fails once; while the queue master waits for the next one the context is
cancelled, and it still gets one. -/
def env : Nat → Env
  | 0 => ⟨false, .ok none, true⟩
  | 1 => ⟨false, .error (), true⟩
  | 2 => ⟨false, .ok none, true⟩
  | 3 => ⟨false, .ok (some s1), true⟩
  | 4 => ⟨false, .ok none, false⟩
  | 5 => ⟨false, .ok none, true⟩
  | 6 => ⟨false, .ok none, true⟩
  | _ => ⟨true, .ok (some s2), true⟩

example : (run env 5).calls = [.popFailed, .popped s1, .updated ['1'] false] ∧ (run env 7).pc = .popping := ⟨rfl, rfl⟩
example : taken (run env 20).calls = [['1'], ['2']] ∧ done (run env 20).calls = [['1'], ['2']] := ⟨rfl, rfl⟩

/-- The hypotheses of `C147_stops_partial`, and that three steps are needed. -/
example : (run env 10).pc = .returned false ∧ (run env 9).pc = .top :=
  ⟨(C147_stops_partial env 7 (fun i hi => by
      obtain ⟨k, rfl⟩ := Nat.le.dest hi
      rw [Nat.add_comm]; rfl) (fun i hi => by
      obtain ⟨k, rfl⟩ := Nat.le.dest hi
      rw [Nat.add_comm]; rfl) 10 (by omega)).1, rfl⟩

example : ∃ i, i < 10 ∧ (env i).cancelled = true := (C147_returns env 10 false rfl).2

example : ['1'] ∈ done (run env 6).calls := C147_retries env 4 s1 rfl 5 (by omega) rfl

/-- The context is cancelled while the shipment is in hand, and its calls fail from then on. -/
def stuck : Nat → Env
  | 0 => ⟨false, .ok none, true⟩
  | 1 => ⟨false, .ok (some s1), true⟩
  | _ => ⟨true, .error (), false⟩

example (n : Nat) (h : 2 ≤ n) : (run stuck n).pc = .sending s1 ∧ (stuck n).cancelled = true := by
  obtain ⟨k, rfl⟩ := Nat.le.dest h
  refine ⟨C147_never_refuted stuck 2 s1 rfl (fun i hi => ?_) _ h, by rw [Nat.add_comm]; rfl⟩
  obtain ⟨j, rfl⟩ := Nat.le.dest hi
  rw [Nat.add_comm]
  rfl

end Verif.Shipping.Run.Examples
