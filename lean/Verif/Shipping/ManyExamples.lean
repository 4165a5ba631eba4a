import Verif.Shipping.Many
/-
Concrete cases for C145.
-/
namespace Verif.Shipping.Many.Examples

def a : Shipment := ⟨['a'], ['x'], ['n']⟩
def b : Shipment := ⟨['b'], ['y'], ['n']⟩
def c : Shipment := ⟨['c'], ['z'], ['n']⟩

/-- Two queue masters; the second finishes before the first, whose first reply is lost; one shipment stays in the queue. -/
def hist : List Step := [.push a, .push b, .pop 0, .pop 1, .update 1, .insert 1, .update 1, .push c, .insert 0, .insert 0, .updateLost 0]

example : ((handedOver hist).map (·.id)).Nodup := by decide
example : getShipment (exec (State.init 2) hist) ['a'] = some { a with status := shipped } ∧
    getShipment (exec (State.init 2) hist) ['b'] = some { b with status := shipped } ∧
    getShipment (exec (State.init 2) hist) ['c'] = some c := by decide
example : (exec (State.init 2) hist).queue = [c] ∧ (exec (State.init 2) hist).masters = [some a, none] := by decide
-- C145_all_shipped_partial
example : stops hist = 0 ∧ (∀ s ∈ handedOver hist, (getShipment (exec (State.init 2) hist) s.id).isSome) := by decide
example : getShipment (exec (State.init 2) (hist ++ finish 2 1)) ['c'] = some { c with status := shipped } := by decide
-- C145_stop_refuted: a queue master takes the last shipment and stops
example : (exec (State.init 2) (hist ++ [.pop 1])).masters[1]? = some (some c) ∧
    ∀ r ∈ getShipment (exec (State.init 2) (hist ++ [.pop 1])) c.id, r = c := by decide
example : getShipment (exec (State.init 2) (hist ++ [.pop 1, .stop 1, .update 1] ++ finish 2 5)) ['c'] = some c := by decide
example : stops (hist ++ [.pop 1, .stop 1]) = 1 := by decide

end Verif.Shipping.Many.Examples
