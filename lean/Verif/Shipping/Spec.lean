import Verif.Shipping.Model
namespace Verif.Shipping

/-- The shipments handed over, in order. -/
def handedOver : List Step → List Shipment
  | [] => []
  | .push s :: l => s :: handedOver l
  | _ :: l => handedOver l

/-- No database failure loses a shipment record. -/
def NoLoss (l : List Step) : Prop := ∀ i, Step.insertFails i ∉ l

/-- The shipment is still waiting: in the queue or in the hands of the queue master. -/
def State.waiting (σ : State) (s : Shipment) : Prop := s ∈ σ.queue ∨ σ.master = some s

/-- Rounds of the queue master. -/
def rounds : Nat → List Step
  | 0 => []
  | n + 1 => .update :: .pop :: rounds n

end Verif.Shipping
