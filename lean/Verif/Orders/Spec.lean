/-
The terms in which the properties of the order service are stated.
-/
import Verif.Orders.Model
namespace Verif.Orders
open Verif.NoSQL
variable {F P : Type} [Arith P]

/-- The price of an order: quantity times unit price of the items, added up from the first to the last, and the
shipping fee. -/
def priceOf (items : List (Cart.Item P)) : P :=
  Arith.add ((items.map fun x => Arith.mul (Arith.ofInt x.quantity) x.price).foldl Arith.add Arith.zero) Arith.shippingFee

/-- An amount that is paid: positive and within the limit. -/
def Acceptable (limit amount : P) : Prop :=
  Arith.eq amount Arith.zero = false ∧ Arith.lt amount Arith.zero = false ∧ Arith.le amount limit = true

/-- The order that a call placed. -/
def Answer.placed : Answer P → Option (Order P)
  | .order (.placed o) => some o
  | .order (.placedError o) => some o
  | _ => none

/-- The identifiers drawn in a history. -/
def drawn : Op P → Option Name
  | .order _ _ _ uuid _ => some uuid
  | _ => none

/-- A state that the shop can get to by any calls. -/
def Reached [Host F] [Cart.Single P F] [Users.Lib] (w : World F P) : Prop := ∃ hist : List (Op P), (calls World.init hist).1 = w

end Verif.Orders
