/-
The terms in which the properties of the SockShop's front end are stated.
-/
import Verif.Frontend.Model
import Verif.Cart.Spec
import Verif.Orders.Spec
import Verif.Catalogue.Spec
namespace Verif.Frontend
open Verif.NoSQL
variable {F P : Type} [Host F] [Cart.Single P F] [Users.Lib] [Orders.Arith P] [Catalogue.Sql P]

/-- A shop that can be reached by any calls, whichever of the calls that these make failed. -/
def Reached (s : Shop F P) : Prop := ∃ hist : List (Fails × Op P), calls Shop.init hist = s

/-- A call changed nothing but carts, of which all but those in the list show what they showed before. -/
def OnlyCarts (s s' : Shop F P) (changed : List Name) : Prop :=
  s'.catalogue = s.catalogue ∧ s'.world.users = s.world.users ∧ s'.world.orders = s.world.orders ∧
  s'.world.queue = s.world.queue ∧ s'.world.shipments = s.world.shipments ∧
  ∀ c, c ∉ changed → getCart noFails s' c = getCart noFails s c

/-- Items put in the cart one after the other with `AddItem`, the first with the given session and the next with the
session that the call before returned.  The number is the identifier the cart's database gives a new document. -/
def addAll (s : Shop F P) (sessionID uuid : Name) : List (Name × Nat) → Shop F P × Name
  | [] => (s, sessionID)
  | (i, n) :: rest => match addItem noFails s sessionID i uuid n with
    | (s, sessionID, _) => addAll s sessionID uuid rest

/-- Every item once, in the order in which they first appear. -/
def once : List Name → List Name
  | [] => []
  | i :: l => i :: (once l).filter (· ≠ i)

/-- What somebody who wants these items at these prices has in the cart: each item once, as often as wanted. -/
def wanted (price : Name → P) (items : List Name) : List (Cart.Item P) :=
  (once items).map fun i => ⟨i, items.count i, price i⟩

end Verif.Frontend
