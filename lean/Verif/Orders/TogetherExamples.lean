import Verif.Orders.Together
import Verif.Orders.Examples
/-
Concrete cases for C143.
-/
namespace Verif.Orders.Examples
open Verif.NoSQL Verif.Orders Verif.Cart.Examples
open Verif.Trains (Together)

/-- Two customers, one with socks and one with nothing in the cart. -/
def two : List (Job Int) := 
  [⟨100, ⟨user, addr, card, user⟩, ['u'], ['d'], [.cards, .users, .cart, .addresses]⟩,
   ⟨100, ⟨nobody, addr, card, nobody⟩, ['v'], ['e'], [.cart, .users, .addresses, .cards]⟩]

-- the hypotheses of `C143_orders_partial`, and what is ordered
example : Reached shop ∧ (two.map (·.q.customerID)).Nodup ∧ ∀ j ∈ two, j.q.cartID = j.q.customerID ∧ j.Sound :=
  ⟨⟨setup, rfl⟩, by decide +kernel, by unfold Job.Sound; decide +kernel⟩
example : two.filterMap (ordered shop) = [order1] := by decide +kernel

/-- Both have something in the cart. -/
def more : World Int Int := (calls World.init (setup ++ [.cart 3 (.addItem nobody shoes)])).1
example : Reached more := ⟨_, rfl⟩
example : (two.filterMap (ordered more)).map (·.items) = [[socks], [shoes]] := by decide +kernel

-- the hypothesis of `C143_twice_refuted`
example : (alone shop ⟨100, ⟨user, addr, card, user⟩, ['u'], ['d'], [.cards, .users, .cart, .addresses]⟩).2 = .placed order1 := by decide +kernel

end Verif.Orders.Examples
