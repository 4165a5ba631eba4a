/-
Concrete cases for C80 and C81.  Prices are integers here, and the shipping fee is 5.
-/
import Verif.Orders.Props
import Verif.Cart.Examples
import Verif.Users.Examples
namespace Verif.Orders.Examples
open Verif.NoSQL Verif.Orders Verif.Cart.Examples

instance : Arith Int := ⟨0, id, (· + ·), (· * ·), 5, (· == ·), (decide <| · < ·), (decide <| · ≤ ·)⟩

def user : Name := Users.Lib.hex 1
def addr : Name := Users.Lib.hex 2
def card : Name := Users.Lib.hex 3
def nobody : Name := Users.Lib.hex 9

/-- A user with an address and a card; socks in the user's cart, shoes in a session's cart. -/
def setup : List (Op Int) :=
  [.user (.register ⟨['A'], ['N'], ['@'], ['a']⟩ ['p'] ['s']), .user (.postAddress user ⟨['S'], [], [], [], []⟩),
   .user (.postCard user ⟨['1', '2', '3', '4'], [], []⟩), .cart 1 (.addItem user socks), .cart 2 (.addItem ses shoes)]

def shop : World Int Int := (calls World.init setup).1

example : Reached shop := ⟨setup, rfl⟩

/-- The socks cost 10 and the fee is 5. -/
def order1 : Order Int :=
  ⟨['u'], user, (addr, ⟨['S'], [], [], [], []⟩), (card, ⟨['1', '2', '3', '4'], [], []⟩), [socks], ⟨['u'], user, awaiting⟩, ['d'], 15⟩

-- C80_accepted_iff, C80_placed
example : (newOrder shop 100 ⟨user, addr, card, user⟩ Faults.none ['u'] ['d']).2 = .placed order1 := by decide +kernel

-- C80_refused_partial, C80_unpaid: over the limit
example : (newOrder shop 14 ⟨user, addr, card, user⟩ Faults.none ['u'] ['d']).2 = .error := by decide +kernel
example : Cart.getCartItems shop.carts user = .items [socks] ∧ Arith.le (priceOf [socks]) (14 : Int) = false := by
  decide +kernel

-- C80_other_cart_refuted: the session's cart is ordered
example : ∃ o, (newOrder shop 100 ⟨user, addr, card, ses⟩ Faults.none ['u'] ['d']).2 = .placed o ∧ ses ≠ user :=
  ⟨⟨['u'], user, (addr, ⟨['S'], [], [], [], []⟩), (card, ⟨['1', '2', '3', '4'], [], []⟩), [shoes], ⟨['u'], user, awaiting⟩, ['d'], 75⟩,
    by decide +kernel, by decide⟩

-- C80_unknown_refuted
example : Users.Lib.fromHex nobody = some 9 ∧ (∀ u ∈ shop.users.users, u.id ≠ 9) ∧ (∀ x ∈ shop.users.addresses, x.1 ≠ 9) ∧
    (∀ x ∈ shop.users.cards, x.1 ≠ 9) := by decide +kernel
example : ∃ o : Order Int, (newOrder shop 100 ⟨nobody, nobody, nobody, user⟩ Faults.none ['u'] ['d']).2 = .placed o :=
  ⟨⟨['u'], nobody, (Users.Lib.hex 0, ⟨[], [], [], [], []⟩), (Users.Lib.hex 0, ⟨[], [], []⟩), [socks], ⟨['u'], nobody, awaiting⟩, ['d'], 15⟩,
    by decide +kernel⟩

-- C80_late_item_refuted
example : ∃ f, fetch shop ⟨user, addr, card, user⟩ Faults.none = some f ∧ Acceptable 100 (priceOf f.items) ∧
    ∀ y ∈ f.items, y.id ≠ shoes.id :=
  ⟨⟨[socks], (addr, ⟨['S'], [], [], [], []⟩), (card, ⟨['1', '2', '3', '4'], [], []⟩)⟩, rfl, ⟨by decide, by decide, by decide⟩,
    by decide⟩

-- C81: two orders under different identifiers
def story : List (Op Int) :=
  setup ++ [.order 100 ⟨user, addr, card, user⟩ Faults.none ['u'] ['d'], .order 100 ⟨user, addr, card, ses⟩ Faults.none ['v'] ['e']]

example : (story.filterMap drawn).Nodup := by decide
example : ((getOrders (calls (World.init : World Int Int) story).1 user).map (·.id)) = [['u'], ['v']] := by decide +kernel
example : getOrder (calls (World.init : World Int Int) story).1 ['u'] = some order1 := by decide +kernel

-- C81_status_refuted: the shipment of the first order has been shipped
example : (calls (World.init : World Int Int) (story ++ [.ship])).1.shipments.map (fun s => (s.id, s.status)) =
    [(['u'], shippedStatus), (['v'], awaiting)] := by decide +kernel

-- C81_shipped_refuted
example : shop.queue = [] ∧ (∀ s ∈ shop.shipments, s.id ≠ ['u']) ∧ (∀ x ∈ shop.orders, x.id ≠ ['u']) ∧
    ∃ o, (call shop (.order 100 ⟨user, addr, card, user⟩ Faults.none ['u'] ['d'])).2 = .order (.placed o) :=
  ⟨by decide +kernel, by decide +kernel, by decide +kernel, order1,
    congrArg Answer.order (by decide +kernel : (newOrder shop 100 ⟨user, addr, card, user⟩ Faults.none ['u'] ['d']).2 = .placed order1)⟩

end Verif.Orders.Examples
