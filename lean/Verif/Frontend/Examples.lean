/-
Concrete cases for C99.  Prices are integers, and the shipping fee is 5.
-/
import Verif.Frontend.Props
import Verif.Frontend.Load
import Verif.Orders.Examples
namespace Verif.Frontend.Examples
open Verif.NoSQL Verif.Frontend Verif.Cart.Examples Verif.Orders.Examples

instance : Catalogue.Sql Int := ⟨id, fun _ => .refl _, id, fun _ => .refl _⟩

def holy : Catalogue.Sock Int := ⟨['h'], ['H'], [], [], ['u'], ['v'], 99, 0, [['r']], []⟩
def nerd : Catalogue.Sock Int := ⟨['n'], ['N'], [], [], [], [], 7, 115, [['b']], []⟩
def ann : Users.Person := ⟨['A'], ['N'], ['@'], ['a']⟩

/-- Two socks in the catalogue, a registered user with a sock in the cart, and a visitor with another. -/
def story : List (Fails × Op Int) :=
  [(noFails, .catalogue Catalogue.noFails (.addSock holy [])), (noFails, .catalogue Catalogue.noFails (.addSock nerd [])),
   (noFails, .register [] ann ['p'] ['s'] 0), (noFails, .addItem (Users.Lib.hex 1) ['n'] [] 1),
   (noFails, .addItem [] ['h'] ['v'] 2), (fun k => k == 1, .addItem ['v'] ['n'] [] 3)]

def shop : Shop Int Int := calls Shop.init story

theorem shop_reached : Reached shop := ⟨story, rfl⟩

-- C99_add, C99_update, C99_stock_refuted: a sock of which there are none
example : ∃ t, Catalogue.get shop.catalogue ['h'] = .ok t ∧ t.price = 99 ∧ t.quantity ≤ 0 :=
  ⟨⟨['h'], ['H'], [], [['u'], ['v']], ['u'], ['v'], 99, 0, [['r']], ['r']⟩, by decide +kernel, rfl, by decide⟩
example : Catalogue.get shop.catalogue ['z'] = .error := by decide +kernel
example : getCart noFails shop ['v'] = some [⟨['h'], 1, 99⟩] ∧ getCart noFails shop (Users.Lib.hex 1) = some [⟨['n'], 1, 7⟩] ∧
    getCart noFails shop ['w'] = some [] := by decide +kernel
-- C99_price_refuted: the price goes up
def dearer : Shop Int Int := calls shop [(noFails, .catalogue Catalogue.noFails (.addSock { nerd with price := 8 } []))]
example : getCart noFails (addItem noFails dearer (Users.Lib.hex 1) ['n'] [] 0).1 (Users.Lib.hex 1) = some [⟨['n'], 2, 7⟩] := by
  decide +kernel
-- C99_login_merge_partial, C99_relogin_refuted, C99_switch_refuted
def annUser : Users.User := ⟨Users.Lib.hex 1, ann, [], []⟩
example : Users.login shop.world.users ['a'] ['p'] = .user annUser ∧ Users.Lib.hex 1 ≠ [] := by decide +kernel
example : Cart.InOrder (Host.decodeRoom (F := Int) 1) [⟨['n'], 1, 7⟩] ([⟨['h'], 1, 99⟩] : List (Cart.Item Int)) := by
  intro pre y post h hy
  match pre, h with
  | [], _ => simp
  | a :: b, h => simp at h
example : getCart noFails (login noFails shop ['v'] ['a'] ['p'] 5).1 (Users.Lib.hex 1) = some [⟨['n'], 1, 7⟩, ⟨['h'], 1, 99⟩] := by
  decide +kernel
example : getCart noFails (login noFails shop (Users.Lib.hex 1) ['a'] ['p'] 5).1 (Users.Lib.hex 1) = some [] := by decide +kernel
-- C99_register, C99_register_refuted, C99_purchase: the identifiers are new
example : ∀ n, Users.Lib.hex n ≠ [] := by intro n; simp [Users.Lib.hex]
example : Users.Lib.hex shop.world.users.next ≠ ['w'] ∧ getCart noFails shop (Users.Lib.hex shop.world.users.next) = some [] ∧
    (∀ o ∈ shop.world.orders, o.id ≠ ['o']) := by decide +kernel
/-- The prices in the catalogue. -/
def price (i : Name) : Int := if i = ['h'] then 99 else 7
example : ∀ i ∈ [(['n'], 4), (['h'], 5), (['n'], 6)], ∃ sock, Catalogue.get shop.catalogue i.1 = .ok sock ∧ sock.price = price i.1 := by
  intro i hi
  simp only [List.mem_cons, List.not_mem_nil, or_false] at hi
  rcases hi with rfl | rfl | rfl
  · exact ⟨⟨['n'], ['N'], [], [[], []], [], [], 7, 115, [['b']], ['b']⟩, by decide +kernel, rfl⟩
  · exact ⟨⟨['h'], ['H'], [], [['u'], ['v']], ['u'], ['v'], 99, 0, [['r']], ['r']⟩, by decide +kernel, rfl⟩
  · exact ⟨⟨['n'], ['N'], [], [[], []], [], [], 7, 115, [['b']], ['b']⟩, by decide +kernel, rfl⟩
example : wanted price [['n'], ['h'], ['n']] = [⟨['n'], 2, 7⟩, ⟨['h'], 1, 99⟩] := by decide
example : Orders.Acceptable (200 : Int) (Orders.priceOf (wanted price [['n'], ['h'], ['n']])) :=
  ⟨by decide, by decide, by decide⟩
-- C99_unknown_refuted
example : ∀ u ∈ shop.world.users.users, u.id ≠ 9 := by decide +kernel
-- C99_load
example : Catalogue.Reached (Catalogue.DB.init : Catalogue.DB Int) ∧
    (∀ i j : Nat, List.replicate i 'u' = List.replicate j 'u' → i = j) := by
  refine ⟨⟨[], rfl⟩, fun i j h => ?_⟩
  have := congrArg List.length h
  simpa using this
/-- C99_load_half_refuted: the fourth sock cannot be added; the first three stay. -/
example : ∃ db', loadCatalogue (fun n => (n : Int)) (fun j => if j = 4 then fun _ => true else Catalogue.noFails) (List.replicate · 'u')
      (Catalogue.DB.init : Catalogue.DB Int) = (db', .error) ∧
    ∀ i x, i < 3 → (theSocks fun n => (n : Int))[i]? = some x →
      ∃ t, Catalogue.get db' (List.replicate (1 + i) 'u') = .ok t ∧ Catalogue.Shows x t (List.replicate (1 + i) 'u') := by
  refine C99_load_half_refuted (fun n => (n : Int)) Catalogue.DB.init ⟨[], rfl⟩ (List.replicate · 'u') (fun i j h => ?_) (by simp [Catalogue.DB.init])
    3 (by omega) _ (fun j hj => ?_) rfl
  · simpa using congrArg List.length h
  · simp only [show ¬ j = 4 by omega, if_false]

end Verif.Frontend.Examples
