import Verif.Cart.Model
/-
What the documentation of `CartService` (cartservice.go lines 13-39) says, without a database.
-/
namespace Verif.Cart
open Verif.NoSQL
variable {P : Type}

/-- The items in the cart of every customer and session, oldest first. -/
abbrev Carts (P : Type) := Name → List (Item P)

def Carts.empty : Carts P := fun _ => []

def Carts.put (s : Carts P) (c : Name) (l : List (Item P)) : Carts P := fun c' => if c' = c then l else s c'

/-- The item with an identifier. -/
def inCart (i : Name) (l : List (Item P)) : Option (Item P) := l.find? fun x => x.id = i

/-- Change the item with an identifier. -/
def change (i : Name) (f : Item P → Item P) (l : List (Item P)) : List (Item P) :=
  l.map fun x => if x.id = i then f x else x

/-- "If the item already exists in the cart, then the total quantity is updated to reflect the combined total." -/
def added (x : Item P) (l : List (Item P)) : List (Item P) :=
  match inCart x.id l with
  | some _ => change x.id (fun y => { y with quantity := y.quantity + x.quantity }) l
  | none => l ++ [x]

/-- "Remove an item from the customer's cart." -/
def removed (i : Name) (l : List (Item P)) : List (Item P) := l.filter fun x => x.id ≠ i

/-- "Updates an item in the customer's cart to the value provided", where a quantity of zero or less means the item
is not in the cart. -/
def updated (x : Item P) (l : List (Item P)) : List (Item P) :=
  if x.quantity ≤ 0 then removed x.id l
  else match inCart x.id l with
    | some _ => change x.id (fun _ => x) l
    | none => l ++ [x]

/-- "Merge two carts": quantities of items in both are added, the price is the session's; the other items of the
session come after those of the customer. -/
def merged (customer session : List (Item P)) : List (Item P) :=
  customer.map (fun x => match inCart x.id session with
    | some y => ⟨x.id, x.quantity + y.quantity, y.price⟩
    | none => x) ++
  session.filter fun y => (inCart y.id customer).isNone

/-- The carts after a call. -/
def after (s : Carts P) : Op P → Carts P
  | .getCart _ => s
  | .getItem _ _ => s
  | .deleteCart c => s.put c []
  | .mergeCarts c t => (s.put c (merged (s c) (s t))).put t []
  | .addItem c x => s.put c (added x (s c))
  | .removeItem c i => s.put c (removed i (s c))
  | .updateItem c x => s.put c (updated x (s c))

/-- The reply of a call.  `none` is the item of an item that is not in the cart. -/
def reply (none : Item P) (s : Carts P) : Op P → Reply P
  | .getCart c => .items (s c)
  | .getItem c i => .item ((inCart i (s c)).getD none)
  | .addItem c x => .item ((inCart x.id (added x (s c))).getD none)
  | _ => .done

/-- The replies of a history of calls. -/
def replies (none : Item P) (s : Carts P) : List (Op P) → List (Reply P)
  | [] => []
  | o :: os => reply none s o :: replies none (after s o) os

/-- In the session's cart, before every item that the customer also has there are at most `room` items that the
customer does not have. -/
def InOrder (room : Nat) (customer session : List (Item P)) : Prop :=
  ∀ pre y post, session = pre ++ y :: post → (inCart y.id customer).isSome →
    (pre.filter fun z => (inCart z.id customer).isNone).length ≤ room

/-- The merges that are done right: of two different carts, in the order above. -/
def MergeOk (room : Nat → Nat) (s : Carts P) : Op P → Prop
  | .mergeCarts c t => c ≠ t ∧ InOrder (room (s c).length) (s c) (s t)
  | _ => True

/-- All merges of a history. -/
def MergesOk (room : Nat → Nat) (s : Carts P) : List (Op P) → Prop
  | [] => True
  | o :: os => MergeOk room s o ∧ MergesOk room (after s o) os

end Verif.Cart
