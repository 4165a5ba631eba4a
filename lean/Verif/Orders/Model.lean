/-
Model of the SockShop order service, /repo/examples/sockshop/workflow/order/orderservice.go, with the payment service
(payment/paymentservice.go) and `PostShipping` (shipping/shippingservice.go), on top of the models of the cart service
and the user service.

Simplifications:
* Every call of another service or of a database may fail with an error (`Faults`); a call that fails has no effect.
* The orders and shipments collections are lists of typed records, oldest first.
* The shipping queue is a list; whether a `Push` is accepted is one of the `Faults`.
* `uuid.NewString()` and `time.Now().String()` are arguments.
* The field `Customer` of an order is left out: `NewOrder` does not set it.
* float32 arithmetic is a parameter (`Arith`).
-/
import Verif.Cart.Model
import Verif.Users.Model
namespace Verif.Orders
open Verif.NoSQL
variable {F P : Type}

/-- What the service needs of `float32`. -/
class Arith (P : Type) where
  zero : P
  ofInt : Int → P
  add : P → P → P
  mul : P → P → P
  shippingFee : P
  eq : P → P → Bool
  lt : P → P → Bool
  le : P → P → Bool

variable [Host F] [Cart.Single P F] [Users.Lib] [Arith P]

/-- `Shipment` (shippingservice.go lines 32-36). -/
structure Shipment where
  id : Name
  name : Name
  status : Name
deriving DecidableEq

/-- `Order` (orderservice.go lines 40-50). -/
structure Order (P : Type) where
  id : Name
  customerID : Name
  address : Name × Users.Address
  card : Name × Users.Card
  items : List (Cart.Item P)
  shipment : Shipment
  date : Name
  total : P
deriving DecidableEq

/-- The state of all services. -/
structure World (F P : Type) where
  carts : List (Doc F)
  users : Users.State
  queue : List Shipment
  shipments : List Shipment
  orders : List (Order P)

def World.init : World F P := ⟨[], Users.State.init, [], [], []⟩

/-- The outcome of `queue.Push`. -/
inductive Pushed where
  | yes | no | error
deriving DecidableEq

/-- Which of the calls that `NewOrder` makes fail. -/
structure Faults where
  getCart : Bool
  getUsers : Bool
  getAddresses : Bool
  getCards : Bool
  authorise : Bool
  push : Pushed
  insertShipment : Bool
  insertOrder : Bool
  deleteCart : Bool

/-- No failures. -/
def Faults.none : Faults := ⟨false, false, false, false, false, .yes, false, false, false⟩

/-- `calculateTotal` (lines 205-213). -/
def totalLoop (amount : P) : List (Cart.Item P) → P
  | [] => amount
  | x :: xs => totalLoop (Arith.add amount (Arith.mul (Arith.ofInt x.quantity) x.price)) xs

def calculateTotal (items : List (Cart.Item P)) : P := Arith.add (totalLoop Arith.zero items) Arith.shippingFee

/-- `Authorise` (paymentservice.go lines 45-62): `none` is an error. -/
def authorise (declineOver amount : P) : Option Bool :=
  if Arith.eq amount (Arith.zero : P) then none
  else if Arith.lt amount (Arith.zero : P) then none
  else some (Arith.le amount declineOver)

def awaiting : Name := "awaiting shipment".toList

/-- The arguments of `NewOrder`. -/
structure Request where
  customerID : Name
  addressID : Name
  cardID : Name
  cartID : Name

/-- The values fetched concurrently. -/
structure Fetched (P : Type) where
  items : List (Cart.Item P)
  address : Name × Users.Address
  card : Name × Users.Card

/-- `NewOrder` up to the checks of what was fetched (lines 110-163). -/
def fetch (w : World F P) (q : Request) (flt : Faults) : Option (Fetched P) :=
  if q.customerID = [] then none
  else if q.addressID = [] then none
  else if q.cardID = [] then none
  else if q.cartID = [] then none
  else if flt.getCart || flt.getUsers || flt.getAddresses || flt.getCards then none
  else match (Cart.getCartItems w.carts q.cartID : Cart.Reply P), Users.getUsers w.users q.customerID,
      Users.getAddresses w.users q.addressID, Users.getCards w.users q.cardID with
    | .items items, .users users, .addresses addresses, .cards cards =>
      if items.length = 0 then none
      else if users.length = 0 then none
      else match addresses, cards with
        | address :: _, card :: _ => some ⟨items, address, card⟩
        | _, _ => none
    | _, _, _, _ => none

/-- What `NewOrder` returns: an order, an order together with an error, or an error. -/
inductive Reply (P : Type) where
  | placed (o : Order P)
  | placedError (o : Order P)
  | error
deriving DecidableEq

/-- `NewOrder` after the checks (lines 165-202), with `PostShipping` (shippingservice.go lines 53-64). -/
def finish (w : World F P) (declineOver : P) (q : Request) (flt : Faults) (uuid date : Name) (f : Fetched P) :
    World F P × Reply P :=
  let amount := calculateTotal f.items
  if flt.authorise then (w, .error)
  else match authorise declineOver amount with
    | none => (w, .error)
    | some false => (w, .error)
    | some true =>
      let shipment : Shipment := ⟨uuid, q.customerID, awaiting⟩
      match flt.push with
      | .error => (w, .error)
      | .no => (w, .error)
      | .yes =>
        let w := { w with queue := w.queue ++ [shipment] }
        if flt.insertShipment then (w, .error)
        else
          let w := { w with shipments := w.shipments ++ [shipment] }
          let order : Order P := ⟨shipment.id, q.customerID, f.address, f.card, f.items, shipment, date, amount⟩
          if flt.insertOrder then (w, .error)
          else
            let w := { w with orders := w.orders ++ [order] }
            if flt.deleteCart then (w, .placedError order)
            else match (Cart.deleteCart w.carts q.customerID : List (Doc F) × Cart.Reply P) with
              | (carts, .done) => ({ w with carts }, .placed order)
              | (carts, _) => ({ w with carts }, .placedError order)

/-- `NewOrder`, while nobody else makes calls. -/
def newOrder (w : World F P) (declineOver : P) (q : Request) (flt : Faults) (uuid date : Name) : World F P × Reply P :=
  match fetch w q flt with
  | none => (w, .error)
  | some f => finish w declineOver q flt uuid date f

/-- `GetOrder` (lines 78-93). -/
def getOrder (w : World F P) (id : Name) : Option (Order P) := w.orders.find? fun o => o.id = id

/-- `GetOrders` (lines 96-107). -/
def getOrders (w : World F P) (customerID : Name) : List (Order P) := w.orders.filter fun o => o.customerID = customerID

def shippedStatus : Name := "shipped".toList

/-- `UpdateOne` with `$set` of the status (shippingservice.go lines 83-91). -/
def setStatus (id status : Name) : List Shipment → List Shipment
  | [] => []
  | s :: ss => if s.id = id then { s with status } :: ss else s :: setStatus id status ss

/-- One round of the queue master (queuemaster.go lines 58-86), if its `UpdateStatus` succeeds. -/
def ship (w : World F P) : World F P :=
  match w.queue with
  | [] => w
  | s :: queue => { w with queue, shipments := setStatus s.id shippedStatus w.shipments }

/-- Calls of the shop, with what they need from outside. -/
inductive Op (P : Type) where
  | ship
  | cart (newId : Nat) (o : Cart.Op P)
  | user (o : Users.Op)
  | order (declineOver : P) (q : Request) (flt : Faults) (uuid date : Name)
  | getOrder (id : Name)
  | getOrders (customerID : Name)

/-- The replies. -/
inductive Answer (P : Type) where
  | silent
  | cart (r : Cart.Reply P)
  | user (r : Users.Reply)
  | order (r : Reply P)
  | one (o : Option (Order P))
  | many (l : List (Order P))

def call (w : World F P) : Op P → World F P × Answer P
  | .cart n o => let (c, r) := Cart.call w.carts n o; ({ w with carts := c }, .cart r)
  | .user o => let (u, r) := Users.call w.users o; ({ w with users := u }, .user r)
  | .order l q flt uuid date => let (w, r) := newOrder w l q flt uuid date; (w, .order r)
  | .ship => (ship w, .silent)
  | .getOrder id => (w, .one (getOrder w id))
  | .getOrders c => (w, .many (getOrders w c))

def calls (w : World F P) : List (Op P) → World F P × List (Answer P)
  | [] => (w, [])
  | o :: os =>
    let (w, r) := call w o
    let (w, rs) := calls w os
    (w, r :: rs)

end Verif.Orders
