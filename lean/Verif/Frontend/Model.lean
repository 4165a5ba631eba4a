/-
Model of the SockShop front end, /repo/examples/sockshop/workflow/frontend/frontend.go, on top of the models of the
catalogue, cart, user and order services.

Simplifications:
* Every call of another service may fail with an error (`Fails`, counted from 0 within one front-end call); a call that
  fails has no effect.  (`NewOrder` and the catalogue's calls have their own failures.)
* `uuid.NewString()`, the salt and the time are arguments.
* `GetUser`, `GetAddress` and `GetCard` differ from the user service's calls only as modelled; `ListItems`, `ListTags` and
  `GetSock` pass on the catalogue's calls.
-/
import Verif.Orders.Model
import Verif.Catalogue.Model
namespace Verif.Frontend
open Verif.NoSQL
variable {F P : Type} [Host F] [Cart.Single P F] [Users.Lib] [Orders.Arith P] [Catalogue.Sql P]

/-- The state of all services behind the front end. -/
structure Shop (F P : Type) where
  world : Orders.World F P
  catalogue : Catalogue.DB P

def Shop.init : Shop F P := ⟨Orders.World.init, Catalogue.DB.init⟩

/-- Which of the calls of other services that one front-end call makes fail, counted from 0. -/
abbrev Fails := Nat → Bool

def noFails : Fails := fun _ => false

/-- How a call ends. -/
inductive Status where
  | ok | error | panic
deriving DecidableEq

/-- A call of the cart service that may fail. -/
def cartCall (fail : Bool) (s : Shop F P) (newId : Nat) (o : Cart.Op P) : Shop F P × Status :=
  if fail then (s, .error)
  else match Cart.call s.world.carts newId o with
    | (carts, .error) => ({ s with world := { s.world with carts } }, .error)
    | (carts, .panic) => ({ s with world := { s.world with carts } }, .panic)
    | (carts, _) => ({ s with world := { s.world with carts } }, .ok)

/-- `AddItem` (lines 105-117): the session returned, and how the call ends. -/
def addItem (fails : Fails) (s : Shop F P) (sessionID itemID uuid : Name) (newId : Nat) : Shop F P × Name × Status :=
  let sessionID := if sessionID = [] then uuid else sessionID
  if fails 0 then (s, sessionID, .error)
  else match Catalogue.get s.catalogue itemID with
    | .error => (s, sessionID, .error)
    | .panic => (s, sessionID, .panic)
    | .ok sock =>
      let (s, r) := cartCall (fails 1) s newId (.addItem sessionID ⟨sock.id, 1, sock.price⟩)
      (s, sessionID, r)

/-- `RemoveItem` (lines 120-126). -/
def removeItem (fails : Fails) (s : Shop F P) (sessionID itemID : Name) : Shop F P × Status :=
  if sessionID = [] then (s, .ok) else cartCall (fails 0) s 0 (.removeItem sessionID itemID)

/-- `GetCart` (lines 129-135): `none` is an error or panic. -/
def getCart (fails : Fails) (s : Shop F P) (sessionID : Name) : Option (List (Cart.Item P)) :=
  if sessionID = [] then some []
  else if fails 0 then none
  else match (Cart.getCartItems s.world.carts sessionID : Cart.Reply P) with
    | .items l => some l
    | _ => none

/-- `DeleteCart` (lines 138-144). -/
def deleteCart (fails : Fails) (s : Shop F P) (sessionID : Name) : Shop F P × Status :=
  if sessionID = [] then (s, .ok) else cartCall (fails 0) s 0 (.deleteCart sessionID)

/-- `GetUser` (lines 147-160). -/
def getUser (fails : Fails) (s : Shop F P) (userID : Name) : Option Users.User :=
  if userID = [] then none
  else if fails 0 then none
  else match Users.getUsers s.world.users userID with
    | .users (u :: _) => some u
    | _ => none

/-- `GetAddress` (lines 163-175). -/
def getAddress (fails : Fails) (s : Shop F P) (addressID : Name) : Option (Name × Users.Address) :=
  if addressID = [] then none
  else if fails 0 then none
  else match Users.getAddresses s.world.users addressID with
    | .addresses (a :: _) => some a
    | _ => none

/-- `GetCard` (lines 178-190). -/
def getCard (fails : Fails) (s : Shop F P) (cardID : Name) : Option (Name × Users.Card) :=
  if cardID = [] then none
  else if fails 0 then none
  else match Users.getCards s.world.users cardID with
    | .cards (c :: _) => some c
    | _ => none

/-- `GetOrder` (lines 193-195). -/
def getOrder (fails : Fails) (s : Shop F P) (id : Name) : Option (Orders.Order P) :=
  if fails 0 then none else Orders.getOrder s.world id

/-- `GetOrders` (lines 198-203): `none` is an error. -/
def getOrders (fails : Fails) (s : Shop F P) (userID : Name) : Option (List (Orders.Order P)) :=
  if userID = [] then none
  else if fails 0 then none
  else some (Orders.getOrders s.world userID)

/-- `Login` (lines 221-234): the session returned, the user and how the call ends. -/
def login (fails : Fails) (s : Shop F P) (sessionID username password : Name) (newId : Nat) :
    Shop F P × Name × Option Users.User × Status :=
  if fails 0 then (s, sessionID, none, .error)
  else match Users.login s.world.users username password with
    | .user u =>
      if sessionID ≠ [] then
        match cartCall (fails 1) s newId (.mergeCarts u.id sessionID) with
        | (s, r) => (s, u.id, some u, r)
      else (s, u.id, some u, .ok)
    | .panic => (s, sessionID, none, .panic)
    | _ => (s, sessionID, none, .error)

/-- `NewOrder` (lines 237-239); its failures are those of the calls that the order service makes. -/
def newOrder (s : Shop F P) (declineOver : P) (q : Orders.Request) (flt : Orders.Faults) (uuid date : Name) :
    Shop F P × Orders.Reply P :=
  let (w, r) := Orders.newOrder s.world declineOver q flt uuid date
  ({ s with world := w }, r)

/-- A call of the user service that returns an identifier. -/
def userCall (fail : Bool) (s : Shop F P) (o : Users.Op) : Shop F P × Option Name :=
  if fail then (s, none)
  else match Users.call s.world.users o with
    | (users, .id i) => ({ s with world := { s.world with users } }, some i)
    | (users, _) => ({ s with world := { s.world with users } }, none)

/-- `PostAddress` (lines 242-244): the identifier, or an error. -/
def postAddress (fails : Fails) (s : Shop F P) (userID : Name) (a : Users.Address) : Shop F P × Option Name :=
  userCall (fails 0) s (.postAddress userID a)

/-- `PostCard` (lines 247-249). -/
def postCard (fails : Fails) (s : Shop F P) (userID : Name) (c : Users.Card) : Shop F P × Option Name :=
  userCall (fails 0) s (.postCard userID c)

/-- `Register` (lines 252-263): the session returned, and how the call ends. -/
def register (fails : Fails) (s : Shop F P) (sessionID : Name) (p : Users.Person) (password salt : Name) (newId : Nat) :
    Shop F P × Name × Status :=
  match userCall (fails 0) s (.register p password salt) with
  | (s, none) => (s, sessionID, .error)
  | (s, some userID) =>
    if sessionID ≠ [] then
      match cartCall (fails 1) s newId (.mergeCarts userID sessionID) with
      | (s, r) => (s, userID, r)
    else (s, userID, .ok)

/-- `UpdateItem` (lines 266-273). -/
def updateItem (fails : Fails) (s : Shop F P) (sessionID itemID : Name) (quantity : Int) (newId : Nat) :
    Shop F P × Name × Status :=
  if fails 0 then (s, sessionID, .error)
  else match Catalogue.get s.catalogue itemID with
    | .error => (s, sessionID, .error)
    | .panic => (s, sessionID, .panic)
    | .ok sock =>
      let (s, r) := cartCall (fails 1) s newId (.updateItem sessionID ⟨sock.id, quantity, sock.price⟩)
      (s, sessionID, r)

/-- The calls that change something: those of the front end, and those that anyone with access to the services behind
it makes. -/
inductive Op (P : Type) where
  | addItem (sessionID itemID uuid : Name) (newId : Nat)
  | removeItem (sessionID itemID : Name)
  | deleteCart (sessionID : Name)
  | login (sessionID username password : Name) (newId : Nat)
  | newOrder (declineOver : P) (q : Orders.Request) (flt : Orders.Faults) (uuid date : Name)
  | postAddress (userID : Name) (a : Users.Address)
  | postCard (userID : Name) (c : Users.Card)
  | register (sessionID : Name) (p : Users.Person) (password salt : Name) (newId : Nat)
  | updateItem (sessionID itemID : Name) (quantity : Int) (newId : Nat)
  | behind (o : Orders.Op P)
  | catalogue (fails : Catalogue.Fails) (o : Catalogue.Op P)

/-- The shop after a call. -/
def call (s : Shop F P) (fails : Fails) : Op P → Shop F P
  | .addItem c i u n => (addItem fails s c i u n).1
  | .removeItem c i => (removeItem fails s c i).1
  | .deleteCart c => (deleteCart fails s c).1
  | .login c u p n => (login fails s c u p n).1
  | .newOrder l q flt u d => (newOrder s l q flt u d).1
  | .postAddress u a => (postAddress fails s u a).1
  | .postCard u c => (postCard fails s u c).1
  | .register c p pw salt n => (register fails s c p pw salt n).1
  | .updateItem c i q n => (updateItem fails s c i q n).1
  | .behind o => { s with world := (Orders.call s.world o).1 }
  | .catalogue f o => { s with catalogue := Catalogue.call s.catalogue f o }

/-- Calls one after the other. -/
def calls (s : Shop F P) (hist : List (Fails × Op P)) : Shop F P := hist.foldl (fun s e => call s e.1 e.2) s

end Verif.Frontend
