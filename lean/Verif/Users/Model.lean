/-
Model of the SockShop user service, /repo/examples/sockshop/workflow/user/{userservice,userdb,addressesdb,cardsdb}.go.

Simplifications:
* The three collections are lists of typed records, oldest first.  What `FindOne`, `FindMany`, `UpsertID`,
  `UpdateOne` with `$addToSet`, `UpdateMany` with `$pull` and `DeleteMany` do on documents of this shape is what C35,
  C36, C38, C41, C43 and C59 prove of the in-memory database; database errors are left out.
* `primitive.NewObjectID` gives numbers that were not given before; the zero ObjectID is 0.
* Strings are lists of characters (`maskCC` counts bytes).
-/
namespace Verif.Users

abbrev Str := List Char

/-- What the service takes from libraries: the hexadecimal form of an ObjectID, `ObjectIDFromHex`, and the salted
SHA-1 hash in hexadecimal (`calculatePassHash`, userservice.go lines 263-268), which is never empty. -/
class Lib where
  hex : Nat → Str
  fromHex : Str → Option Nat
  from_hex : ∀ n, fromHex (hex n) = some n
  hash : Str → Str → Str
  hash_ne : ∀ p s, hash p s ≠ []

variable [Lib]
open Lib

/-- `Address` without its `ID` (userservice.go lines 80-87). -/
structure Address where
  street : Str
  number : Str
  country : Str
  city : Str
  postCode : Str
deriving DecidableEq

/-- `Card` without its `ID` (lines 90-95). -/
structure Card where
  longNum : Str
  expires : Str
  ccv : Str
deriving DecidableEq

/-- The fields of `User` (lines 67-77) that the caller of `Register` and `PostUser` gives. -/
structure Person where
  first : Str
  last : Str
  email : Str
  username : Str
deriving DecidableEq

/-- `dbUser` (userdb.go lines 20-25). -/
structure DbUser where
  id : Nat
  person : Person
  password : Str
  salt : Str
  addresses : List Nat
  cards : List Nat
deriving DecidableEq

/-- `dbUser{}` -/
def DbUser.zero : DbUser := ⟨0, ⟨[], [], [], []⟩, [], [], [], []⟩

/-- The database: users, addresses and cards (`dbAddress`, `dbCard`), each with its ObjectID; and the next ObjectID. -/
structure State where
  users : List DbUser
  addresses : List (Nat × Address)
  cards : List (Nat × Card)
  next : Nat

def State.init : State := ⟨[], [], [], 1⟩

/-- A `User` as the calls return it: with the identifier, and the addresses and cards with theirs. -/
structure User where
  id : Str
  person : Person
  addresses : List (Str × Address)
  cards : List (Str × Card)
deriving DecidableEq

inductive Reply where
  | user (u : User)
  | users (l : List User)
  | addresses (l : List (Str × Address))
  | cards (l : List (Str × Card))
  | id (s : Str)
  | done
  | error
  | panic
deriving DecidableEq

/-- `Address{}` and `Card{}` -/
def zeroAddress : Address := ⟨[], [], [], [], []⟩
def zeroCard : Card := ⟨[], [], []⟩

/-- `AddUserIDs` (userdb.go lines 303-313): the addresses and cards carry only identifiers. -/
def addUserIDs (u : DbUser) : User :=
  ⟨hex u.id, u.person, u.addresses.map fun i => (hex i, zeroAddress), u.cards.map fun i => (hex i, zeroCard)⟩

/-- `hexToObjectIds` (userdb.go lines 325-336). -/
def hexToObjectIds : List Str → Option (List Nat)
  | [] => some []
  | h :: hs => match fromHex h with
    | none => none
    | some i => (hexToObjectIds hs).map (i :: ·)

/-- `getAddresses` (addressesdb.go lines 49-77) and `getCards` (cardsdb.go lines 49-77). -/
def getByIds {α : Type} (coll : List (Nat × α)) (hs : List Str) : Option (List (Str × α)) :=
  match hs with
  | [] => some []
  | _ => match hexToObjectIds hs with
    | none => none
    | some ids => some ((coll.filter fun e => ids.contains e.1).map fun e => (hex e.1, e.2))

/-- `getAddress` and `getCard` (addressesdb.go lines 28-46, cardsdb.go lines 28-46): without a result the record
stays zero, and no error is reported. -/
def getById {α : Type} (zero : α) (coll : List (Nat × α)) (h : Str) : Option (Str × α) :=
  match fromHex h with
  | none => none
  | some id => match coll.find? fun e => e.1 = id with
    | some e => some (hex e.1, e.2)
    | none => some (hex 0, zero)

/-- `getAllAddresses` and `getAllCards` (lines 79-95). -/
def getAll {α : Type} (coll : List (Nat × α)) : List (Str × α) := coll.map fun e => (hex e.1, e.2)

/-- `maskCC` (userservice.go lines 258-261): `strings.Repeat` panics on a negative count. -/
def maskCC (c : Card) : Option Card :=
  if c.longNum.length < 4 then none
  else some { c with longNum := List.replicate (c.longNum.length - 4) '*' ++ c.longNum.drop (c.longNum.length - 4) }

/-- `maskCCs` (lines 228-232). -/
def maskCCs : List (Str × Card) → Option (List (Str × Card))
  | [] => some []
  | (h, c) :: rest => match maskCC c, maskCCs rest with
    | some c, some rest => some ((h, c) :: rest)
    | _, _ => none

/-- `Login` (lines 118-134) with `getUserByName` (userdb.go lines 79-96) and `getUserAttributes` (lines 147-163). -/
def login (s : State) (username password : Str) : Reply :=
  let u := (s.users.find? fun u => u.person.username = username).getD DbUser.zero
  if u.password ≠ hash password u.salt then .error
  else
    let v := addUserIDs u
    match getByIds s.addresses (v.addresses.map (·.1)) with
    | none => .error
    | some as => match getByIds s.cards (v.cards.map (·.1)) with
      | none => .error
      | some cs => match maskCCs cs with
        | none => .panic
        | some cs => .user { v with addresses := as, cards := cs }

/-- `createAddresses` and `createCards` (addressesdb.go lines 112-131, cardsdb.go lines 112-131): the collection, the
next ObjectID and the identifiers. -/
def createMany {α : Type} (coll : List (Nat × α)) (next : Nat) : List α → List (Nat × α) × Nat × List Nat
  | [] => (coll, next, [])
  | a :: as =>
    let (coll, next', ids) := createMany (coll ++ [(next, a)]) (next + 1) as
    (coll, next', next :: ids)

/-- `createUser` (userdb.go lines 52-77). -/
def createUser (s : State) (p : Person) (password salt : Str) (as : List Address) (cs : List Card) : State × Reply :=
  let id := s.next
  let (cards, next, cardIDs) := createMany s.cards (s.next + 1) cs
  let (addresses, next, addressIDs) := createMany s.addresses next as
  (⟨s.users ++ [⟨id, p, password, salt, addressIDs, cardIDs⟩], addresses, cards, next⟩, .id (hex id))

/-- `Register` (userservice.go lines 136-150); the salt comes from the clock. -/
def register (s : State) (p : Person) (password salt : Str) : State × Reply :=
  createUser s p (hash password salt) salt [] []

/-- `PostUser` (lines 161-166). -/
def postUser (s : State) (p : Person) (password salt : Str) (as : List Address) (cs : List Card) : State × Reply :=
  createUser s p (hash password salt) salt as cs

/-- `GetUsers` (lines 152-159) with `getUsers` and `getUser` (userdb.go lines 99-144): without a result the user stays
zero, and no error is reported. -/
def getUsers (s : State) (userid : Str) : Reply :=
  if userid = [] then .users (s.users.map addUserIDs)
  else match fromHex userid with
    | none => .error
    | some id => .users [addUserIDs ((s.users.find? fun u => u.id = id).getD DbUser.zero)]

/-- `GetAddresses` (userservice.go lines 168-175). -/
def getAddresses (s : State) (id : Str) : Reply :=
  if id = [] then .addresses (getAll s.addresses)
  else match getById zeroAddress s.addresses id with
    | none => .error
    | some a => .addresses [a]

/-- `GetCards` (lines 182-189). -/
def getCards (s : State) (id : Str) : Reply :=
  if id = [] then .cards (getAll s.cards)
  else match getById zeroCard s.cards id with
    | none => .error
    | some c => .cards [c]

/-- `UpdateOne` of the user with an ObjectID. -/
def updateUser (id : Nat) (f : DbUser → DbUser) : List DbUser → List DbUser
  | [] => []
  | u :: us => if u.id = id then f u :: us else u :: updateUser id f us

/-- `$addToSet` on a list of ObjectIDs. -/
def addToSet (i : Nat) (l : List Nat) : List Nat := if l.contains i then l else l ++ [i]

/-- `PostCard` (lines 191-194) with `createCard` (userdb.go lines 166-191). -/
def postCard (s : State) (userid : Str) (c : Card) : State × Reply :=
  if userid = [] then ({ s with cards := s.cards ++ [(s.next, c)], next := s.next + 1 }, .id (hex s.next))
  else match fromHex userid with
    | none => (s, .error)
    | some id =>
      ({ s with cards := s.cards ++ [(s.next, c)], next := s.next + 1,
                users := updateUser id (fun u => { u with cards := addToSet s.next u.cards }) s.users }, .id (hex s.next))

/-- `PostAddress` (lines 177-180) with `createAddress` (userdb.go lines 194-219). -/
def postAddress (s : State) (userid : Str) (a : Address) : State × Reply :=
  if userid = [] then ({ s with addresses := s.addresses ++ [(s.next, a)], next := s.next + 1 }, .id (hex s.next))
  else match fromHex userid with
    | none => (s, .error)
    | some id =>
      ({ s with addresses := s.addresses ++ [(s.next, a)], next := s.next + 1,
                users := updateUser id (fun u => { u with addresses := addToSet s.next u.addresses }) s.users },
       .id (hex s.next))

/-- `DeleteMany` with `$in` (addressesdb.go lines 142-144, cardsdb.go lines 142-144). -/
def removeIds {α : Type} (ids : List Nat) (coll : List (Nat × α)) : List (Nat × α) :=
  coll.filter fun e => !ids.contains e.1

/-- `deleteUser` (userdb.go lines 234-265). -/
def deleteUser (s : State) (h : Str) : State × Reply :=
  match fromHex h with
  | none => (s, .error)
  | some id =>
    let u := addUserIDs ((s.users.find? fun u => u.id = id).getD DbUser.zero)
    match hexToObjectIds (u.addresses.map (·.1)) with
    | none => (s, .error)
    | some as =>
      let s := { s with addresses := removeIds as s.addresses }
      match hexToObjectIds (u.cards.map (·.1)) with
      | none => (s, .error)
      | some cs => ({ s with cards := removeIds cs s.cards, users := s.users.filter fun u => u.id ≠ id }, .done)

/-- `deleteAddress` (userdb.go lines 267-275) with `deleteAttr` (lines 287-298): `$pull` from every user that has it. -/
def deleteAddress (s : State) (h : Str) : State × Reply :=
  match fromHex h with
  | none => (s, .error)
  | some id =>
    ({ s with users := s.users.map fun u =>
                if u.addresses.contains id then { u with addresses := u.addresses.filter (· ≠ id) } else u,
              addresses := removeIds [id] s.addresses }, .done)

/-- `deleteCard` (lines 277-285). -/
def deleteCard (s : State) (h : Str) : State × Reply :=
  match fromHex h with
  | none => (s, .error)
  | some id =>
    ({ s with users := s.users.map fun u =>
                if u.cards.contains id then { u with cards := u.cards.filter (· ≠ id) } else u,
              cards := removeIds [id] s.cards }, .done)

/-- The calls of `UserService` (lines 31-64); `Delete` has one constructor per entity. -/
inductive Op where
  | login (username password : Str)
  | register (p : Person) (password salt : Str)
  | postUser (p : Person) (password salt : Str) (as : List Address) (cs : List Card)
  | getUsers (id : Str)
  | getAddresses (id : Str)
  | postAddress (userid : Str) (a : Address)
  | getCards (id : Str)
  | postCard (userid : Str) (c : Card)
  | deleteUser (id : Str)
  | deleteAddress (id : Str)
  | deleteCard (id : Str)
  | deleteOther

def call (s : State) : Op → State × Reply
  | .login u p => (s, login s u p)
  | .register p pw salt => register s p pw salt
  | .postUser p pw salt as cs => postUser s p pw salt as cs
  | .getUsers id => (s, getUsers s id)
  | .getAddresses id => (s, getAddresses s id)
  | .postAddress u a => postAddress s u a
  | .getCards id => (s, getCards s id)
  | .postCard u c => postCard s u c
  | .deleteUser id => deleteUser s id
  | .deleteAddress id => deleteAddress s id
  | .deleteCard id => deleteCard s id
  | .deleteOther => (s, .error)

/-- Calls one after the other. -/
def calls (s : State) : List Op → State × List Reply
  | [] => (s, [])
  | o :: os =>
    let (s, r) := call s o
    let (s, rs) := calls s os
    (s, r :: rs)

end Verif.Users
