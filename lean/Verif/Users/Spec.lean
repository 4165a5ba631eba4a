/-
What the documentation of `UserService` (userservice.go lines 31-66) promises: a register of accounts, and a file of
addresses and cards, each of which belongs to one account or to nobody.
-/
import Verif.Users.Model
namespace Verif.Users
variable [Lib]
open Lib

/-- An account, with the password in clear. -/
structure Account where
  id : Nat
  person : Person
  password : Str
  salt : Str
deriving DecidableEq

/-- An address or card on file. -/
structure Filed (α : Type) where
  id : Nat
  owner : Option Nat
  val : α

structure Book where
  accounts : List Account
  addresses : List (Filed Address)
  cards : List (Filed Card)
  next : Nat

def Book.empty : Book := ⟨[], [], [], 1⟩

/-- A login with this password is accepted: it has the same salted hash. -/
def Account.accepts (a : Account) (password : Str) : Prop := hash password a.salt = hash a.password a.salt

instance (a : Account) (p : Str) : Decidable (a.accepts p) := by unfold Account.accepts; infer_instance

/-- There is an account with this identifier. -/
def Book.has (b : Book) (id : Nat) : Prop := ∃ a ∈ b.accounts, a.id = id

instance (b : Book) (id : Nat) : Decidable (b.has id) := by unfold Book.has; infer_instance

/-- A card number with all but the last four digits replaced. -/
def masked (num : Str) : Str := num.mapIdx fun i c => if i + 4 < num.length then '*' else c

/-- The entries that an account owns. -/
def ownedBy {α : Type} (id : Nat) (l : List (Filed α)) : List (Filed α) := l.filter fun e => e.owner = some id

/-- An entry as it is returned. -/
def Filed.shown {α : Type} (e : Filed α) : Str × α := (hex e.id, e.val)

/-- A user as listed: the addresses and cards with their identifiers only. -/
def listed (b : Book) (a : Account) : User :=
  ⟨hex a.id, a.person, (ownedBy a.id b.addresses).map fun e => (hex e.id, zeroAddress),
    (ownedBy a.id b.cards).map fun e => (hex e.id, zeroCard)⟩

/-- A user as after login: complete, with masked card numbers. -/
def complete (b : Book) (a : Account) : User :=
  ⟨hex a.id, a.person, (ownedBy a.id b.addresses).map Filed.shown,
    (ownedBy a.id b.cards).map fun e => (hex e.id, { e.val with longNum := masked e.val.longNum })⟩

/-- New entries with consecutive identifiers. -/
def filed {α : Type} (start : Nat) (owner : Option Nat) (l : List α) : List (Filed α) :=
  l.mapIdx fun i v => ⟨start + i, owner, v⟩

/-- The owner of what is posted for a user: nobody unless there is such a user. -/
def Book.ownerOf (b : Book) (userid : Str) : Option Nat := (fromHex userid).filter fun id => decide (b.has id)

/-- The identifier is empty (nobody) or well-formed. -/
def wellFormed (userid : Str) : Prop := userid = [] ∨ (fromHex userid).isSome

instance (u : Str) : Decidable (wellFormed u) := by unfold wellFormed; infer_instance

/-- The register after a call. -/
def Book.after (b : Book) : Op → Book
  | .register p pw salt => { b with accounts := b.accounts ++ [⟨b.next, p, pw, salt⟩], next := b.next + 1 }
  | .postUser p pw salt as cs =>
    { accounts := b.accounts ++ [⟨b.next, p, pw, salt⟩]
      cards := b.cards ++ filed (b.next + 1) (some b.next) cs
      addresses := b.addresses ++ filed (b.next + 1 + cs.length) (some b.next) as
      next := b.next + 1 + cs.length + as.length }
  | .postAddress u a =>
    if wellFormed u then
      { b with addresses := b.addresses ++ [⟨b.next, if u = [] then none else b.ownerOf u, a⟩], next := b.next + 1 }
    else b
  | .postCard u c =>
    if wellFormed u then
      { b with cards := b.cards ++ [⟨b.next, if u = [] then none else b.ownerOf u, c⟩], next := b.next + 1 }
    else b
  | .deleteUser h => match fromHex h with
    | none => b
    | some id =>
      { b with accounts := b.accounts.filter fun a => a.id ≠ id
               addresses := b.addresses.filter fun e => e.owner ≠ some id
               cards := b.cards.filter fun e => e.owner ≠ some id }
  | .deleteAddress h => match fromHex h with
    | none => b
    | some id => { b with addresses := b.addresses.filter fun e => e.id ≠ id }
  | .deleteCard h => match fromHex h with
    | none => b
    | some id => { b with cards := b.cards.filter fun e => e.id ≠ id }
  | _ => b

/-- What a look-up by identifier returns: everything for the empty one, else the entry with that identifier, if any. -/
def lookup {α β : Type} (l : List α) (id : α → Nat) (show_ : α → β) (h : Str) : Option (List β) :=
  if h = [] then some (l.map show_)
  else (fromHex h).map fun n => (l.filter fun e => id e = n).map show_

/-- The reply to a call. -/
def Book.reply (b : Book) : Op → Reply
  | .login u p => match b.accounts.find? fun a => a.person.username = u ∧ a.accepts p with
    | none => .error
    | some a => .user (complete b a)
  | .register _ _ _ => .id (hex b.next)
  | .postUser _ _ _ _ _ => .id (hex b.next)
  | .getUsers h => ((lookup b.accounts (·.id) (listed b) h).map Reply.users).getD .error
  | .getAddresses h => ((lookup b.addresses (·.id) Filed.shown h).map Reply.addresses).getD .error
  | .getCards h => ((lookup b.cards (·.id) Filed.shown h).map Reply.cards).getD .error
  | .postAddress u _ => if wellFormed u then .id (hex b.next) else .error
  | .postCard u _ => if wellFormed u then .id (hex b.next) else .error
  | .deleteUser h => if (fromHex h).isSome then .done else .error
  | .deleteAddress h => if (fromHex h).isSome then .done else .error
  | .deleteCard h => if (fromHex h).isSome then .done else .error
  | .deleteOther => .error

/-- A call on which the code and the documentation agree: a new username, a card number of at least four digits, and
look-ups of identifiers that exist. -/
def Book.fine (b : Book) : Op → Prop
  | .register p _ _ => ∀ a ∈ b.accounts, a.person.username ≠ p.username
  | .postUser p _ _ _ cs => (∀ a ∈ b.accounts, a.person.username ≠ p.username) ∧ ∀ c ∈ cs, 4 ≤ c.longNum.length
  | .postCard _ c => 4 ≤ c.longNum.length
  | .getUsers h => ∀ n, h ≠ [] → fromHex h = some n → b.has n
  | .getAddresses h => ∀ n, h ≠ [] → fromHex h = some n → ∃ e ∈ b.addresses, e.id = n
  | .getCards h => ∀ n, h ≠ [] → fromHex h = some n → ∃ e ∈ b.cards, e.id = n
  | _ => True

/-- All calls of a history are such calls. -/
def Book.allFine (b : Book) : List Op → Prop
  | [] => True
  | o :: os => b.fine o ∧ (b.after o).allFine os

/-- The register after a history, and the replies. -/
def Book.history (b : Book) (os : List Op) : Book := os.foldl Book.after b

def Book.replies (b : Book) : List Op → List Reply
  | [] => []
  | o :: os => b.reply o :: (b.after o).replies os

end Verif.Users
