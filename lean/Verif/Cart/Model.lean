import Verif.NoSQL.Model
/-
Model of the SockShop cart service, /repo/examples/sockshop/workflow/cart/cartservice.go, on top of the model
of the in-memory NoSQL database (`Verif.NoSQL.Model`).

Simplifications:
* `int` quantities do not overflow.
* BSON encoding (`bson.Marshal` followed by `bson.Unmarshal`) is modelled by its result; a document read back into
  a Go value is decoded field by field, and a field of an unexpected type is an error (the driver also accepts
  some numeric conversions, which do not arise here).
* The context argument and its cancellation are left out.
-/
namespace Verif.Cart
open Verif.NoSQL
variable {F P : Type} [Host F]

/-- Go's `float32`: its zero, and the conversions to and from `float64`, of which the first loses nothing. -/
class Single (P : Type) (F : outParam Type) where
  zero : P
  toDouble : P → F
  ofDouble : F → P
  exact : ∀ p, ofDouble (toDouble p) = p

variable [Single P F]

/-- `Item` (lines 49-53). -/
structure Item (P : Type) where
  id : Name
  quantity : Int
  price : P
deriving DecidableEq

/-- `cart` (lines 42-45). -/
structure Cart (P : Type) where
  id : Name
  items : List (Item P)

/-- BSON field names: the lower-case names of the struct fields. -/
def kId' : Name := ['i', 'd']
def kItems : Name := ['i', 't', 'e', 'm', 's']
def kQuantity : Name := ['q', 'u', 'a', 'n', 't', 'i', 't', 'y']
def kPrice : Name := ['u', 'n', 'i', 't', 'p', 'r', 'i', 'c', 'e']

/-- The BSON encoding of a Go `int`: 32 bits if it fits. -/
def encInt (n : Int) : Value F :=
  if -2147483648 ≤ n ∧ n < 2147483648 then .int .int32 n else .int .int64 n

/-- The BSON encoding of an `Item`. -/
def encItem (x : Item P) : Value F :=
  .doc [(kId', .str x.id), (kQuantity, encInt x.quantity), (kPrice, .float (Single.toDouble x.price))]

/-- The BSON encoding of a `cart`. -/
def encCart (c : Cart P) : Doc F := [(kId', .str c.id), (kItems, .arr (c.items.map encItem) [])]

/-- Decoding a string field that had a value before. -/
def decStr (before : Name) : Option (Value F) → Option Name
  | none => some before
  | some .null => some []
  | some (.str s) => some s
  | _ => none

/-- Decoding an `int` field. -/
def decInt : Option (Value F) → Option Int
  | none => some 0
  | some .null => some 0
  | some (.int _ n) => some n
  | _ => none

/-- Decoding a `float32` field. -/
def decFloat : Option (Value F) → Option P
  | none => some Single.zero
  | some .null => some Single.zero
  | some (.float f) => some (Single.ofDouble f)
  | _ => none

/-- `Item{}` -/
def zeroItem {F P : Type} [Single P F] : Item P := ⟨[], 0, Single.zero⟩

/-- Decoding an `Item`. -/
def decItem : Value F → Option (Item P)
  | .doc d => match decStr [] (field kId' d), decInt (field kQuantity d), decFloat (field kPrice d) with
    | some i, some q, some p => some ⟨i, q, p⟩
    | _, _, _ => none
  | .null => some zeroItem
  | _ => none

def decList : List (Value F) → Option (List (Item P))
  | [] => some []
  | v :: vs => match decItem v, decList vs with
    | some x, some xs => some (x :: xs)
    | _, _ => none

/-- Decoding the `Items` field of a cart that had none before. -/
def decItems : Option (Value F) → Option (List (Item P))
  | none => some []
  | some .null => some []
  | some (.arr vs _) => decList vs
  | _ => none

/-- `cursor.One(ctx, &c)` with `c := cart{ID: id}` (lines 208-209). -/
def decCart (id : Name) (d : Doc F) : Option (Cart P) :=
  match decStr id (field kId' d), decItems (field kItems d) with
  | some i, some xs => some ⟨i, xs⟩
  | _, _ => none

/-- `getCart` (lines 202-211).  The flag that `One` returns is not used. -/
def getCart (db : List (Doc F)) (id : Name) : Ret (Cart P) :=
  match findOne db [(kId', .str id)] with
  | .error => .error
  | .panic => .panic
  | .ok none => .ok ⟨id, []⟩
  | .ok (some d) => match decCart id d with
    | some c => .ok c
    | none => .error

/-- `findItem` (lines 213-223): the position of the item. -/
def findItem (itemID : Name) : List (Item P) → Option Nat
  | [] => none
  | x :: xs => if x.id = itemID then some 0 else (findItem itemID xs).map (· + 1)

/-- The loop of `removeItem` (lines 227-233): `kept` is `c.Items[:i]`, the last argument `c.Items[i:]`. -/
def removeLoop (itemID : Name) (kept : List (Item P)) (removed : Bool) : List (Item P) → List (Item P) × Bool
  | [] => (kept, removed)
  | x :: xs => if x.id = itemID then removeLoop itemID kept true xs else removeLoop itemID (kept ++ [x]) removed xs

/-- `removeItem` (lines 225-235): the items left, and whether one was removed. -/
def removeItem (itemID : Name) (items : List (Item P)) : List (Item P) × Bool := removeLoop itemID [] false items

/-- What the calls return. -/
inductive Reply (P : Type) where
  | items (l : List (Item P))
  | item (x : Item P)
  | done
  | error
  | panic
deriving DecidableEq

/-- How a database call that only reports an error ends. -/
def ofOutcome (ok : Reply P) : Outcome → Reply P
  | .ok => ok
  | .error => .error
  | .panic => .panic
def ofRet (ok : Reply P) : Ret Unit → Reply P
  | .ok () => ok
  | .error => .error
  | .panic => .panic

/-- The change `AddItem` makes to the cart it has read, and the item it returns (lines 74-79). -/
def addTo (c : Cart P) (item : Item P) : Cart P × Item P :=
  match findItem item.id c.items with
  | some i => match c.items[i]? with
    | some x => let x := { x with quantity := x.quantity + item.quantity }
                ({ c with items := c.items.set i x }, x)
    | none => (c, item)
  | none => ({ c with items := c.items ++ [item] }, item)

/-- `AddItem` after it has read the cart (lines 74-82). -/
def addWrite (db : List (Doc F)) (customerID : Name) (item : Item P) (newId : Nat) (c : Cart P) :
    List (Doc F) × Reply P :=
  let (c, item) := addTo c item
  let (db, _, o) := upsert db [(kId', .str customerID)] (.obj (some (encCart c))) newId
  (db, ofOutcome (.item item) o)

/-- `AddItem` (lines 68-83).  `newId` is the identifier the database gives a new document. -/
def addItem (db : List (Doc F)) (customerID : Name) (item : Item P) (newId : Nat) : List (Doc F) × Reply P :=
  match getCart db customerID with
  | .error => (db, .error)
  | .panic => (db, .panic)
  | .ok c => addWrite db customerID item newId c

/-- `DeleteCart` (lines 86-88). -/
def deleteCart (db : List (Doc F)) (customerID : Name) : List (Doc F) × Reply P :=
  let (db, r) := deleteMany db [(kId', .str customerID)]
  (db, ofRet .done r)

/-- `GetCart` (lines 91-97). -/
def getCartItems (db : List (Doc F)) (customerID : Name) : Reply P :=
  match getCart db customerID with
  | .error => .error
  | .panic => .panic
  | .ok c => .items c.items

/-- `GetItem` (lines 100-108). -/
def getItem (db : List (Doc F)) (customerID itemID : Name) : Reply P :=
  match getCart db customerID with
  | .error => .error
  | .panic => .panic
  | .ok (c : Cart P) => match findItem itemID c.items with
    | some i => match c.items[i]? with
      | some x => .item x
      | none => .panic
    | none => .item zeroItem

/-- `customerCartItems` (lines 129-132): for each item identifier the position its pointer refers to.  Of several
items with the same identifier the last one stays in the map. -/
def pointers (items : List (Item P)) : List (Name × Nat) := (items.zipIdx.map fun e => (e.1.id, e.2)).reverse

/-- The free slots after an `append`: without a free slot, the items move. -/
def fewer : Option Nat → Option Nat
  | some (r + 1) => some r
  | _ => none

/-- The loop of `MergeCarts` (lines 134-141).  The pointers refer to the array that `customerCart.Items` had when
they were taken.  `free` is the number of free slots left in that array while `customerCart.Items` still uses it,
and `none` once an `append` has moved the items to a new array; from then on a write through a pointer is not
seen in `customerCart.Items`. -/
def mergeLoop (ptrs : List (Name × Nat)) : Option Nat → List (Item P) → List (Item P) → List (Item P)
  | _, items, [] => items
  | free, items, y :: ys => match ptrs.lookup y.id with
    | some i => mergeLoop ptrs free
        (if free.isSome then items.modify i fun x => { x with quantity := x.quantity + y.quantity, price := y.price }
          else items) ys
    | none => mergeLoop ptrs (fewer free) (items ++ [y]) ys

/-- The merged items (lines 129-141).  The array of a decoded slice has `decodeRoom` free slots. -/
def mergeItems (F : Type) [Host F] (customer session : List (Item P)) : List (Item P) :=
  mergeLoop (pointers customer) (some (Host.decodeRoom (F := F) customer.length)) customer session

/-- `MergeCarts` (lines 111-150). -/
def mergeCarts (db : List (Doc F)) (customerID sessionID : Name) (newId : Nat) : List (Doc F) × Reply P :=
  match getCart db sessionID with
  | .error => (db, .error)
  | .panic => (db, .panic)
  | .ok (sessionCart : Cart P) => match getCart db customerID with
    | .error => (db, .error)
    | .panic => (db, .panic)
    | .ok (customerCart : Cart P) =>
      if sessionCart.items.length = 0 then (db, .done)
      else
        let merged := { customerCart with items := mergeItems F customerCart.items sessionCart.items }
        match upsert db [(kId', .str customerID)] (.obj (some (encCart merged))) newId with
        | (db, _, .error) => (db, .error)
        | (db, _, .panic) => (db, .panic)
        | (db, _, .ok) =>
          let (db, r) := deleteOne db [(kId', .str sessionID)]
          (db, ofRet .done r)

/-- `RemoveItem` (lines 153-169). -/
def removeItemCall (db : List (Doc F)) (customerID itemID : Name) : List (Doc F) × Reply P :=
  match getCart db customerID with
  | .error => (db, .error)
  | .panic => (db, .panic)
  | .ok (c : Cart P) => match removeItem itemID c.items with
    | (_, false) => (db, .done)
    | (items, true) =>
      if items.length = 0 then deleteCart db customerID
      else
        let (db, _, o) := replaceOne db [(kId', .str customerID)] (.obj (some (encCart { c with items := items })))
        (db, ofOutcome .done o)

/-- The cart `UpdateItem` saves (lines 178-198); `none` if it makes no change. -/
def updateIn (c : Cart P) (item : Item P) : Option (Cart P) :=
  match findItem item.id c.items with
  | some i =>
    let items := c.items.modify i fun x => { x with quantity := item.quantity, price := item.price }
    some { c with items := if item.quantity ≤ 0 then (removeItem item.id items).1 else items }
  | none => if item.quantity ≤ 0 then none else some { c with items := c.items ++ [item] }

/-- `UpdateItem` (lines 172-200).  The test for an empty cart (lines 188-190) is only made when the item was in the
cart; otherwise the cart has the new item. -/
def updateItem (db : List (Doc F)) (customerID : Name) (item : Item P) (newId : Nat) : List (Doc F) × Reply P :=
  match getCart db customerID with
  | .error => (db, .error)
  | .panic => (db, .panic)
  | .ok (c : Cart P) => match updateIn c item with
    | none => (db, .done)
    | some c =>
      if c.items.length = 0 then deleteCart db customerID
      else
        let (db, _, o) := upsert db [(kId', .str customerID)] (.obj (some (encCart c))) newId
        (db, ofOutcome .done o)

/-- The calls of `CartService` (lines 13-39). -/
inductive Op (P : Type) where
  | getCart (customerID : Name)
  | deleteCart (customerID : Name)
  | mergeCarts (customerID sessionID : Name)
  | getItem (customerID itemID : Name)
  | addItem (customerID : Name) (item : Item P)
  | removeItem (customerID itemID : Name)
  | updateItem (customerID : Name) (item : Item P)

/-- One call; the number is the identifier the database gives to a new document. -/
def call (db : List (Doc F)) (newId : Nat) : Op P → List (Doc F) × Reply P
  | .getCart c => (db, getCartItems db c)
  | .deleteCart c => deleteCart db c
  | .mergeCarts c s => mergeCarts db c s newId
  | .getItem c i => (db, getItem db c i)
  | .addItem c x => addItem db c x newId
  | .removeItem c i => removeItemCall db c i
  | .updateItem c x => updateItem db c x newId

/-- Calls one after the other: the database afterwards and the replies. -/
def calls (db : List (Doc F)) : List (Nat × Op P) → List (Doc F) × List (Reply P)
  | [] => (db, [])
  | (n, o) :: rest =>
    let (db, r) := call db n o
    let (db, rs) := calls db rest
    (db, r :: rs)

/-! ### Concurrent calls of `AddItem`

Each database operation is one step. -/

/-- How far a call of `AddItem` is. -/
inductive Phase (P : Type) where
  | start
  | read (c : Cart P)
  | done (r : Reply P)

/-- One running `AddItem` call. -/
structure Thread (P : Type) where
  customer : Name
  item : Item P
  newId : Nat
  phase : Phase P

/-- One step of a call (lines 69-82). -/
def threadStep (db : List (Doc F)) (t : Thread P) : List (Doc F) × Thread P :=
  match t.phase with
  | .start => match getCart db t.customer with
    | .error => (db, { t with phase := .done .error })
    | .panic => (db, { t with phase := .done .panic })
    | .ok c => (db, { t with phase := .read c })
  | .read c => let (db, r) := addWrite db t.customer t.item t.newId c
               (db, { t with phase := .done r })
  | .done _ => (db, t)

/-- The calls take steps in the order of a schedule. -/
def interleave (db : List (Doc F)) (ts : List (Thread P)) : List Nat → List (Doc F) × List (Thread P)
  | [] => (db, ts)
  | i :: sched => match ts[i]? with
    | none => interleave db ts sched
    | some t => let (db, t) := threadStep db t
                interleave db (ts.set i t) sched

end Verif.Cart
