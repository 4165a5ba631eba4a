/-
Model of the SockShop catalogue service, /repo/examples/sockshop/workflow/catalogue/catalogueservice.go, with the
relational database it talks to (/repo/runtime/plugins/sqlitereldb/reldb.go, which passes the statements on to SQLite).

Simplifications:
* The three tables are lists of typed rows, oldest first.  Of SQL only the statements in this service are modelled:
  `JOIN … ON`, `WHERE … OR …`, `GROUP BY`, `GROUP_CONCAT(DISTINCT …)`, `COUNT(DISTINCT …)`, `INSERT`, `DELETE`, primary
  keys and `AUTOINCREMENT`.  Strings are compared exactly, as SQLite does (MySQL ignores case by default), and no
  column has a length limit (MySQL has).
* The order in which a query without an effective `ORDER BY` gives its rows, and `GROUP_CONCAT` its names, is left to the
  database (`Sql`).
* Every statement of the calls that write may fail (`Fails`); a statement that fails has no effect.
* The price is a value that is stored and read back unchanged (`float32` widens to SQLite's REAL without loss; NaN is left out).
* `uuid.NewString()` is an argument.
-/
namespace Verif.Catalogue

abbrev Str := List Char

/-- A row of the table `sock` (lines 319-328). -/
structure Row (P : Type) where
  id : Str
  name : Str
  description : Str
  price : P
  quantity : Int
  url1 : Str
  url2 : Str
deriving DecidableEq, Repr

/-- `Sock` (lines 44-55). -/
structure Sock (P : Type) where
  id : Str
  name : Str
  description : Str
  images : List Str
  url1 : Str
  url2 : Str
  price : P
  quantity : Int
  tags : List Str
  tagString : Str
deriving DecidableEq, Repr

/-- The tables `sock`, `tag` (lines 336-339) and `sock_tag` (lines 341-348), and the next number that `AUTOINCREMENT` gives. -/
structure DB (P : Type) where
  socks : List (Row P)
  tags : List (Nat × Str)
  links : List (Str × Nat)
  nextTag : Nat
deriving DecidableEq, Repr

/-- The tables as `createTables` (lines 304-317) makes them. -/
def DB.init {P : Type} : DB P := ⟨[], [], [], 1⟩

/-- What SQL leaves open: the order of the rows of a grouped query, and of the names in a `GROUP_CONCAT`. -/
class Sql (P : Type) where
  arrange : List (Row P × List Str) → List (Row P × List Str)
  arrange_perm : ∀ l, (arrange l).Perm l
  concat : List Str → List Str
  concat_perm : ∀ l, (concat l).Perm l

variable {P : Type}

/-- `sock_tag JOIN tag ON tag.tag_id=sock_tag.tag_id`, for the sock with an identifier: the names of the tags. -/
def tagsOf (db : DB P) (id : Str) : List Str :=
  (db.links.filter fun l => l.1 = id).flatMap fun l => (db.tags.filter fun t => t.1 = l.2).map (·.2)

/-- The conditions ` WHERE tag.name=?`, ` OR tag.name=?` (lines 102-110 and 141-149). -/
def anyOf (tags : List Str) (name : Str) : Bool :=
  match tags with
  | [] => true
  | _ => tags.any fun t => t = name

/-- The joins of `baseQuery` (lines 69-81) with a condition on `sock` and one on `tag.name`: the sock and the name in
`alltags` of every joined row. -/
def joined (db : DB P) (sock : Row P → Bool) (keep : Str → Bool) : List (Row P × Str) :=
  (db.socks.filter sock).flatMap fun r => (tagsOf db r.id).flatMap fun a => ((tagsOf db r.id).filter keep).map fun _ => (r, a)

/-- `GROUP BY sock.sock_id` with `GROUP_CONCAT(DISTINCT alltags.name)`: one more row. -/
def group (groups : List (Row P × List Str)) (x : Row P × Str) : List (Row P × List Str) :=
  match groups with
  | [] => [(x.1, [x.2])]
  | g :: gs =>
    if g.1.id = x.1.id then (g.1, if g.2.contains x.2 then g.2 else g.2 ++ [x.2]) :: gs
    else g :: group gs x

/-- The groups of the joined rows. -/
def grouped (rows : List (Row P × Str)) : List (Row P × List Str) := rows.foldl group []

/-- `strings.Split(s, ",")`. -/
def splitLoop (cur : Str) : Str → List Str
  | [] => [cur]
  | c :: cs => if c = ',' then cur :: splitLoop [] cs else splitLoop (cur ++ [c]) cs

def split (s : Str) : List Str := splitLoop [] s

/-- The text that `GROUP_CONCAT` makes. -/
def commas : List Str → Str
  | [] => []
  | [s] => s
  | s :: ss => s ++ ',' :: commas ss

variable [Sql P]

/-- A row of the result as a `Sock`: `sqlx` fills the fields with a `db` tag, lines 125-128 and 180-181 the others. -/
def toSock (g : Row P × List Str) : Sock P :=
  let tagString := commas (Sql.concat (P := P) g.2)
  ⟨g.1.id, g.1.name, g.1.description, [g.1.url1, g.1.url2], g.1.url1, g.1.url2, g.1.price, g.1.quantity,
    split tagString, tagString⟩

/-- How a call ends. -/
inductive Ret (α : Type) where
  | ok (a : α)
  | error
  | panic
deriving DecidableEq, Repr

/-- 64-bit `int` arithmetic. -/
def wrap (n : Int) : Int := Int.bmod n (2 ^ 64)

/-- The slice expression `s[start:end]`, which panics unless `0 <= start <= end` (`end` is at most the length). -/
def slice {α : Type} (s : List α) (start stop : Int) : Ret (List α) :=
  if 0 ≤ start ∧ start ≤ stop then .ok ((s.take stop.toNat).drop start.toNat) else .panic

/-- `cut` (lines 255-268). -/
def cut {α : Type} (socks : List α) (pageNum pageSize : Int) : Ret (List α) :=
  if pageNum = 0 ∨ pageSize = 0 then .ok []
  else
    let start := wrap (wrap (pageNum * pageSize) - pageSize)
    if start > socks.length then .ok []
    else
      let stop := wrap (pageNum * pageSize)
      let stop := if stop > socks.length then (socks.length : Int) else stop
      slice socks start stop

/-- The rows that the query of `List` gives (lines 98-128).  `ORDER BY ?` (lines 114-117) is bound to the text in `order`:
all rows compare equal to each other under a constant, so the database arranges them as without it. -/
def listAll (db : DB P) (tags : List Str) (_order : Str) : List (Sock P) :=
  (Sql.arrange (grouped (joined db (fun _ => true) (anyOf tags)))).map toSock

/-- `List` (lines 96-133). -/
def list (db : DB P) (tags : List Str) (order : Str) (pageNum pageSize : Int) : Ret (List (Sock P)) :=
  cut (listAll db tags order) pageNum pageSize

omit [Sql P] in
/-- The different values of a column. -/
def distinct : List Str → List Str
  | [] => []
  | s :: ss => if ss.contains s then distinct ss else s :: distinct ss

omit [Sql P] in
/-- `Count` (lines 136-168). -/
def count (db : DB P) (tags : List Str) : Nat :=
  (distinct (db.socks.flatMap fun r => ((tagsOf db r.id).filter (anyOf tags)).map fun _ => r.id)).length

/-- `Get` (lines 171-184): without a row, `sqlx` reports an error. -/
def get (db : DB P) (id : Str) : Ret (Sock P) :=
  match Sql.arrange (grouped (joined db (fun r => r.id = id) (fun _ => true))) with
  | [] => .error
  | g :: _ => .ok (toSock g)

omit [Sql P]

/-- `Tags` (lines 187-191). -/
def tags (db : DB P) : List Str := db.tags.map (·.2)

/-- Which of the statements that a call executes fail, counted from 0. -/
abbrev Fails := Nat → Bool

/-- No failures. -/
def noFails : Fails := fun _ => false

/-- The map `tagLookup` (lines 277-280): of several tags with one name the last one stays. -/
def tagLookup (tags : List (Nat × Str)) (name : Str) : Option Nat :=
  (tags.reverse.find? fun t => t.2 = name).map (·.1)

/-- The loop of `addTags` (lines 282-300).  `known` is `tagLookup`, `n` the number of the next statement. -/
def addTagsLoop (fails : Fails) : DB P → (known : List (Nat × Str)) → (n : Nat) → List Str → DB P × Nat × Option (List Nat)
  | db, _, n, [] => (db, n, some [])
  | db, known, n, name :: names =>
    match tagLookup known name with
    | some i => match addTagsLoop fails db known n names with
      | (db, n, ids) => (db, n, ids.map (i :: ·))
    | none =>
      if fails n then (db, n + 1, none)
      else
        let i := db.nextTag
        match addTagsLoop fails { db with tags := db.tags ++ [(i, name)], nextTag := i + 1 } (known ++ [(i, name)]) (n + 1)
            names with
        | (db, n, ids) => (db, n, ids.map (i :: ·))

/-- `addTags` (lines 271-301): the database, the number of the next statement and the identifiers. -/
def addTagsFrom (fails : Fails) (db : DB P) (n : Nat) (names : List Str) : DB P × Nat × Option (List Nat) :=
  if fails n then (db, n + 1, none) else addTagsLoop fails db db.tags (n + 1) names

/-- `AddTags` (lines 194-197). -/
def addTags (fails : Fails) (db : DB P) (names : List Str) : DB P × Ret Unit :=
  match addTagsFrom fails db 0 names with
  | (db, _, some _) => (db, .ok ())
  | (db, _, none) => (db, .error)

/-- `DeleteSock` (lines 235-253): the database, the number of the next statement and whether it succeeded. -/
def deleteFrom (fails : Fails) (db : DB P) (n : Nat) (id : Str) : DB P × Nat × Bool :=
  if id = [] then (db, n, true)
  else if fails n then (db, n + 1, false)
  else
    let db := { db with links := db.links.filter fun l => l.1 ≠ id }
    if fails (n + 1) then (db, n + 2, false)
    else ({ db with socks := db.socks.filter fun r => r.id ≠ id }, n + 2, true)

def deleteSock (fails : Fails) (db : DB P) (id : Str) : DB P × Ret Unit :=
  match deleteFrom fails db 0 id with
  | (db, _, true) => (db, .ok ())
  | (db, _, false) => (db, .error)

/-- The last loop of `AddSock` (lines 224-229). -/
def linkLoop (fails : Fails) (id : Str) : DB P → Nat → List Nat → DB P × Bool
  | db, _, [] => (db, true)
  | db, n, t :: ts =>
    if fails n then (db, false)
    else linkLoop fails id { db with links := db.links ++ [(id, t)] } (n + 1) ts

/-- `AddSock` from the insertion on (lines 210-231); the primary key refuses a second row with the same `sock_id`. -/
def insertFrom (fails : Fails) (db : DB P) (n : Nat) (s : Sock P) : DB P × Ret Str :=
  if fails n || db.socks.any (fun r => r.id = s.id) then (db, .error)
  else
    let db := { db with socks := db.socks ++ [⟨s.id, s.name, s.description, s.price, s.quantity, s.url1, s.url2⟩] }
    match addTagsFrom fails db (n + 1) s.tags with
    | (db, _, none) => (db, .error)
    | (db, n, some ids) => match linkLoop fails s.id db n ids with
      | (db, true) => (db, .ok s.id)
      | (db, false) => (db, .error)

/-- `AddSock` (lines 200-232). -/
def addSock (fails : Fails) (db : DB P) (s : Sock P) (uuid : Str) : DB P × Ret Str :=
  if s.id ≠ [] then
    match deleteFrom fails db 0 s.id with
    | (db, _, false) => (db, .error)
    | (db, n, true) => insertFrom fails db n s
  else insertFrom fails db 0 { s with id := uuid }

/-- The calls that change the catalogue. -/
inductive Op (P : Type) where
  | addTags (names : List Str)
  | addSock (s : Sock P) (uuid : Str)
  | deleteSock (id : Str)

/-- One call, some of whose statements may fail. -/
def call (db : DB P) (fails : Fails) : Op P → DB P
  | .addTags names => (addTags fails db names).1
  | .addSock s uuid => (addSock fails db s uuid).1
  | .deleteSock id => (deleteSock fails db id).1

/-- Calls one after the other. -/
def calls (db : DB P) (hist : List (Fails × Op P)) : DB P := hist.foldl (fun db e => call db e.1 e.2) db

/-! ### Two concurrent calls of `AddTags`

The `SELECT` is one step, the loop another (its `INSERT`s are not interleaved with the other call's; the witnesses need no
more). -/

/-- How far a call of `AddTags` is: the tags it has read. -/
structure Adding where
  names : List Str
  known : Option (List (Nat × Str))
  done : Bool

/-- One step of a call of `AddTags` (lines 271-300). -/
def addingStep (db : DB P) (a : Adding) : DB P × Adding :=
  if a.done then (db, a)
  else match a.known with
    | none => (db, { a with known := some db.tags })
    | some known => ((addTagsLoop noFails db known 1 a.names).1, { a with done := true })

/-- The calls take steps in the order of a schedule. -/
def interleave (db : DB P) (ts : List Adding) : List Nat → DB P × List Adding
  | [] => (db, ts)
  | i :: sched => match ts[i]? with
    | none => interleave db ts sched
    | some t => let (db, t) := addingStep db t
                interleave db (ts.set i t) sched

end Verif.Catalogue
