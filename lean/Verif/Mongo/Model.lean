import Verif.NoSQL.Model
/-
Model of runtime/plugins/mongodb/nosqldb.go: the client for a MongoDB server that implements the same interface
(runtime/core/backend/nosqldb.go) as the in-memory database of runtime/plugins/simplenosqldb, which is modelled in `NoSQL/Model.lean`.

The MongoDB server and the driver are not part of the code.  What they do to single documents are the parameters in `Server`; what the
commands do to a collection follows MongoDB's manual.
-/
namespace Verif.Mongo
open Verif.NoSQL
variable {F : Type} [Host F]

/-- What a MongoDB server does with single documents. -/
structure Server (F : Type) where
  /-- the filter is well formed -/
  accepts : Doc F → Bool
  /-- the filter matches the document -/
  hit : Doc F → Doc F → Bool
  /-- the document after an update; `none` if it is refused -/
  update : Doc F → Doc F → Option (Doc F)
  /-- the update has changed nothing -/
  unchanged : Doc F → Doc F → Bool
  /-- the document that is left by a projection -/
  project : Doc F → Doc F → Doc F
  /-- the document that an upsert starts from when nothing matches: the equalities in the filter -/
  seed : Doc F → Doc F
  /-- two values of `_id` are the same key -/
  sameId : Value F → Value F → Bool

/-- The collection has a document with the same `_id`. -/
def Server.taken (sv : Server F) (items : List (Doc F)) (d : Doc F) : Bool :=
  items.any fun e => match field kId e, field kId d with
    | some i, some j => sv.sameId i j
    | _, _ => false

/-- The driver (insert) and the server (upsert) add an identifier to documents that lack it. -/
def withId (d : Doc F) (newId : Nat) : Doc F := if d.any (fun e => e.1 == kId) then d else (kId, .oid newId) :: d

/-- A replacement keeps the `_id`; another one is refused.  Simplification: the `_id` stays where it is in the replacement, though the server
puts it first. -/
def Server.keepId (sv : Server F) (old d : Doc F) : Option (Doc F) :=
  match field kId d, field kId old with
  | some i, some j => if sv.sameId j i then some d else none
  | none, some j => some ((kId, j) :: d)
  | _, none => some d

/-- Calls of the interface (runtime/core/backend/nosqldb.go lines 36-119).  Documents are given as structs, already in BSON.  A find comes
with the call that reads its cursor. -/
inductive Call (F : Type) where
  | insertOne (d : Doc F)
  | insertMany (ds : List (Doc F))
  | deleteOne (q : Doc F)
  | deleteMany (q : Doc F)
  /-- FindMany if `many`, else FindOne; then All if `all`, else One -/
  | find (many : Bool) (q : Doc F) (projections : List (Doc F)) (all : Bool)
  | updateOne (q u : Doc F)
  | updateMany (q u : Doc F)
  | upsert (q d : Doc F)
  | upsertID (id : Nat) (d : Doc F)
  | replaceOne (q d : Doc F)
  | replaceMany (q : Doc F) (ds : List (Doc F))

/-- What the caller gets. -/
inductive Reply (F : Type) where
  | done
  | error
  | panic
  | one (d : Option (Doc F))
  | all (ds : List (Doc F))
  | count (n : Nat)
  | replaced (b : Bool)

/-! ### The in-memory database -/

/-- How updates end. -/
def outcome (r : Reply F) : Outcome → Reply F
  | .ok => r
  | .error => .error
  | .panic => .panic

/-- runtime/plugins/simplenosqldb/nosqldb.go lines 62-95: One and All read both kinds of cursor. -/
def readSimple (results : List (Doc F)) (all : Bool) : Reply F := if all then .all results else .one results.head?

/-- Calls of the in-memory database; `newId` is where fresh identifiers start. -/
def simple (items : List (Doc F)) (newId : Nat) : Call F → List (Doc F) × Reply F
  | .insertOne d => match insertOne items (.obj (some d)) newId with
    | (items, .ok ()) => (items, .done)
    | (items, .error) => (items, .error)
    | (items, .panic) => (items, .panic)
  | .insertMany ds => match insertMany items (ds.zipIdx.map fun d => (.obj (some d.1), newId + d.2)) with
    | (items, .ok ()) => (items, .done)
    | (items, .error) => (items, .error)
    | (items, .panic) => (items, .panic)
  | .deleteOne q => match deleteOne items q with
    | (items, .ok ()) => (items, .done)
    | (items, .error) => (items, .error)
    | (items, .panic) => (items, .panic)
  | .deleteMany q => match deleteMany items q with
    | (items, .ok ()) => (items, .done)
    | (items, .error) => (items, .error)
    | (items, .panic) => (items, .panic)
  | .find true q _ all => match findMany items q with
    | .ok r => (items, readSimple r all)
    | .error => (items, .error)
    | .panic => (items, .panic)
  | .find false q _ all => match findOne items q with
    | .ok r => (items, readSimple r.toList all)
    | .error => (items, .error)
    | .panic => (items, .panic)
  | .updateOne q u => match updateOne items q u with
    | (items, n, o) => (items, outcome (.count n) o)
  | .updateMany q u => match updateMany items q u with
    | (items, n, o) => (items, outcome (.count n) o)
  | .upsert q d => match upsert items q (.obj (some d)) newId with
    | (items, b, o) => (items, outcome (.replaced b) o)
  | .upsertID id d => match upsertID items id (.obj (some d)) newId with
    | (items, b, o) => (items, outcome (.replaced b) o)
  | .replaceOne q d => match replaceOne items q (.obj (some d)) with
    | (items, n, o) => (items, outcome (.count n) o)
  | .replaceMany q ds => match replaceMany items q (ds.map fun d => .obj (some d)) with
    | (items, n, o) => (items, outcome (.count n) o)

/-! ### MongoDB -/

/-- Insertion of a document that may lack an `_id`. -/
def Server.insert (sv : Server F) (items : List (Doc F)) (d : Doc F) (newId : Nat) : Option (List (Doc F)) :=
  if sv.taken items (withId d newId) then none else some (items ++ [withId d newId])

/-- An ordered insertMany stops at the first document that is refused. -/
def Server.insertAll (sv : Server F) (items : List (Doc F)) (newId : Nat) : List (Doc F) → List (Doc F) × Bool
  | [] => (items, true)
  | d :: ds => match sv.insert items d newId with
    | none => (items, false)
    | some items => sv.insertAll items (newId + 1) ds

/-- The update of the first match, with how many documents were matched and modified; `none` if it is refused. -/
def Server.updateFirst (sv : Server F) (change : Doc F → Option (Doc F)) (q : Doc F) : List (Doc F) → Option (List (Doc F) × Nat × Nat)
  | [] => some ([], 0, 0)
  | d :: ds =>
    if sv.hit q d then
      match change d with
      | some d' => some (d' :: ds, 1, if sv.unchanged d d' then 0 else 1)
      | none => none
    else match sv.updateFirst change q ds with
      | some (ds, n, m) => some (d :: ds, n, m)
      | none => none

/-- The update of all matches, one by one, until one is refused: the collection, how many were modified, and whether all went well. -/
def Server.updateAll (sv : Server F) (u q : Doc F) : List (Doc F) → List (Doc F) × Nat × Bool
  | [] => ([], 0, true)
  | d :: ds =>
    if sv.hit q d then
      match sv.update u d with
      | some d' => match sv.updateAll u q ds with
        | (ds, m, ok) => (d' :: ds, (if sv.unchanged d d' then 0 else 1) + m, ok)
      | none => (d :: ds, 0, false)
    else match sv.updateAll u q ds with
      | (ds, m, ok) => (d :: ds, m, ok)

/-- Upsert (lines 153-162): `$set` with the option to insert.  Returns whether a document was matched. -/
def Server.upsert (sv : Server F) (items : List (Doc F)) (q d : Doc F) (newId : Nat) : Option (List (Doc F) × Bool) :=
  let u : Doc F := [(kSet, .doc d)]
  match sv.updateFirst (sv.update u) q items with
  | none => none
  | some (items, 1, _) => some (items, true)
  | some (items, _, _) => match sv.update u (sv.seed q) with
    | none => none
    | some d => (sv.insert items d newId).map fun items => (items, false)

/-- FindOne and FindMany (lines 71-128), without the errors. -/
def Server.found (sv : Server F) (items : List (Doc F)) (many : Bool) (q : Doc F) (projections : List (Doc F)) : List (Doc F) :=
  let r := if many then items.filter (sv.hit q) else (items.find? (sv.hit q)).toList
  match projections with
  | p :: _ => r.map (sv.project p)
  | [] => r

/-- The calls of the MongoDB client: runtime/plugins/mongodb/nosqldb.go lines 49-218. -/
def mongo (sv : Server F) (items : List (Doc F)) (newId : Nat) : Call F → List (Doc F) × Reply F
  | .insertOne d => match sv.insert items d newId with
    | some items => (items, .done)
    | none => (items, .error)
  | .insertMany ds => match sv.insertAll items newId ds with
    | (items, true) => (items, .done)
    | (items, false) => (items, .error)
  | .deleteOne q => if sv.accepts q then (items.eraseP (sv.hit q), .done) else (items, .error)
  | .deleteMany q => if sv.accepts q then (items.filter fun d => !sv.hit q d, .done) else (items, .error)
  | .find many q projections all =>
    if projections.length > 1 then (items, .error)
    else if !sv.accepts q then (items, .error)
    else if many = all then (items, if all then .all (sv.found items many q projections) else .one (sv.found items many q projections).head?)
    else (items, .error)
  | .updateOne q u =>
    if !sv.accepts q then (items, .error)
    else match sv.updateFirst (sv.update u) q items with
      | some (items, _, modified) => (items, .count modified)
      | none => (items, .error)
  | .updateMany q u =>
    if !sv.accepts q then (items, .error)
    else match sv.updateAll u q items with
      | (items, modified, true) => (items, .count modified)
      | (items, _, false) => (items, .error)
  | .upsert q d =>
    if !sv.accepts q then (items, .error)
    else match sv.upsert items q d newId with
      | some (items, b) => (items, .replaced b)
      | none => (items, .error)
  | .upsertID id d =>
    let q : Doc F := [(kId, .oid id)]
    if !sv.accepts q then (items, .error)
    else match sv.upsert items q d newId with
      | some (items, b) => (items, .replaced b)
      | none => (items, .error)
  | .replaceOne q d =>
    if !sv.accepts q then (items, .error)
    else match sv.updateFirst (fun old => sv.keepId old d) q items with
      | some (items, matched, _) => (items, .count matched)
      | none => (items, .error)
  | .replaceMany _ _ => (items, .error)

/-- The calls of a program, each with the identifier it would be given first. -/
def run (call : List (Doc F) → Nat → Call F → List (Doc F) × Reply F) (items : List (Doc F)) :
    List (Nat × Call F) → List (Doc F) × List (Reply F)
  | [] => (items, [])
  | c :: cs =>
    let (items', r) := call items c.1 c.2
    let (items'', rs) := run call items' cs
    (items'', r :: rs)

end Verif.Mongo
