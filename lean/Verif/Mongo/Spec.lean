import Verif.Mongo.Model
import Verif.NoSQL.Spec
/-
Which calls should do the same on the in-memory database and on MongoDB.
-/
namespace Verif.Mongo
open Verif.NoSQL
variable {F : Type} [Host F]

/-- A key is the same as itself, and an update counts if the document has changed. -/
structure Server.Lawful (sv : Server F) : Prop where
  same : ∀ v, sv.sameId v v = true
  modified : ∀ d d', sv.unchanged d d' = true ↔ d' = d

/-- Both databases accept the filter and agree on which documents it matches. -/
structure Agreed (sv : Server F) (items : List (Doc F)) (q : Doc F) : Prop where
  defined : Defined q items
  accepted : sv.accepts q = true
  same : ∀ d ∈ items, sv.hit q d = hit q d

/-- Both databases accept the update. -/
def UpdateAccepted (u : Doc F) : Prop := updateOne ([] : List (Doc F)) [] u = ([], 0, .ok)

/-- Both databases agree on what the update makes of the document, and it changes the document. -/
structure Changes (sv : Server F) (u d : Doc F) : Prop where
  ok : (updateDoc u d).2 = .ok
  same : sv.update u d = some (updateDoc u d).1
  other : (updateDoc u d).1 ≠ d

/-- The documents have no `_id` that is taken. -/
def FreshAll (sv : Server F) (items : List (Doc F)) (newId : Nat) : List (Doc F) → Prop
  | [] => True
  | d :: ds => sv.taken items (withId d newId) = false ∧ FreshAll sv (items ++ [withId d newId]) (newId + 1) ds

/-- An upsert for which setting the fields of the document is the same as putting the document in place. -/
def SetsAll (sv : Server F) (items : List (Doc F)) (newId : Nat) (q d : Doc F) : Prop :=
  (∀ old, items.find? (hit q) = some old → sv.update [(kSet, .doc d)] old = some d) ∧
  (items.find? (hit q) = none → sv.update [(kSet, .doc d)] (sv.seed q) = some d ∧ sv.taken items (withId d newId) = false)

/-- The calls that should do the same on both databases. -/
def Portable (sv : Server F) (items : List (Doc F)) (newId : Nat) : Call F → Prop
  | .insertOne d => sv.taken items (withId d newId) = false
  | .insertMany ds => FreshAll sv items newId ds
  | .deleteOne q => Agreed sv items q
  | .deleteMany q => Agreed sv items q
  | .find many q projections all => Agreed sv items q ∧ many = all ∧ projections = []
  | .updateOne q u => Agreed sv items q ∧ UpdateAccepted u ∧ ∀ d, items.find? (hit q) = some d → Changes sv u d
  | .updateMany q u => Agreed sv items q ∧ UpdateAccepted u ∧ ∀ d ∈ items, hit q d = true → Changes sv u d
  | .upsert q d => Agreed sv items q ∧ SetsAll sv items newId q d
  | .upsertID id d => Agreed sv items [(kId, .oid id)] ∧ SetsAll sv items newId [(kId, .oid id)] d
  | .replaceOne q d => Agreed sv items q ∧ ∀ old, items.find? (hit q) = some old → field kId d = field kId old
  | .replaceMany _ _ => False

/-- Every call of the program is portable when it is made. -/
def AllPortable (sv : Server F) (items : List (Doc F)) : List (Nat × Call F) → Prop
  | [] => True
  | c :: cs => Portable sv items c.1 c.2 ∧ AllPortable sv (simple items c.1 c.2).1 cs

end Verif.Mongo
