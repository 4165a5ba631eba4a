/-
The terms in which the properties of the catalogue are stated: what the calls show.
-/
import Verif.Catalogue.Model
namespace Verif.Catalogue
variable {P : Type}

/-- A catalogue that can be reached by any calls, whichever of their statements failed. -/
def Reached (db : DB P) : Prop := ∃ hist : List (Fails × Op P), calls DB.init hist = db

/-- A sock of the shop shows what was given when it was added: the same tags, each once and in any order. -/
def Shows (given shown : Sock P) (id : Str) : Prop :=
  shown.id = id ∧ shown.name = given.name ∧ shown.description = given.description ∧ shown.price = given.price ∧
  shown.quantity = given.quantity ∧ shown.url1 = given.url1 ∧ shown.url2 = given.url2 ∧
  shown.images = [given.url1, given.url2] ∧ shown.tags.Nodup ∧ ∀ t, t ∈ shown.tags ↔ t ∈ given.tags

/-- A sock that can be sold: it has a tag, and no tag has a comma. -/
def Tagged (s : Sock P) : Prop := s.tags ≠ [] ∧ ∀ t ∈ s.tags, ',' ∉ t

/-- All tags that are in the catalogue are without commas. -/
def PlainTags (db : DB P) : Prop := ∀ t ∈ tags db, ',' ∉ t

/-- "Match any of the tags specified"; without tags, everything matches. -/
def Matches (want : List Str) (s : Sock P) : Prop := want = [] ∨ ∃ t ∈ want, t ∈ s.tags

/-- Page `page` (from 1) of a list in pages of `size`. -/
def page {α : Type} (l : List α) (page size : Nat) : List α := (l.drop ((page - 1) * size)).take size

end Verif.Catalogue
