import Verif.Hotel.Web
/-
What guests expect of recommendations, credentials, reviews and restarts.
-/
namespace Verif.Hotel

/-- Numbers that are all comparable (no NaN). -/
structure Ordered (F : Type) [Number F] : Prop where
  irrefl : ∀ a : F, Number.lt a a = false
  trans : ∀ a b c : F, Number.lt a b = true → Number.lt b c = true → Number.lt a c = true
  total : ∀ a b : F, Number.lt a b = true ∨ a = b ∨ Number.lt b a = true

/-- The latest document about a hotel. -/
def Current {F : Type} (docs : List (Offer F)) (o : Offer F) : Prop :=
  ∃ before after, docs = before ++ o :: after ∧ ∀ p ∈ after, p.id ≠ o.id

/-- Exactly the current hotels for which no current hotel is better, each once. -/
def AllBest {F : Type} (docs : List (Offer F)) (better : Offer F → Offer F → Prop) (ids : List Name) : Prop :=
  ids.Nodup ∧ ∀ id, id ∈ ids ↔ ∃ o, Current docs o ∧ o.id = id ∧ ∀ p, Current docs p → ¬ better p o

/-- The database after the service was started `n` times on it; `init` is what a start does to it. -/
def started {α : Type} (init : List α → List α) : Nat → List α
  | 0 => []
  | n + 1 => init (started init n)

/-- A date in the format YYYY-MM-DD. -/
def DateText (t : Name) : Prop :=
  ∃ y m d : List Char, t = y ++ '-' :: (m ++ '-' :: d) ∧ y.length = 4 ∧ m.length = 2 ∧ d.length = 2 ∧
    ∀ c ∈ y ++ m ++ d, c ∈ "0123456789".toList

end Verif.Hotel
