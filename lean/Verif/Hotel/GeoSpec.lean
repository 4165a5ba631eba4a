import Verif.Hotel.Geo
import Verif.Hotel.WebSpec
/-
What users expect of a search for nearby places.
-/
namespace Verif.Hotel.Geo

/-- The latest document with its identifier. -/
def Latest {P : Type} (pid : P → Name) (docs : List P) (p : P) : Prop :=
  ∃ before after, docs = before ++ p :: after ∧ ∀ q ∈ after, pid q ≠ pid p

/-- `out` are the at most `k` nearest of the places that are not too far away: each once, the nearest first, and a place that is missing,
though not too far away, is no nearer than any of them. -/
structure Nearest {P F : Type} [Number F] (pid : P → Name) (dist : P → F) (close : P → Prop) (k : Nat) (place : P → Prop) (out : List P) : Prop where
  few : out.length ≤ k
  once : (out.map pid).Nodup
  sound : ∀ p ∈ out, place p ∧ close p
  sorted : out.Pairwise fun p q => Number.lt (dist q) (dist p) = false
  complete : ∀ p, place p → close p → p ∈ out ∨ (out.length = k ∧ ∀ q ∈ out, Number.lt (dist p) (dist q) = false)

/-- What `KNearest` is for: of an index's points, the five nearest. -/
def FindsNearest {P F : Type} [Number F] (pid : P → Name) (dist : F → F → P → F) (close : F → F → P → Prop)
    (near : List P → F → F → List P) : Prop :=
  ∀ pts lat lon, (pts.map pid).Nodup → Nearest pid (dist lat lon) (close lat lon) 5 (· ∈ pts) (near pts lat lon)

end Verif.Hotel.Geo
