import Verif.Cache.Model
/-
What the cache properties C01 and C02 mean, in terms of the history of calls only.
-/
namespace Verif.Cache
open Verif.GoValue

/-- `Reads h k n`: after history `h`, a Get of `k` into an int64 variable that is 0 leaves `n` in it, without
error. -/
def Reads (h : List Op) (k : String) (n : Int) : Prop :=
  (get (after h) k (.ptr (.named "int64") (.scalar "int64" 0))).outcome = .ok ∧
  (get (after h) k (.ptr (.named "int64") (.scalar "int64" 0))).dst = .ptr (.named "int64") (.scalar "int64" n)

/-- `n` as an int64: the number from -2^63 to 2^63-1 that differs from it by a multiple of 2^64. -/
def IsInt64Of (n m : Int) : Prop := -2 ^ 63 ≤ m ∧ m < 2 ^ 63 ∧ ∃ q, n - m = q * 2 ^ 64

/-- `Writes h op k v`: the call `op`, made after history `h`, stores value `v` under key `k`.  For an Mset (with
as many keys as values) it is the value at the last position of `k`; for an Incr the number that a Get would
have delivered, plus one. -/
inductive Writes (h : List Op) : Op → String → GoVal → Prop where
  | put (k v) : Writes h (.put k v) k v
  | mset (ks : List String) (vs : List GoVal) (i : Nat) (k v) : ks.length = vs.length → ks[i]? = some k → vs[i]? = some v →
      (∀ j, i < j → ks[j]? ≠ some k) → Writes h (.mset ks vs) k v
  | incr (k n m) : Reads h k n → IsInt64Of (n + 1) m → Writes h (.incr k) k (.scalar "int64" m)

/-- `Touches h op k`: the call stores something under `k` or deletes it. -/
def Touches (h : List Op) (op : Op) (k : String) : Prop := op = .delete k ∨ ∃ v, Writes h op k v

/-- `LatestWrite h k v`: in history `h`, the latest call that stored or deleted `k` stored `v`. -/
def LatestWrite (h : List Op) (k : String) (v : GoVal) : Prop :=
  ∃ pre op post, h = pre ++ op :: post ∧ Writes pre op k v ∧
    ∀ a o b, post = a ++ o :: b → ¬ Touches (pre ++ op :: a) o k

/-- Numbers returned by the successful Incr calls on `k`, in order of completion. -/
def returns (log : List Event) (k : String) : List Int :=
  log.filterMap fun | .ret _ k' n => if k' = k then some n else none | _ => none

/-- Incr calls on `k` that have started, and that have ended (with or without error). -/
def started (log : List Event) (k : String) : Nat :=
  (log.filter fun | .start _ k' => k' = k | _ => false).length
def ended (log : List Event) (k : String) : Nat :=
  (log.filter fun | .ret _ k' _ => k' = k | .fail _ k' _ => k' = k | _ => false).length

/-- No two Incr calls on the same key overlap in time. -/
def NoOverlap (log : List Event) : Prop :=
  ∀ pre k, pre <+: log → started pre k ≤ ended pre k + 1

/-- The counter stored under a key: 0 if there is none, `none` if the key holds something else. -/
def counter (m : Values) (k : String) : Option Int :=
  match m k with
  | none => some 0
  | some (.scalar "int64" n) => some n
  | some _ => none

end Verif.Cache
