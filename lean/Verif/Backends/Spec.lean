import Verif.Backends.Model
/-!
# What it means that cache back ends are interchangeable
-/

namespace Verif.Backends
open Verif.GoValue Verif.Cache

/-- JSON carries value `v` to a variable of type `t`: the value can be written, and reading it into a variable of type
`t` does what copying the value to that variable does. -/
def Carries (L : Lib) (v : GoVal) (t : GoType) : Prop :=
  ∃ s, L.marshal v = some s ∧ ∀ cur, L.unmarshal s (.ptr t cur) = copyResult v (.ptr t cur)

/-- The pairs of two lists, all of which satisfy `P`; the lists have the same length. -/
inductive Each {α β : Type} (P : α → β → Prop) : List α → List β → Prop where
  | nil : Each P [] []
  | cons (a b as bs) : P a b → Each P as bs → Each P (a :: as) (b :: bs)

/-- A program that gives every key a type, `kinds k`: it stores values that JSON carries to that type and reads them into
variables of that type; `Mset` and `Mget` have as many values as keys and at least one; counters are int64. `m` is the
content of the cache at the time. -/
def Typed (L : Lib) (kinds : String → GoType) (m : Values) : Op → Prop
  | .put k v => Carries L v (kinds k)
  | .get k d => ∃ cur, d = .ptr (kinds k) cur
  | .mset ks vs => ks ≠ [] ∧ Each (fun k v => Carries L v (kinds k)) ks vs
  | .mget ks ds => ks ≠ [] ∧ Each (fun k d => ∃ cur, d = .ptr (kinds k) cur) ks ds
  | .delete _ => True
  | .incr k => kinds k = .named "int64" ∧ ∀ v, m k = some v → ∃ n, v = .scalar "int64" n ∧ -2 ^ 63 ≤ n ∧ n < 2 ^ 63 - 1

/-- What Redis needs besides: `Mget` asks only for keys that are there. -/
def RedisOk (m : Values) : Op → Prop
  | .mget ks _ => ∀ k ∈ ks, m k ≠ none
  | _ => True

/-- 1 to 250 bytes, no spaces or control characters. -/
def LegalKey (k : String) : Prop := k ≠ "" ∧ k.utf8ByteSize ≤ 250 ∧ ∀ c ∈ k.toList, 32 < c.val ∧ c.val ≠ 127

/-- What memcached needs besides: legal keys; `Delete` and `Incr` only of keys that are there; no negative counters; no
key twice in an `Mset`. -/
def MemcachedOk (m : Values) : Op → Prop
  | .put k _ => LegalKey k
  | .get k _ => LegalKey k
  | .mset ks _ => (∀ k ∈ ks, LegalKey k) ∧ ks.Nodup
  | .mget ks _ => ∀ k ∈ ks, LegalKey k
  | .delete k => LegalKey k ∧ m k ≠ none
  | .incr k => LegalKey k ∧ ∃ n, m k = some (.scalar "int64" n) ∧ 0 ≤ n

/-- Every call of a sequence satisfies `P`, with the content that the cache has at that time. -/
def Along (P : Values → Op → Prop) (m : Values) : List Op → Prop
  | [] => True
  | op :: ops => P m op ∧ Along P (Cache.apply m op) ops

/-- The goroutines of an `Mset` run in some order. -/
def SomeOrder : Op × List (String × GoVal) → Prop
  | (.mset ks vs, order) => order.Perm (ks.zip vs)
  | _ => True

/-- Of the messages `i, i+1, …`, those whose number is `c` modulo `n`. -/
def share {α : Type} (n c i : Nat) : List α → List α
  | [] => []
  | t :: ts => (if i % n = c then [t] else []) ++ share n c (i + 1) ts

/-- JSON carries value `v` through an `any` to a destination: the value can be written, read back into an `any`, and
copying what was read to the destination does what copying the value itself does. -/
def CarriesAny (L : Lib) (v : GoVal) (d : Dst) : Prop :=
  ∃ s w, L.marshal v = some s ∧ L.unmarshal s (.ptr .any .nil) = (.ptr .any w, .ok) ∧ copyResult w d = copyResult v d

/-- A queue: what the calls of the queue API should do. Items leave in the order in which they were pushed, each is
delivered by copying it to the destination, and `Pop` waits only when the queue is empty. (The in-memory queue also
makes `Push` wait when it holds 10 items.) -/
def fifo (items : List GoVal) : List Rabbit.QOp → List Rabbit.QRes
  | [] => []
  | .push v :: ops => .pushed true .ok :: fifo (items ++ [v]) ops
  | .pop d :: ops =>
    match items with
    | [] => .waits :: fifo [] ops
    | v :: rest => .popped (copyResult v d).1 (copyResult v d).2 :: fifo rest ops

end Verif.Backends
