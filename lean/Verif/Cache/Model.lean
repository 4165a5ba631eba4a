import Verif.GoValue.Model
/-
Model of the in-memory cache /repo/runtime/plugins/simplecache/cache.go (lines 13-83).

The Go map is a partial function from keys to values.  `Cache.apply` is the sequential behaviour of each
call; the concurrent behaviour of `Incr` (which is a Get followed by a Put, not protected by one lock) is
`CState`/`cstep` at the end.
-/
namespace Verif.Cache
open Verif.GoValue

/-- `SimpleCache.values` (cache.go line 16). -/
abbrev Values := String → Option GoVal

/-- `NewSimpleCache` (cache.go lines 20-24). -/
def empty : Values := fun _ => none

/-- `Put` (cache.go lines 26-31). It never fails. -/
def put (m : Values) (k : String) (v : GoVal) : Values := fun k' => if k' = k then some v else m k'

/-- What `Get` returns: hit or miss, the destination afterwards, and how the call ended. -/
structure GetResult where
  hit : Bool
  dst : Dst
  outcome : Outcome
deriving Repr

/-- `Get` (cache.go lines 33-38). -/
def get (m : Values) (k : String) (d : Dst) : GetResult :=
  match m k with
  | some v => let r := copyResult v d; ⟨true, r.1, r.2⟩
  | none => ⟨false, d, .ok⟩

/-- `Delete` (cache.go lines 68-73). -/
def delete (m : Values) (k : String) : Values := fun k' => if k' = k then none else m k'

/-- The loop of `Mset` (cache.go lines 45-50). -/
def putAll (m : Values) : List String → List GoVal → Values
  | k :: ks, v :: vs => putAll (put m k v) ks vs
  | _, _ => m

/-- `Mset` (cache.go lines 40-53). -/
def mset (m : Values) (ks : List String) (vs : List GoVal) : Values × Outcome :=
  if ks.length ≠ vs.length then (m, .err) else (putAll m ks vs, .ok)

/-- The loop of `Mget` (cache.go lines 59-64): stops at the first failure, later destinations are left
alone. -/
def getAll (m : Values) : List String → List Dst → List Dst × Outcome
  | k :: ks, d :: ds =>
      let r := get m k d
      match r.outcome with
      | .ok => let rest := getAll m ks ds; (r.dst :: rest.1, rest.2)
      | o => (r.dst :: ds, o)
  | _, ds => (ds, .ok)

/-- `Mget` (cache.go lines 54-67). -/
def mget (m : Values) (ks : List String) (ds : List Dst) : List Dst × Outcome :=
  if ks.length ≠ ds.length then (ds, .err) else getAll m ks ds

/-- int64 wrap-around of Go arithmetic. -/
def wrap64 (n : Int) : Int := Int.bmod n (2 ^ 64)

/-- A Go `int64` in an `any`. -/
def int64 (n : Int) : GoVal := .scalar "int64" n

/-- The read half of `Incr` (cache.go lines 76-80): the current counter, or the failure.  The Get copies
into a local int64 variable initialised to 0. -/
def incrRead (m : Values) (k : String) : Except Outcome Int :=
  let r := get m k (.ptr (.named "int64") (int64 0))
  match r.outcome, r.dst with
  | .ok, .ptr _ (.scalar _ n) => .ok n
  | .ok, _ => .error .panic         -- unreachable: an int64 variable holds an int64
  | o, _ => .error o

/-- `Incr` (cache.go lines 75-83), uninterrupted: new state, returned number, outcome. -/
def incr (m : Values) (k : String) : Values × Int × Outcome :=
  match incrRead m k with
  | .error o => (m, 0, o)
  | .ok n => let n' := wrap64 (n + 1); (put m k (int64 n'), n', .ok)

/-- A call of the cache API. -/
inductive Op where
  | put (k : String) (v : GoVal)
  | get (k : String) (d : Dst)
  | mset (ks : List String) (vs : List GoVal)
  | mget (ks : List String) (ds : List Dst)
  | delete (k : String)
  | incr (k : String)

/-- The effect of one call on the cache. -/
def apply (m : Values) : Op → Values
  | .put k v => put m k v
  | .get _ _ => m
  | .mset ks vs => (mset m ks vs).1
  | .mget _ _ => m
  | .delete k => delete m k
  | .incr k => (incr m k).1

/-- The cache after a history of calls, on a new cache. -/
def after (h : List Op) : Values := h.foldl apply empty

/-! ### Concurrent `Incr` -/

/-- Observable events of concurrent Incr calls. -/
inductive Event where
  /-- call `c` of Incr on key `k` starts (it reads) -/
  | start (c : Nat) (k : String)
  /-- call `c` returns `(n, nil)` -/
  | ret (c : Nat) (k : String) (n : Int)
  /-- call `c` fails -/
  | fail (c : Nat) (k : String) (o : Outcome)
deriving Repr

/-- The cache, the calls that have read but not yet written (key and number read), the next call's
identifier, and the history. -/
structure CState where
  values : Values
  pending : Nat → Option (String × Int)
  next : Nat
  log : List Event

/-- Scheduler actions: a new Incr call does its (unlocked) Get; a call does its Put. -/
inductive CAct where
  | start (k : String)
  | finish (c : Nat)
deriving Repr

/-- A cache with initial content `m` and no Incr in progress. -/
def cinit (m : Values) : CState := ⟨m, fun _ => none, 0, []⟩

/-- One step of one of the concurrent Incr calls (cache.go lines 75-83): lines 76-80 are `start`,
lines 81-82 are `finish`. -/
def cstep (s : CState) : CAct → Option CState
  | .start k =>
    match incrRead s.values k with
    | .error o => some { s with next := s.next + 1,
                                log := s.log ++ [.start s.next k, .fail s.next k o] }
    | .ok n => some { s with pending := fun c => if c = s.next then some (k, n) else s.pending c,
                             next := s.next + 1, log := s.log ++ [.start s.next k] }
  | .finish c =>
    match s.pending c with
    | none => none
    | some (k, n) =>
      some { s with values := put s.values k (int64 (wrap64 (n + 1))),
                    pending := fun d => if d = c then none else s.pending d,
                    log := s.log ++ [.ret c k (wrap64 (n + 1))] }

/-- Run a schedule. -/
def cexec (s : CState) : List CAct → Option CState
  | [] => some s
  | a :: as => match cstep s a with
    | none => none
    | some s' => cexec s' as

end Verif.Cache
