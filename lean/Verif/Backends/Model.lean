import Verif.Cache.Model
/-!
# Cache and queue back ends that live in a server of their own

The clients in `/repo/runtime/plugins/redis/cache.go`, `/repo/runtime/plugins/memcached/cache.go` and
`/repo/runtime/plugins/rabbitmq/queue.go`. The servers themselves (Redis, memcached, RabbitMQ) and the libraries that
talk to them are not in the repository: what they do is modelled after their documentation (`Redis.*`, `Memcached.*`,
`Rabbit.*` commands below) and is part of the trusted base. Network failures, expiry, eviction and size limits of values
are not modelled.
-/

namespace Verif.Backends
open Verif.GoValue Verif.Cache

/-- `encoding/json` on the values that a program stores, and the numbers as the servers read them. `Text` is the type
of JSON texts. The laws are those of the Go documentation for an int64 (which reads back as float64 into an `any`). -/
structure Lib where
  Text : Type
  /-- `json.Marshal`; `none` is an error. -/
  marshal : GoVal → Option Text
  /-- `json.Unmarshal(text, dst)`: the destination afterwards and how the call ended. -/
  unmarshal : Text → Dst → Dst × Outcome
  /-- A number in decimal. -/
  showInt : Int → Text
  /-- How Redis reads a number. -/
  readInt : Text → Option Int
  /-- How memcached reads a number: unsigned. -/
  readNat : Text → Option Nat
  marshal_int : ∀ n : Int, -2 ^ 63 ≤ n → n < 2 ^ 63 → marshal (.scalar "int64" n) = some (showInt n)
  readInt_show : ∀ n : Int, readInt (showInt n) = some n
  readNat_show : ∀ n : Nat, readNat (showInt n) = some n
  readNat_neg : ∀ n : Int, n < 0 → readNat (showInt n) = none
  unmarshal_int : ∀ (n : Int) (cur : GoVal), -2 ^ 63 ≤ n → n < 2 ^ 63 →
    unmarshal (showInt n) (.ptr (.named "int64") cur) = (.ptr (.named "int64") (.scalar "int64" n), .ok)
  unmarshal_any : ∀ (n : Int) (cur : GoVal), -2 ^ 53 ≤ n → n ≤ 2 ^ 53 →
    unmarshal (showInt n) (.ptr .any cur) = (.ptr .any (.scalar "float64" n), .ok)

/-- The key-value pairs that a server holds. -/
abbrev Store (L : Lib) := String → Option L.Text

def Store.empty (L : Lib) : Store L := fun _ => none

def Store.set {L : Lib} (s : Store L) (k : String) (t : L.Text) : Store L := fun k' => if k' = k then some t else s k'

def Store.del {L : Lib} (s : Store L) (k : String) : Store L := fun k' => if k' = k then none else s k'

/-- What a call of the cache API returns. -/
inductive Res where
  | done (o : Outcome)
  | got (r : GetResult)
  | many (ds : List Dst) (o : Outcome)
  | num (n : Int) (o : Outcome)

/-! ### The in-memory cache, for comparison -/

/-- What each call returns on the in-memory cache (`Verif.Cache`, `/repo/runtime/plugins/simplecache/cache.go`). -/
def simpleRes (m : Values) : Op → Res
  | .put _ _ => .done .ok
  | .get k d => .got (Cache.get m k d)
  | .mset ks vs => .done (mset m ks vs).2
  | .mget ks ds => .many (mget m ks ds).1 (mget m ks ds).2
  | .delete _ => .done .ok
  | .incr k => .num (incr m k).2.1 (incr m k).2.2

/-- The results of a sequence of calls. -/
def simpleRun (m : Values) : List Op → List Res
  | [] => []
  | op :: ops => simpleRes m op :: simpleRun (Cache.apply m op) ops

/-! ### Redis -/

namespace Redis
variable {L : Lib}

/-- `Put` (redis/cache.go 28-35): `SET key json`. -/
def put (s : Store L) (k : String) (v : GoVal) : Store L × Outcome :=
  match L.marshal v with
  | none => (s, .err)
  | some t => (s.set k t, .ok)

/-- `Get` (38-48): `GET key`; a missing key is not an error. -/
def get (s : Store L) (k : String) (d : Dst) : GetResult :=
  match s k with
  | none => ⟨false, d, .ok⟩
  | some t => let r := L.unmarshal t d; ⟨true, r.1, r.2⟩

/-- `Incr` (51-53): `INCR key`. Redis reads a missing key as 0, refuses what is not a number, and refuses to overflow. -/
def incr (s : Store L) (k : String) : Store L × Int × Outcome :=
  match s k with
  | none => (s.set k (L.showInt 1), 1, .ok)
  | some t =>
    match L.readInt t with
    | none => (s, 0, .err)
    | some n => if n + 1 < 2 ^ 63 then (s.set k (L.showInt (n + 1)), n + 1, .ok) else (s, 0, .err)

/-- `Delete` (56-58): `DEL key`, which does not mind a missing key. -/
def delete (s : Store L) (k : String) : Store L := s.del k

/-- The loop of `Mget` (66-71). `res.(string)` panics for a missing key, `values[idx]` for a missing destination. -/
def mgetLoop (s : Store L) : List String → List Dst → List Dst × Outcome
  | [], ds => (ds, .ok)
  | _ :: _, [] => ([], .panic)
  | k :: ks, d :: ds =>
    match s k with
    | none => (d :: ds, .panic)
    | some t =>
      match L.unmarshal t d with
      | (d', .ok) => let rest := mgetLoop s ks ds; (d' :: rest.1, rest.2)
      | (d', o) => (d' :: ds, o)

/-- `Mget` (61-73). `MGET` without keys is an error. -/
def mget (s : Store L) (ks : List String) (ds : List Dst) : List Dst × Outcome :=
  if ks = [] then (ds, .err) else mgetLoop s ks ds

/-- The loop of `Mset` (78-84): builds the map of texts; `values[idx]` panics for a missing value. -/
def msetLoop (s : Store L) : List String → List GoVal → Except Outcome (Store L)
  | [], _ => .ok s
  | _ :: _, [] => .error .panic
  | k :: ks, v :: vs =>
    match L.marshal v with
    | none => .error .err
    | some t => msetLoop (s.set k t) ks vs

/-- `Mset` (76-86): one `MSET` of all pairs, an error without pairs. Setting the pairs one by one gives the same
store as setting the map, in which the last value of a key wins. -/
def mset (s : Store L) (ks : List String) (vs : List GoVal) : Store L × Outcome :=
  if ks = [] then (s, .err)
  else match msetLoop s ks vs with
    | .ok s' => (s', .ok)
    | .error o => (s, o)

/-- One call: the store afterwards and what the call returns. -/
def step (s : Store L) : Op → Store L × Res
  | .put k v => let r := put s k v; (r.1, .done r.2)
  | .get k d => (s, .got (get s k d))
  | .mset ks vs => let r := mset s ks vs; (r.1, .done r.2)
  | .mget ks ds => let r := mget s ks ds; (s, .many r.1 r.2)
  | .delete k => (delete s k, .done .ok)
  | .incr k => let r := incr s k; (r.1, .num r.2.1 r.2.2)

/-- The results of a sequence of calls. -/
def run (s : Store L) : List Op → List Res
  | [] => []
  | op :: ops => let r := step s op; r.2 :: run r.1 ops

end Redis

/-! ### memcached -/

namespace Memcached
variable {L : Lib}

/-- The keys that the client library and the server accept: 1 to 250 bytes, no spaces or control characters. -/
def legalKey (k : String) : Bool :=
  k ≠ "" && k.utf8ByteSize ≤ 250 && k.toList.all fun c => 32 < c.val && c.val ≠ 127

/-- `Put` (memcached/cache.go 29-35). -/
def put (s : Store L) (k : String) (v : GoVal) : Store L × Outcome :=
  match L.marshal v with
  | none => (s, .err)
  | some t => if legalKey k then (s.set k t, .ok) else (s, .err)

/-- `Get` (38-47). -/
def get (s : Store L) (k : String) (d : Dst) : GetResult :=
  if legalKey k then
    match s k with
    | none => ⟨false, d, .ok⟩
    | some t => let r := L.unmarshal t d; ⟨true, r.1, r.2⟩
  else ⟨false, d, .err⟩

/-- An unsigned 64 bit number read as an int64 (`int64(val)`, 52). -/
def toInt64 (n : Nat) : Int := Int.bmod n (2 ^ 64)

/-- `Incr` (50-53): `incr key 1`. memcached refuses missing keys and what is not an unsigned number, and wraps around. -/
def incr (s : Store L) (k : String) : Store L × Int × Outcome :=
  if legalKey k then
    match s k with
    | none => (s, 0, .err)
    | some t =>
      match L.readNat t with
      | none => (s, 0, .err)
      | some n => let n' : Nat := (n + 1) % 2 ^ 64; (s.set k (L.showInt n'), toInt64 n', .ok)
  else (s, 0, .err)

/-- `Delete` (56-58): `delete key`, an error if the key is missing. -/
def delete (s : Store L) (k : String) : Store L × Outcome :=
  if legalKey k then
    match s k with
    | none => (s, .err)
    | some _ => (s.del k, .ok)
  else (s, .err)

/-- The loop of `Mget` (66-73): missing keys are skipped; `values[idx]` is only looked at for keys that were found. -/
def mgetLoop (s : Store L) : List String → List Dst → List Dst × Outcome
  | [], ds => (ds, .ok)
  | k :: ks, [] => match s k with
    | none => mgetLoop s ks []
    | some _ => ([], .panic)
  | k :: ks, d :: ds =>
    match s k with
    | none => let rest := mgetLoop s ks ds; (d :: rest.1, rest.2)
    | some t =>
      match L.unmarshal t d with
      | (d', .ok) => let rest := mgetLoop s ks ds; (d' :: rest.1, rest.2)
      | (d', o) => (d' :: ds, o)

/-- `Mget` (61-75). -/
def mget (s : Store L) (ks : List String) (ds : List Dst) : List Dst × Outcome :=
  if ks.all legalKey then mgetLoop s ks ds else (ds, .err)

/-- The `Put` calls of `Mset`, in the order in which they happen. -/
def putAll (s : Store L) : List (String × GoVal) → Store L × Outcome
  | [] => (s, .ok)
  | (k, v) :: ps =>
    let r := put s k v
    let rest := putAll r.1 ps
    (rest.1, if r.2 = .ok then rest.2 else r.2)

/-- `Mset` (78-96): one goroutine per key, all of which run to the end; `order` lists the pairs in the order in which
the goroutines' `Put` calls happen. `values[idx]` panics for a missing value. -/
def mset (s : Store L) (order : List (String × GoVal)) (ks : List String) (vs : List GoVal) : Store L × Outcome :=
  if vs.length < ks.length then (s, .panic) else putAll s order

/-- One call; `order` is only used by `Mset`. -/
def step (s : Store L) (order : List (String × GoVal)) : Op → Store L × Res
  | .put k v => let r := put s k v; (r.1, .done r.2)
  | .get k d => (s, .got (get s k d))
  | .mset ks vs => let r := mset s order ks vs; (r.1, .done r.2)
  | .mget ks ds => let r := mget s ks ds; (s, .many r.1 r.2)
  | .delete k => let r := delete s k; (r.1, .done r.2)
  | .incr k => let r := incr s k; (r.1, .num r.2.1 r.2.2)

/-- The results of a sequence of calls, each with the order of its goroutines. -/
def run (s : Store L) : List (Op × List (String × GoVal)) → List Res
  | [] => []
  | (op, order) :: ops => let r := step s order op; r.2 :: run r.1 ops

end Memcached

/-! ### RabbitMQ -/

namespace Rabbit

/-- The broker's queue and its clients. Every client is a consumer, with automatic acknowledgement (`NewRabbitMQ`,
rabbitmq/queue.go 22-40): the broker hands each message to one of the consumers, in turn, where it waits in the channel
`msgs`. Messages that arrive while there is no client wait in the broker. `buf c` are the messages that wait at client
`c`, oldest first; `next` is the consumer whose turn it is. -/
structure State (L : Lib) where
  clients : Nat
  waiting : List L.Text
  buf : Nat → List L.Text
  next : Nat

def init (L : Lib) : State L := ⟨0, [], fun _ => [], 0⟩

/-- The broker hands out one message. -/
def deliver {L : Lib} (s : State L) (t : L.Text) : State L :=
  if s.clients = 0 then { s with waiting := s.waiting ++ [t] }
  else
    let c := s.next % s.clients
    { s with buf := fun d => if d = c then s.buf d ++ [t] else s.buf d, next := s.next + 1 }

/-- `NewRabbitMQ` (22-40): a new client, numbered `s.clients`; messages that were waiting go to it. -/
def connect {L : Lib} (s : State L) : State L :=
  { s with clients := s.clients + 1, waiting := [],
           buf := fun d => if d = s.clients then s.buf d ++ s.waiting else s.buf d }

/-- `Push` (53-60): never blocks. -/
def push {L : Lib} (s : State L) (v : GoVal) : State L × Bool × Outcome :=
  match L.marshal v with
  | none => (s, false, .err)
  | some t => (deliver s t, true, .ok)

/-- The result of a `Pop` that got a message (65-70): the message is decoded into an `any`, from which it is copied to
the destination. -/
def decode {L : Lib} (t : L.Text) (d : Dst) : Dst × Outcome :=
  match L.unmarshal t (.ptr .any .nil) with
  | (.ptr _ v, .ok) => copyResult v d
  | (_, o) => (d, o)

/-- `Pop` (63-84) at client `c`: `none` while there is no message at this client, in which case the call waits until its
context is cancelled. -/
def pop {L : Lib} (s : State L) (c : Nat) (d : Dst) : Option (State L × Dst × Outcome) :=
  match s.buf c with
  | [] => none
  | t :: ts => let r := decode t d; some ({ s with buf := fun e => if e = c then ts else s.buf e }, r.1, r.2)

/-- A call of the queue API. -/
inductive QOp where
  | push (v : GoVal)
  | pop (d : Dst)

/-- What a call of the queue API does: `Push` returned, `Pop` returned an item, or `Pop` found nothing and waits. -/
inductive QRes where
  | pushed (ok : Bool) (o : Outcome)
  | popped (d : Dst) (o : Outcome)
  | waits

/-- A call by client `c`. A `Pop` that waits is given up. -/
def step {L : Lib} (c : Nat) (s : State L) : QOp → State L × QRes
  | .push v => let r := push s v; (r.1, .pushed r.2.1 r.2.2)
  | .pop d => match pop s c d with
    | none => (s, .waits)
    | some r => (r.1, .popped r.2.1 r.2.2)

/-- Calls of several clients, one after the other: the state and the results. -/
def run {L : Lib} (s : State L) : List (Nat × QOp) → State L × List QRes
  | [] => (s, [])
  | (c, op) :: ops => let r := step c s op; let rest := run r.1 ops; (rest.1, r.2 :: rest.2)

/-- `n` clients have connected. -/
def start (L : Lib) : Nat → State L
  | 0 => init L
  | n + 1 => connect (start L n)

end Rabbit

end Verif.Backends
