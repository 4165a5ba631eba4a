/-
Concurrent calls of the in-memory backends: runtime/plugins/simplecache/cache.go and runtime/plugins/simplenosqldb/nosqldb.go.

Goroutines take steps in an arbitrary order (the schedule); a step is one access to a shared variable, or taking or releasing a lock.  A Go map
may not be accessed while it is written to: the program is then wrong, and normally stopped by the runtime ("concurrent map read and map
write").
-/
namespace Verif.Races

/-! ### The cache -/

section
variable {K V : Type} [DecidableEq K]

/-- Calls of the cache.  Mset, Mget and Incr are made from these (cache.go lines 41-86). -/
inductive Op (K V : Type) where
  | put (k : K) (v : V)
  | delete (k : K)
  | get (k : K)

/-- Where a goroutine is in its call. -/
inductive Phase (V : Type) where
  | start
  /-- has the lock -/
  | locked
  /-- is in the assignment to the map, or in `delete` -/
  | writing
  | written
  /-- is in the access to the map -/
  | reading
  | done (r : Option V)

structure Thread (K V : Type) where
  op : Op K V
  phase : Phase V

/-- The cache with its callers.  `raced` is set when the map is accessed while it is written to.  `log` has the calls in the order of their
accesses to the map, with what they returned. -/
structure Sys (K V : Type) where
  values : K → Option V
  lock : Option Nat
  threads : List (Thread K V)
  raced : Bool
  log : List (Nat × Option V)

def Phase.isWriting : Phase V → Bool
  | .writing => true
  | _ => false

def Phase.isReading : Phase V → Bool
  | .reading => true
  | _ => false

def Sys.goto (s : Sys K V) (i : Nat) (t : Thread K V) (p : Phase V) : Sys K V :=
  { s with threads := s.threads.set i { t with phase := p } }

/-- The effect of a call on the map, and what it returns. -/
def Op.effect (values : K → Option V) : Op K V → (K → Option V) × Option V
  | .put k v => (fun j => if j = k then some v else values j, none)
  | .delete k => (fun j => if j = k then none else values j, none)
  | .get k => (values, values k)

/-- The next step of goroutine `i`: Put (cache.go lines 26-31) and Delete (lines 70-75) hold the lock while they access the map; Get (lines
33-38) takes no lock.  A goroutine that waits for the lock, or is done, takes no step. -/
def Sys.step (s : Sys K V) (i : Nat) : Sys K V :=
  match s.threads[i]? with
  | none => s
  | some t =>
    match t.op, t.phase with
    | .get _, .start =>
      if s.threads.any fun u => u.phase.isWriting then { s with raced := true } else s.goto i t .reading
    | .get k, .reading => { s.goto i t (.done (s.values k)) with log := s.log ++ [(i, s.values k)] }
    | .get _, _ => s
    | _, .start => if s.lock.isNone then { s.goto i t .locked with lock := some i } else s
    | _, .locked =>
      if s.threads.any fun u => u.phase.isWriting || u.phase.isReading then { s with raced := true } else s.goto i t .writing
    | op, .writing => { s.goto i t .written with values := (op.effect s.values).1, log := s.log ++ [(i, none)] }
    | _, .written => { s.goto i t (.done none) with lock := none }
    | _, _ => s

def Sys.init (values : K → Option V) (ops : List (Op K V)) : Sys K V :=
  ⟨values, none, ops.map fun op => ⟨op, .start⟩, false, []⟩

def Sys.run (s : Sys K V) (schedule : List Nat) : Sys K V := schedule.foldl Sys.step s

end

/-! ### A collection -/

section
variable {D : Type}

/-- Where a goroutine is in InsertOne (nosqldb.go line 119, `db.items = append(db.items, d)`): it reads the slice, and then assigns it.
Simplification: two appends to the same slice with spare capacity write to the same place in memory; here the later assignment of
`db.items` decides. -/
inductive Insert (D : Type) where
  | start (d : D)
  | read (d : D) (items : List D)
  | done (d : D)

structure Coll (D : Type) where
  items : List D
  threads : List (Insert D)

def Coll.step (s : Coll D) (i : Nat) : Coll D :=
  match s.threads[i]? with
  | some (.start d) => { s with threads := s.threads.set i (.read d s.items) }
  | some (.read d items) => ⟨items ++ [d], s.threads.set i (.done d)⟩
  | _ => s

def Coll.init (items docs : List D) : Coll D := ⟨items, docs.map .start⟩

def Coll.run (s : Coll D) (schedule : List Nat) : Coll D := schedule.foldl Coll.step s

end

/-! ### GetCollection -/

/-- Where a goroutine is in GetCollection for one name (nosqldb.go lines 48-60): it looks the collection up, and makes and stores one if
there is none.  Collections are numbered in the order they are made.  The outer map works in the same way and is left out. -/
inductive Lookup where
  | start
  | absent
  | done (collection : Nat)
deriving DecidableEq

structure Db where
  entry : Option Nat
  made : Nat
  threads : List Lookup
deriving DecidableEq

def Db.step (s : Db) (i : Nat) : Db :=
  match s.threads[i]? with
  | some .start => match s.entry with
    | some c => { s with threads := s.threads.set i (.done c) }
    | none => { s with threads := s.threads.set i .absent }
  | some .absent => ⟨some s.made, s.made + 1, s.threads.set i (.done s.made)⟩
  | _ => s

def Db.init (n : Nat) : Db := ⟨none, 0, List.replicate n .start⟩

def Db.run (s : Db) (schedule : List Nat) : Db := schedule.foldl Db.step s

end Verif.Races
