import Verif.Backends.Lemmas
/-!
# C74, C75: back ends of the same interface are interchangeable
-/

namespace Verif.Backends
open Verif.GoValue Verif.Cache

/-- **C74** (Redis): every sequence of calls of a well-typed program that asks `Mget` only for keys that are there has
the same results on a Redis cache as on the in-memory cache. -/
theorem C74_redis_partial (L : Lib) (kinds : String → GoType) (ops : List Op)
    (h : Along (fun m op => Typed L kinds m op ∧ RedisOk m op) Cache.empty ops) :
    Redis.run (Store.empty L) ops = simpleRun Cache.empty ops :=
  redis_run ops (fun _ => .none) h

/-- **C74** (memcached): every sequence of calls of a well-typed program with legal keys that deletes and increments only
keys that are there, and has no negative counters, has the same results on memcached as on the in-memory cache,
whatever the order in which the goroutines of each `Mset` run. -/
theorem C74_memcached_partial (L : Lib) (kinds : String → GoType) (ops : List (Op × List (String × GoVal)))
    (ho : ∀ p ∈ ops, SomeOrder p)
    (h : Along (fun m op => Typed L kinds m op ∧ MemcachedOk m op) Cache.empty (ops.map Prod.fst)) :
    Memcached.run (Store.empty L) ops = simpleRun Cache.empty (ops.map Prod.fst) :=
  memcached_run ops (fun _ => .none) ho h

/-- **C74** fails: asking Redis for several keys of which one is missing panics; the in-memory cache and memcached leave
the destination alone. -/
theorem C74_redis_mget_missing_refuted (L : Lib) (k : String) (d : Dst) (hk : LegalKey k) :
    Redis.run (Store.empty L) [.mget [k] [d]] = [.many [d] .panic] ∧
    Memcached.run (Store.empty L) [(.mget [k] [d], [])] = [.many [d] .ok] ∧
    simpleRun Cache.empty [.mget [k] [d]] = [.many [d] .ok] := by
  refine ⟨rfl, ?_, ?_⟩
  · simp [Memcached.run, Memcached.step, Memcached.mget, (legal_iff k).2 hk, Memcached.mgetLoop, Store.empty]
  · simp [simpleRun, simpleRes, mget, getAll, Cache.get, Cache.empty]

/-- **C74** fails: the interface promises an error if there are not as many values as keys. Redis and memcached ignore
what is too much, and panic if a value is missing. -/
theorem C74_lengths_refuted (L : Lib) (k : String) (v w : GoVal) (t : L.Text) (hv : L.marshal v = some t)
    (hk : LegalKey k) :
    (Redis.step (Store.empty L) (.mset [k] [v, w])).2 = .done .ok ∧
    (Redis.step (Store.empty L) (.mset [k] [])).2 = .done .panic ∧
    (Memcached.step (Store.empty L) [(k, v)] (.mset [k] [v, w])).2 = .done .ok ∧
    (Memcached.step (Store.empty L) [] (.mset [k] [])).2 = .done .panic ∧
    simpleRes Cache.empty (.mset [k] [v, w]) = .done .err ∧ simpleRes Cache.empty (.mset [k] []) = .done .err := by
  refine ⟨?_, rfl, ?_, rfl, rfl, rfl⟩
  · simp [Redis.step, Redis.mset, Redis.msetLoop, hv]
  · simp [Memcached.step, Memcached.mset, Memcached.putAll, Memcached.put, hv, (legal_iff k).2 hk]

/-- **C74** fails: deleting a key that is not there is an error with memcached, and not with the others. -/
theorem C74_delete_missing_refuted (L : Lib) (k : String) :
    Memcached.run (Store.empty L) [(.delete k, [])] = [.done .err] ∧
    Redis.run (Store.empty L) [.delete k] = [.done .ok] ∧ simpleRun Cache.empty [.delete k] = [.done .ok] := by
  refine ⟨?_, rfl, rfl⟩
  simp only [Memcached.run, Memcached.step, Memcached.delete, Store.empty]
  split <;> rfl

/-- **C74** fails: the first `Incr` of a counter is an error with memcached; the others return 1. -/
theorem C74_incr_missing_refuted (L : Lib) (k : String) :
    Memcached.run (Store.empty L) [(.incr k, [])] = [.num 0 .err] ∧
    Redis.run (Store.empty L) [.incr k] = [.num 1 .ok] ∧ simpleRun Cache.empty [.incr k] = [.num 1 .ok] := by
  refine ⟨?_, rfl, ?_⟩
  · simp only [Memcached.run, Memcached.step, Memcached.incr, Store.empty]
    split <;> rfl
  · simp only [simpleRun, simpleRes, incr_none (show Cache.empty k = none from rfl)]
    rfl

/-- **C74** fails: a counter below zero cannot be incremented with memcached. -/
theorem C74_negative_counter_refuted (L : Lib) (k : String) (n : Int) (h1 : -2 ^ 63 ≤ n) (h2 : n < 0) (hk : LegalKey k) :
    Memcached.run (Store.empty L) [(.put k (.scalar "int64" n), []), (.incr k, [])] = [.done .ok, .num 0 .err] ∧
    Redis.run (Store.empty L) [.put k (.scalar "int64" n), .incr k] = [.done .ok, .num (n + 1) .ok] := by
  have hm := L.marshal_int n h1 (by omega)
  constructor
  · simp [Memcached.run, Memcached.step, Memcached.put, hm, (legal_iff k).2 hk, Memcached.incr, Store.set, L.readNat_neg n h2]
  · have : n + 1 < 2 ^ 63 := by omega
    simp only [Redis.run, Redis.step, Redis.put, hm, Redis.incr, Store.set, if_true, L.readInt_show, this]

/-- **C74** fails: a key with a space, as in a user's name, cannot be stored in memcached. -/
theorem C74_key_refuted (L : Lib) (v : GoVal) :
    (Memcached.step (Store.empty L) [] (.put "Jane Doe" v)).2 = .done .err := by
  have : Memcached.legalKey "Jane Doe" = false := by decide
  simp only [Memcached.step, Memcached.put, this]
  cases L.marshal v <;> rfl

/-- **C74** fails: what the interface's documentation does, reading into a variable of type `any`, delivers the integer
that was stored with the in-memory cache and a float64 with the others. -/
theorem C74_any_refuted (L : Lib) (k : String) (n : Int) (h1 : -2 ^ 53 ≤ n) (h2 : n ≤ 2 ^ 53) :
    Redis.run (Store.empty L) [.put k (.scalar "int64" n), .get k (.ptr .any .nil)] =
      [.done .ok, .got ⟨true, .ptr .any (.scalar "float64" n), .ok⟩] ∧
    simpleRun Cache.empty [.put k (.scalar "int64" n), .get k (.ptr .any .nil)] =
      [.done .ok, .got ⟨true, .ptr .any (.scalar "int64" n), .ok⟩] := by
  have hm := L.marshal_int n (by omega) (by omega)
  constructor
  · simp only [Redis.run, Redis.step, Redis.put, hm, Redis.get, Store.set, if_true, L.unmarshal_any n .nil h1 h2]
  · simp [simpleRun, simpleRes, Cache.apply, Cache.put, Cache.get, copyResult, copyTo]

/-- **C74** fails: an `Mset` that names a key twice stores the last value in memory and in Redis; with memcached either
value may be the one that stays. -/
theorem C74_duplicate_key_refuted (L : Lib) (k : String) (hk : LegalKey k) :
    let op := Op.mset [k, k] [.scalar "int64" 1, .scalar "int64" 2]
    ∃ order, SomeOrder (op, order) ∧ (Memcached.step (Store.empty L) order op).1 k = some (L.showInt 1) ∧
      (Redis.step (Store.empty L) op).1 k = some (L.showInt 2) ∧ Cache.apply Cache.empty op k = some (.scalar "int64" 2) := by
  have m1 := L.marshal_int 1 (by omega) (by omega)
  have m2 := L.marshal_int 2 (by omega) (by omega)
  refine ⟨[(k, .scalar "int64" 2), (k, .scalar "int64" 1)], ?_, ?_, ?_, ?_⟩
  · exact List.Perm.swap _ _ _
  · simp [Memcached.step, Memcached.mset, Memcached.putAll, Memcached.put, m1, m2, (legal_iff k).2 hk, Store.set]
  · simp [Redis.step, Redis.mset, Redis.msetLoop, m1, m2, Store.set]
  · simp [Cache.apply, Cache.mset, Cache.putAll, Cache.put]

/-! ### RabbitMQ -/

/-- **C75** (one client): while a queue has one client only, its calls do what they should do on a queue, for all values
that JSON carries through an `any` to the destinations used. -/
theorem C75_one_client_partial (L : Lib) (ops : List Rabbit.QOp)
    (hp : ∀ v, Rabbit.QOp.push v ∈ ops → ∃ t, L.marshal v = some t)
    (hc : ∀ v d, Rabbit.QOp.push v ∈ ops → Rabbit.QOp.pop d ∈ ops → CarriesAny L v d) :
    (Rabbit.run (Rabbit.start L 1) (ops.map fun op => (0, op))).2 = fifo [] ops := by
  obtain ⟨h1, _, _, h4⟩ := start_clients (L := L) 1
  refine one_client ops [] _ h1 (by rw [h4]; exact .nil) fun v hv => ?_
  rcases hv with hv | hv
  · cases hv
  · exact ⟨hp v hv, fun d hd => hc v d hv hd⟩

/-- **C75** (several clients): of the messages pushed, by whichever clients, each of `n` clients gets every `n`-th; no
other client ever gets those, whether or not the client calls `Pop`. -/
theorem C75_share (L : Lib) (n : Nat) (hn : 0 < n) (vs : List (Nat × GoVal)) (ts : List L.Text)
    (h : (vs.map Prod.snd).map L.marshal = ts.map some) (c : Nat) (hc : c < n) :
    (Rabbit.run (Rabbit.start L n) (vs.map fun p => (p.1, .push p.2))).1.buf c = share n c 0 ts := by
  have ht : Texts L (vs.map Prod.snd) ts := by
    generalize vs.map Prod.snd = l at h
    induction l generalizing ts with
    | nil => cases ts with
      | nil => exact .nil
      | cons => simp at h
    | cons v l ih => cases ts with
      | nil => simp at h
      | cons t ts =>
        simp only [List.map_cons, List.cons.injEq] at h
        exact .cons _ _ _ _ h.1 (ih ts h.2)
  obtain ⟨h1, h2, _, h4⟩ := start_clients (L := L) n
  rw [run_pushes vs ts ht]
  obtain ⟨_, _, h5⟩ := deliver_share hn ts (Rabbit.start L n) h1
  rw [h5 c hc, h4, h2]; rfl

/-- **C75** fails: with a client that pushes and another one that pops, as in every deployment where they are different
processes, the first item pushed never reaches the one that pops: it is handed to the client that pushed it. `Pop`
waits although there is an item in the queue. -/
theorem C75_two_processes_refuted (L : Lib) (v : GoVal) (t : L.Text) (hv : L.marshal v = some t) (d : Dst) :
    (Rabbit.run (Rabbit.start L 2) [(0, .push v), (1, .pop d)]).2 = [.pushed true .ok, .waits] ∧
    fifo [] [.push v, .pop d] = [.pushed true .ok, .popped (copyResult v d).1 (copyResult v d).2] := by
  refine ⟨?_, rfl⟩
  simp [Rabbit.run, Rabbit.step, Rabbit.push, hv, Rabbit.start, Rabbit.connect, Rabbit.init, Rabbit.deliver, Rabbit.pop]

/-- **C75** fails: an integer that was pushed cannot be popped into an integer variable: `Pop` returns an error, and the
item is gone. -/
theorem C75_integer_refuted (L : Lib) (n : Int) (h1 : -2 ^ 53 ≤ n) (h2 : n ≤ 2 ^ 53) (cur : GoVal) :
    let d := Dst.ptr (.named "int64") cur
    (Rabbit.run (Rabbit.start L 1) [(0, .push (.scalar "int64" n)), (0, .pop d), (0, .pop d)]).2 =
      [.pushed true .ok, .popped d .err, .waits] ∧
    fifo [] [.push (.scalar "int64" n), .pop d, .pop d] =
      [.pushed true .ok, .popped (.ptr (.named "int64") (.scalar "int64" n)) .ok, .waits] := by
  have hm := L.marshal_int n (by omega) (by omega)
  have hu := L.unmarshal_any n .nil h1 h2
  constructor
  · simp [Rabbit.run, Rabbit.step, Rabbit.push, hm, Rabbit.start, Rabbit.connect, Rabbit.init, Rabbit.deliver, Rabbit.pop,
      Rabbit.decode, hu, copyResult, copyTo, assignable, Fail.toOutcome]
  · simp [fifo, copyResult, copyTo, assignable]

/-! ### Concrete cases -/

/-- A library: texts are the values themselves, and integers become float64 in an `any`. -/
def exampleLib : Lib where
  Text := GoVal
  marshal v := some v
  unmarshal t d := match t, d with
    | .scalar "int64" n, .ptr .any _ => (.ptr .any (.scalar "float64" n), .ok)
    | t, d => copyResult t d
  showInt n := .scalar "int64" n
  readInt t := match t with | .scalar _ n => some n | _ => none
  readNat t := match t with | .scalar _ n => if 0 ≤ n then some n.toNat else none | _ => none
  marshal_int n _ _ := rfl
  readInt_show n := rfl
  readNat_show n := by simp
  readNat_neg n h := by simp; omega
  unmarshal_int n cur _ _ := by simp [copyResult, copyTo, assignable]
  unmarshal_any n cur _ _ := rfl

/-- Strings under `name…`, counters elsewhere. -/
def exampleKinds (k : String) : GoType := if k = "name" then .named "string" else .named "int64"

/-- A program that meets the conditions of both theorems. -/
def exampleOps : List Op :=
  [.put "name" (.scalar "string" 7), .put "n" (.scalar "int64" 4), .incr "n",
   .mget ["name", "n"] [.ptr (.named "string") (.scalar "string" 0), .ptr (.named "int64") (.scalar "int64" 0)],
   .delete "name", .get "name" (.ptr (.named "string") (.scalar "string" 0))]

theorem exampleCarries (s : String) (n : Int) (k : String) (h : exampleKinds k = .named s) :
    Carries exampleLib (.scalar s n) (exampleKinds k) := by
  refine ⟨_, rfl, fun cur => ?_⟩
  rw [h]
  simp [exampleLib]

example : Along (fun m op => Typed exampleLib exampleKinds m op ∧ RedisOk m op ∧ MemcachedOk m op) Cache.empty exampleOps := by
  have legal : LegalKey "name" ∧ LegalKey "n" := ⟨(legal_iff _).1 (by decide), (legal_iff _).1 (by decide)⟩
  refine ⟨⟨exampleCarries "string" _ _ rfl, trivial, legal.1⟩, ⟨exampleCarries "int64" _ _ rfl, trivial, legal.2⟩,
    ⟨⟨rfl, ?_⟩, trivial, legal.2, 4, rfl, by decide⟩, ⟨⟨by simp, ?_⟩, ?_, ?_⟩, ⟨trivial, trivial, legal.1, ?_⟩,
    ⟨⟨_, rfl⟩, trivial, legal.1⟩, trivial⟩
  · intro v hv
    cases hv
    exact ⟨4, rfl, by decide, by decide⟩
  · exact .cons _ _ _ _ ⟨_, rfl⟩ (.cons _ _ _ _ ⟨_, rfl⟩ .nil)
  · intro k hk
    simp only [List.mem_cons, List.not_mem_nil, or_false] at hk
    rcases hk with rfl | rfl <;> decide
  · intro k hk
    simp only [List.mem_cons, List.not_mem_nil, or_false] at hk
    rcases hk with rfl | rfl
    · exact legal.1
    · exact legal.2
  · decide

example : CarriesAny exampleLib (.scalar "string" 3) (.ptr (.named "string") .nil) := ⟨_, _, rfl, rfl, rfl⟩

example : fifo [] [.push (.scalar "string" 3), .push (.scalar "string" 4), .pop (.ptr .any .nil)] =
    [.pushed true .ok, .pushed true .ok, .popped (.ptr .any (.scalar "string" 3)) .ok] := rfl

end Verif.Backends
