import Verif.Backends.Props
/-!
# C74, C75: calls that fail, and calls at the edges
-/

namespace Verif.Backends
open Verif.GoValue Verif.Cache

/-- The call returned an error, or panicked. -/
def Failed : Res → Prop
  | .done o => o ≠ .ok
  | .got r => r.outcome ≠ .ok
  | .many _ o => o ≠ .ok
  | .num _ o => o ≠ .ok

/-- **C74** (failures, Redis): a call that fails leaves the cache as it was, and so does one that reads. -/
theorem C74_redis_failed (L : Lib) (s : Store L) (op : Op) (h : Failed (Redis.step s op).2) :
    (Redis.step s op).1 = s := by
  cases op with
  | put k v =>
    simp only [Redis.step, Redis.put] at h ⊢
    cases hm : L.marshal v with
    | none => rfl
    | some t => rw [hm] at h; exact absurd rfl h
  | get k d => rfl
  | mget ks ds => rfl
  | delete k => exact absurd rfl h
  | mset ks vs =>
    simp only [Redis.step, Redis.mset] at h ⊢
    by_cases hk : ks = []
    · rw [if_pos hk]
    · rw [if_neg hk] at h ⊢
      cases hl : Redis.msetLoop s ks vs with
      | ok s' => rw [hl] at h; exact absurd rfl h
      | error o => rfl
  | incr k =>
    simp only [Redis.step, Redis.incr] at h ⊢
    cases hk : s k with
    | none => rw [hk] at h; exact absurd rfl h
    | some t =>
      rw [hk] at h
      simp only at h ⊢
      cases hr : L.readInt t with
      | none => rfl
      | some n =>
        rw [hr] at h
        simp only at h ⊢
        split
        · rename_i hn
          rw [if_pos hn] at h
          exact absurd rfl h
        · rfl

/-- **C74** (failures, memcached): a call other than `Mset` that fails leaves the cache as it was. -/
theorem C74_memcached_failed (L : Lib) (s : Store L) (order : List (String × GoVal)) (op : Op)
    (hop : ∀ ks vs, op ≠ .mset ks vs) (h : Failed (Memcached.step s order op).2) :
    (Memcached.step s order op).1 = s := by
  cases op with
  | put k v =>
    simp only [Memcached.step, Memcached.put] at h ⊢
    cases hm : L.marshal v with
    | none => rfl
    | some t =>
      rw [hm] at h
      simp only at h ⊢
      split
      · rename_i hk
        rw [if_pos hk] at h
        exact absurd rfl h
      · rfl
  | get k d => rfl
  | mget ks ds => rfl
  | mset ks vs => exact absurd rfl (hop ks vs)
  | delete k =>
    simp only [Memcached.step, Memcached.delete] at h ⊢
    split
    · rename_i hk
      rw [if_pos hk] at h
      cases hs : s k with
      | none => rfl
      | some t => rw [hs] at h; exact absurd rfl h
    · rfl
  | incr k =>
    simp only [Memcached.step, Memcached.incr] at h ⊢
    split
    · rename_i hk
      rw [if_pos hk] at h
      cases hs : s k with
      | none => rfl
      | some t =>
        rw [hs] at h
        simp only at h ⊢
        cases hr : L.readNat t with
        | none => rfl
        | some n => rw [hr] at h; exact absurd rfl h
    · rfl

/-- **C74** (unwritable values): a value that JSON cannot write is refused with an error. -/
theorem C74_unwritable (L : Lib) (s : Store L) (k : String) (v : GoVal) (order : List (String × GoVal))
    (hv : L.marshal v = none) :
    Redis.step s (.put k v) = (s, .done .err) ∧ Memcached.step s order (.put k v) = (s, .done .err) ∧
    Redis.step s (.mset [k] [v]) = (s, .done .err) ∧
    Memcached.step s [(k, v)] (.mset [k] [v]) = (s, .done .err) := by
  refine ⟨?_, ?_, ?_, ?_⟩
  · simp only [Redis.step, Redis.put, hv]
  · simp only [Memcached.step, Memcached.put, hv]
  · simp [Redis.step, Redis.mset, Redis.msetLoop, hv]
  · simp [Memcached.step, Memcached.mset, Memcached.putAll, Memcached.put, hv]

/-- **C74** fails: an `Mset` of which one value is refused stores nothing with Redis, and the other values with
memcached; both return an error. -/
theorem C74_partial_mset_refuted (L : Lib) (k k' : String) (v w : GoVal) (t : L.Text) (hk : LegalKey k)
    (hne : k ≠ k') (hv : L.marshal v = some t) (hw : L.marshal w = none) :
    (∀ order, SomeOrder (.mset [k, k'] [v, w], order) →
      (Memcached.step (Store.empty L) order (.mset [k, k'] [v, w])).2 = .done .err ∧
      (Memcached.step (Store.empty L) order (.mset [k, k'] [v, w])).1 k = some t) ∧
    Redis.step (Store.empty L) (.mset [k, k'] [v, w]) = (Store.empty L, .done .err) := by
  constructor
  · intro order ho
    have hp : order.Perm [(k, v), (k', w)] := ho
    have hcases : order = [(k, v), (k', w)] ∨ order = [(k', w), (k, v)] := by
      have hlen := hp.length_eq
      match order, hlen with
      | [a, b], _ =>
        have ha : a ∈ [(k, v), (k', w)] := hp.subset (by simp)
        have hb : b ∈ [(k, v), (k', w)] := hp.subset (by simp)
        have h1 : (k, v) ∈ [a, b] := hp.symm.subset (by simp)
        have h2 : (k', w) ∈ [a, b] := hp.symm.subset (by simp)
        simp only [List.mem_cons, List.not_mem_nil, or_false] at ha hb h1 h2
        rcases ha with rfl | rfl
        · rcases h2 with h | h
          · exact absurd (Prod.mk.inj h).1.symm hne
          · rw [h]; exact Or.inl rfl
        · rcases h1 with h | h
          · exact absurd (Prod.mk.inj h).1 hne
          · rw [h]; exact Or.inr rfl
    rcases hcases with rfl | rfl <;>
      simp [Memcached.step, Memcached.mset, Memcached.putAll, Memcached.put, hv, hw, (legal_iff k).2 hk, Store.set]
  · simp [Redis.step, Redis.mset, Redis.msetLoop, hv, hw]

/-- **C74** fails: `Mget` and `Mset` without keys are errors with Redis, and do nothing with the others. -/
theorem C74_no_keys_refuted (L : Lib) (s : Store L) (m : Values) :
    Redis.step s (.mget [] []) = (s, .many [] .err) ∧ Redis.step s (.mset [] []) = (s, .done .err) ∧
    Memcached.step s [] (.mget [] []) = (s, .many [] .ok) ∧ Memcached.step s [] (.mset [] []) = (s, .done .ok) ∧
    simpleRes m (.mget [] []) = .many [] .ok ∧ simpleRes m (.mset [] []) = .done .ok := by
  refine ⟨rfl, rfl, rfl, rfl, rfl, rfl⟩

/-- **C74** fails for keys that memcached does not take: every call with one is an error, and none of them with the other
back ends on account of the key. -/
theorem C74_illegal_key_refuted (L : Lib) (s : Store L) (k : String) (hk : ¬ LegalKey k) (v : GoVal) (d : Dst)
    (order : List (String × GoVal)) :
    Memcached.step s order (.put k v) = (s, .done .err) ∧
    Memcached.step s order (.get k d) = (s, .got ⟨false, d, .err⟩) ∧
    Memcached.step s order (.delete k) = (s, .done .err) ∧
    Memcached.step s order (.incr k) = (s, .num 0 .err) ∧
    Memcached.step s order (.mget [k] [d]) = (s, .many [d] .err) ∧
    Memcached.step s [(k, v)] (.mset [k] [v]) = (s, .done .err) := by
  have h : Memcached.legalKey k = false := by
    cases hl : Memcached.legalKey k with
    | false => rfl
    | true => exact absurd ((legal_iff k).1 hl) hk
  refine ⟨?_, ?_, ?_, ?_, ?_, ?_⟩
  · simp only [Memcached.step, Memcached.put, h]
    cases L.marshal v <;> rfl
  · simp [Memcached.step, Memcached.get, h]
  · simp [Memcached.step, Memcached.delete, h]
  · simp [Memcached.step, Memcached.incr, h]
  · simp [Memcached.step, Memcached.mget, h]
  · simp only [Memcached.step, Memcached.mset, Memcached.putAll, Memcached.put, h]
    cases L.marshal v <;> rfl

/-- The illegal keys include the empty one, keys with a space, and keys of more than 250 bytes. -/
example : ¬ LegalKey "" ∧ ¬ LegalKey "Jane Doe" ∧ ∀ k : String, 250 < k.utf8ByteSize → ¬ LegalKey k :=
  ⟨fun h => h.1 rfl, fun h => absurd ((legal_iff _).2 h) (by decide), fun k h h' => absurd h'.2.1 (by omega)⟩

/-- **C74** (counters, memcached): counters are unsigned 64 bit numbers that start again at 0, and the client reads
those from 2⁶³ on as negative numbers. -/
theorem C74_memcached_counter (L : Lib) (s : Store L) (k : String) (hk : LegalKey k) (n : Nat) (hn : n < 2 ^ 64)
    (hs : s k = some (L.showInt n)) (order : List (String × GoVal)) :
    Memcached.step s order (.incr k) =
      if n + 1 < 2 ^ 63 then (s.set k (L.showInt (n + 1 : Nat)), .num (n + 1 : Nat) .ok)
      else if n + 1 < 2 ^ 64 then (s.set k (L.showInt (n + 1 : Nat)), .num ((n : Int) + 1 - 2 ^ 64) .ok)
      else (s.set k (L.showInt 0), .num 0 .ok) := by
  simp only [Memcached.step, Memcached.incr, (legal_iff k).2 hk, if_true, hs, L.readNat_show]
  split
  · rename_i h
    have h1 : (n + 1) % 2 ^ 64 = n + 1 := Nat.mod_eq_of_lt (by omega)
    have h2 : Memcached.toInt64 (n + 1) = ((n + 1 : Nat) : Int) := by
      unfold Memcached.toInt64
      exact Int.bmod_eq_of_le (by omega) (by omega)
    rw [h1, h2]
  · split
    · rename_i h h'
      have h1 : (n + 1) % 2 ^ 64 = n + 1 := Nat.mod_eq_of_lt (by omega)
      have h2 : Memcached.toInt64 (n + 1) = (n : Int) + 1 - 2 ^ 64 := by
        unfold Memcached.toInt64
        rw [Int.bmod_def, if_neg] <;> omega
      rw [h1, h2]
    · have h1 : (n + 1) % 2 ^ 64 = 0 := by omega
      rw [h1]
      rfl

/-- **C74** fails: at the largest int64 a counter starts again at the smallest one in memory and with memcached, and
`Incr` is an error with Redis. -/
theorem C74_overflow_refuted (L : Lib) (k : String) (hk : LegalKey k) :
    Redis.run (Store.empty L) [.put k (.scalar "int64" (2 ^ 63 - 1)), .incr k] = [.done .ok, .num 0 .err] ∧
    Memcached.run (Store.empty L) [(.put k (.scalar "int64" (2 ^ 63 - 1)), []), (.incr k, [])] =
      [.done .ok, .num (-2 ^ 63) .ok] ∧
    simpleRun Cache.empty [.put k (.scalar "int64" (2 ^ 63 - 1)), .incr k] = [.done .ok, .num (-2 ^ 63) .ok] := by
  have hm := L.marshal_int (2 ^ 63 - 1) (by decide) (by decide)
  refine ⟨?_, ?_, ?_⟩
  · simp only [Redis.run, Redis.step, Redis.put, hm, Redis.incr, Store.set, if_true, L.readInt_show]
    rfl
  · have h := C74_memcached_counter L ((Store.empty L).set k (L.showInt (2 ^ 63 - 1))) k hk (2 ^ 63 - 1) (by decide)
      (by simp [Store.set]) []
    rw [if_neg (by decide), if_pos (by decide)] at h
    simp only [Memcached.run, Memcached.step, Memcached.put, hm, (legal_iff k).2 hk, if_true]
    simp only [Memcached.step, Prod.mk.injEq, Res.num.injEq] at h
    rw [h.2.1, h.2.2]
    rfl
  · simp only [simpleRun, simpleRes, Cache.apply, Cache.put]
    simp [Cache.incr, Cache.incrRead, Cache.put, Cache.get, copyResult, copyTo, assignable, Cache.wrap64]

/-! ### RabbitMQ -/

/-- Pushes before there is a client. -/
theorem early_pushes {L : Lib} (vs : List GoVal) : ∀ (s : Rabbit.State L), s.clients = 0 →
    ∀ items, Texts L items s.waiting → (∀ v ∈ vs, ∃ t, L.marshal v = some t) →
    ∀ s', s' = (Rabbit.run s (vs.map fun v => (0, .push v))).1 →
      s'.clients = 0 ∧ Texts L (items ++ vs) s'.waiting ∧ s'.buf = s.buf := by
  induction vs with
  | nil =>
    rintro s hs items ht _ s' rfl
    exact ⟨hs, by simpa using ht, rfl⟩
  | cons v vs ih =>
    rintro s hs items ht hm s' rfl
    obtain ⟨t, hv⟩ := hm v List.mem_cons_self
    have hstep : Rabbit.step 0 s (.push v) = ({ s with waiting := s.waiting ++ [t] }, .pushed true .ok) := by
      simp [Rabbit.step, Rabbit.push, hv, Rabbit.deliver, hs]
    simp only [List.map_cons, Rabbit.run, hstep]
    have := ih { s with waiting := s.waiting ++ [t] } hs (items ++ [v]) (ht.snoc hv)
      (fun v hv => hm v (List.mem_cons_of_mem _ hv)) _ rfl
    simpa using this

/-- **C75** (items that were pushed early): items in the queue while there is no client are kept. The first client to
connect finds them, in the order in which they were pushed, before what is pushed later. -/
theorem C75_early_partial (L : Lib) (vs : List GoVal) (ops : List Rabbit.QOp)
    (hm : ∀ v, v ∈ vs ∨ Rabbit.QOp.push v ∈ ops → ∃ t, L.marshal v = some t)
    (hc : ∀ v d, v ∈ vs ∨ Rabbit.QOp.push v ∈ ops → Rabbit.QOp.pop d ∈ ops → CarriesAny L v d) :
    (Rabbit.run (Rabbit.connect (Rabbit.run (Rabbit.init L) (vs.map fun v => (0, .push v))).1)
      (ops.map fun op => (0, op))).2 = fifo vs ops := by
  obtain ⟨h1, h2, h3⟩ := early_pushes vs (Rabbit.init L) rfl [] .nil (fun v hv => hm v (Or.inl hv)) _ rfl
  refine one_client ops vs _ ?_ ?_ fun v hv => ⟨hm v hv, fun d hd => hc v d hv hd⟩
  · simp [Rabbit.connect, h1]
  · have : Texts L vs (Rabbit.run (Rabbit.init L) (vs.map fun v => (0, .push v))).1.waiting := by simpa using h2
    simp only [Rabbit.connect, h1, if_true, h3]
    exact this

/-- **C75** (failures): a value that JSON cannot write is refused: `Push` returns false and an error, and the queue is as
it was. -/
theorem C75_push_fails (L : Lib) (s : Rabbit.State L) (c : Nat) (v : GoVal) (hv : L.marshal v = none) :
    Rabbit.step c s (.push v) = (s, .pushed false .err) := by
  simp only [Rabbit.step, Rabbit.push, hv]

/-- The hypotheses hold for the example library. -/
example : (Rabbit.run (Rabbit.connect (Rabbit.run (Rabbit.init exampleLib)
      ([.scalar "string" 3, .scalar "string" 4].map fun v => (0, .push v))).1)
      ([.pop (.ptr (.named "string") .nil), .push (.scalar "string" 5), .pop (.ptr (.named "string") .nil)].map
        fun op => (0, op))).2 =
    [.popped (.ptr (.named "string") (.scalar "string" 3)) .ok, .pushed true .ok,
      .popped (.ptr (.named "string") (.scalar "string" 4)) .ok] := rfl

end Verif.Backends
