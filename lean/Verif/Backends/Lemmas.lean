import Verif.Backends.Spec
/-!
# Lemmas: the servers hold the JSON of what the in-memory cache holds
-/

namespace Verif.Backends
open Verif.GoValue Verif.Cache

variable {L : Lib}

/-- The text that a server holds for a value. -/
inductive Holds (L : Lib) (t : GoType) : Option GoVal → Option L.Text → Prop where
  | none : Holds L t .none .none
  | some (v s) : (∀ cur, L.unmarshal s (.ptr t cur) = copyResult v (.ptr t cur)) → L.marshal v = .some s →
      Holds L t (.some v) (.some s)

def Rel (L : Lib) (kinds : String → GoType) (m : Values) (s : Store L) : Prop := ∀ k, Holds L (kinds k) (m k) (s k)

theorem rel_put {kinds : String → GoType} {m : Values} {s : Store L} (h : Rel L kinds m s) {k : String} {v : GoVal}
    {t : L.Text} (ht : L.marshal v = some t) (hc : Carries L v (kinds k)) : Rel L kinds (Cache.put m k v) (s.set k t) := by
  intro k'
  unfold Cache.put Store.set
  split
  · next e =>
    subst e
    obtain ⟨t', h1, h2⟩ := hc
    rw [ht] at h1; cases h1
    exact .some _ _ h2 ht
  · exact h k'

theorem rel_del {kinds : String → GoType} {m : Values} {s : Store L} (h : Rel L kinds m s) (k : String) :
    Rel L kinds (Cache.delete m k) (s.del k) := by
  intro k'
  unfold Cache.delete Store.del
  split
  · exact .none
  · exact h k'

theorem carries_int (L : Lib) (n : Int) (h1 : -2 ^ 63 ≤ n) (h2 : n < 2 ^ 63) :
    Carries L (.scalar "int64" n) (.named "int64") := by
  refine ⟨_, L.marshal_int n h1 h2, fun cur => ?_⟩
  rw [L.unmarshal_int n cur h1 h2]
  simp [copyResult, copyTo, assignable]

theorem wrap_id (n : Int) (h1 : -2 ^ 63 ≤ n) (h2 : n < 2 ^ 63) : wrap64 n = n := by
  unfold wrap64
  rw [Int.bmod_def]
  omega

theorem incr_some {m : Values} {k : String} {n : Int} (h : m k = some (.scalar "int64" n)) :
    incr m k = (Cache.put m k (int64 (wrap64 (n + 1))), wrap64 (n + 1), .ok) := by
  have : incrRead m k = .ok n := by
    simp [incrRead, Cache.get, h, copyResult, copyTo, assignable]
  simp [incr, this]

theorem incr_none {m : Values} {k : String} (h : m k = none) :
    incr m k = (Cache.put m k (int64 (wrap64 1)), wrap64 1, .ok) := by
  have : incrRead m k = .ok 0 := by
    simp [incrRead, Cache.get, h, int64]
  simp [incr, this]

theorem Each.length {α β : Type} {P : α → β → Prop} {as : List α} {bs : List β} (h : Each P as bs) :
    as.length = bs.length := by
  induction h with
  | nil => rfl
  | cons => simpa

/-! ### Redis -/

theorem redis_mset {kinds : String → GoType} {ks : List String} {vs : List GoVal}
    (h : Each (fun k v => Carries L v (kinds k)) ks vs) :
    ∀ {m : Values} {s : Store L}, Rel L kinds m s →
      ∃ s', Redis.msetLoop s ks vs = .ok s' ∧ Rel L kinds (Cache.putAll m ks vs) s' := by
  induction h with
  | nil => intro m s hr; exact ⟨s, rfl, hr⟩
  | cons k v ks vs hc _ ih =>
    intro m s hr
    obtain ⟨t, ht, h2⟩ := hc
    obtain ⟨s', h3, h4⟩ := ih (rel_put hr ht ⟨t, ht, h2⟩)
    exact ⟨s', by simp only [Redis.msetLoop, ht, h3], h4⟩

theorem get_hit {kinds : String → GoType} {m : Values} {s : Store L} (hr : Rel L kinds m s) {k : String} {cur : GoVal}
    {t : L.Text} (ht : s k = some t) :
    Cache.get m k (.ptr (kinds k) cur) =
      ⟨true, (L.unmarshal t (.ptr (kinds k) cur)).1, (L.unmarshal t (.ptr (kinds k) cur)).2⟩ := by
  have hk := hr k
  rw [ht] at hk
  cases hm : m k with
  | none => rw [hm] at hk; cases hk
  | some v =>
    rw [hm] at hk
    cases hk with
    | some _ _ h1 h2 => simp only [Cache.get, hm, h1]

theorem get_miss {kinds : String → GoType} {m : Values} {s : Store L} (hr : Rel L kinds m s) {k : String} {d : Dst}
    (ht : s k = none) : Cache.get m k d = ⟨false, d, .ok⟩ := by
  have hk := hr k
  rw [ht] at hk
  cases hm : m k with
  | none => simp only [Cache.get, hm]
  | some v => rw [hm] at hk; cases hk

theorem store_none {kinds : String → GoType} {m : Values} {s : Store L} (hr : Rel L kinds m s) {k : String} :
    s k = none ↔ m k = none := by
  have hk := hr k
  cases hm : m k with
  | none => rw [hm] at hk; cases hs : s k with
    | none => simp
    | some t => rw [hs] at hk; cases hk
  | some v => rw [hm] at hk; cases hs : s k with
    | none => rw [hs] at hk; cases hk
    | some t => simp

theorem redis_mget {kinds : String → GoType} {m : Values} {s : Store L} (hr : Rel L kinds m s) {ks : List String}
    {ds : List Dst} (h : Each (fun k d => ∃ cur, d = .ptr (kinds k) cur) ks ds) (hm : ∀ k ∈ ks, m k ≠ none) :
    Redis.mgetLoop s ks ds = Cache.getAll m ks ds := by
  induction h with
  | nil => rfl
  | cons k d ks ds hd _ ih =>
    obtain ⟨cur, rfl⟩ := hd
    have hk := hm k List.mem_cons_self
    rw [Ne, ← store_none hr] at hk
    cases hs : s k with
    | none => exact absurd hs hk
    | some t =>
      have ih := ih fun k hk => hm k (List.mem_cons_of_mem _ hk)
      simp only [Redis.mgetLoop, hs, Cache.getAll, get_hit hr hs, ih]
      rcases L.unmarshal t (.ptr (kinds k) cur) with ⟨d', o⟩
      cases o <;> rfl

theorem redis_step {kinds : String → GoType} {m : Values} {s : Store L} (hr : Rel L kinds m s) {op : Op}
    (ht : Typed L kinds m op) (ho : RedisOk m op) :
    (Redis.step s op).2 = simpleRes m op ∧ Rel L kinds (Cache.apply m op) (Redis.step s op).1 := by
  cases op with
  | put k v =>
    obtain ⟨t, h1, h2⟩ := id ht
    simp only [Redis.step, Redis.put, h1, simpleRes, Cache.apply, true_and]
    exact rel_put hr h1 ht
  | get k d =>
    obtain ⟨cur, rfl⟩ := ht
    refine ⟨?_, hr⟩
    simp only [Redis.step, Redis.get, simpleRes]
    cases hs : s k with
    | none => rw [get_miss hr hs]
    | some t => rw [get_hit hr hs]
  | mset ks vs =>
    obtain ⟨h0, h1⟩ := ht
    obtain ⟨s', h2, h3⟩ := redis_mset h1 hr
    simp only [Redis.step, Redis.mset, h0, if_false, h2, simpleRes, Cache.apply, Cache.mset, h1.length, ne_eq,
      not_true_eq_false, true_and]
    exact h3
  | mget ks ds =>
    obtain ⟨h0, h1⟩ := ht
    refine ⟨?_, hr⟩
    simp only [Redis.step, Redis.mget, h0, if_false, simpleRes, Cache.mget, h1.length, ne_eq, not_true_eq_false]
    rw [redis_mget hr h1 ho]
  | delete k => exact ⟨rfl, rel_del hr k⟩
  | incr k =>
    obtain ⟨hk, hv⟩ := ht
    cases hm : m k with
    | none =>
      have hs := (store_none hr).2 hm
      have e : wrap64 1 = 1 := wrap_id 1 (by omega) (by omega)
      simp only [Redis.step, Redis.incr, hs, simpleRes, incr_none hm, Cache.apply, e, true_and]
      have c := carries_int L 1 (by omega) (by omega)
      exact rel_put hr (L.marshal_int 1 (by omega) (by omega)) (hk ▸ c)
    | some v =>
      obtain ⟨n, rfl, h1, h2⟩ := hv v hm
      have hkk := hr k
      rw [hm] at hkk
      cases hs : s k with
      | none => rw [hs] at hkk; cases hkk
      | some t =>
        rw [hs] at hkk
        cases hkk with
        | some _ _ _ h4 =>
          rw [L.marshal_int n h1 (by omega)] at h4
          cases h4
          have e : wrap64 (n + 1) = n + 1 := wrap_id _ (by omega) (by omega)
          have hlt : n + 1 < 2 ^ 63 := by omega
          simp only [Redis.step, Redis.incr, hs, L.readInt_show, hlt, if_true, simpleRes, incr_some hm, Cache.apply, e, true_and]
          have c := carries_int L (n + 1) (by omega) hlt
          exact rel_put hr (L.marshal_int _ (by omega) hlt) (hk ▸ c)

theorem redis_run {kinds : String → GoType} (ops : List Op) : ∀ {m : Values} {s : Store L}, Rel L kinds m s →
    Along (fun m op => Typed L kinds m op ∧ RedisOk m op) m ops → Redis.run s ops = simpleRun m ops := by
  induction ops with
  | nil => intros; rfl
  | cons op ops ih =>
    intro m s hr h
    obtain ⟨⟨h1, h2⟩, h3⟩ := h
    obtain ⟨h4, h5⟩ := redis_step hr h1 h2
    simp only [Redis.run, simpleRun, h4, ih h5 h3]

/-! ### memcached -/

theorem legal_iff (k : String) : Memcached.legalKey k = true ↔ LegalKey k := by
  simp [Memcached.legalKey, LegalKey, and_assoc]

theorem memcached_mget {kinds : String → GoType} {m : Values} {s : Store L} (hr : Rel L kinds m s) {ks : List String}
    {ds : List Dst} (h : Each (fun k d => ∃ cur, d = .ptr (kinds k) cur) ks ds) :
    Memcached.mgetLoop s ks ds = Cache.getAll m ks ds := by
  induction h with
  | nil => rfl
  | cons k d ks ds hd _ ih =>
    obtain ⟨cur, rfl⟩ := hd
    cases hs : s k with
    | none => simp only [Memcached.mgetLoop, hs, Cache.getAll, get_miss hr hs, ih]
    | some t =>
      simp only [Memcached.mgetLoop, hs, Cache.getAll, get_hit hr hs, ih]
      rcases L.unmarshal t (.ptr (kinds k) cur) with ⟨d', o⟩
      cases o <;> rfl

/-- Puts of different keys, in any order. -/
theorem memcached_putAll (ps : List (String × GoVal)) (hl : ∀ p ∈ ps, LegalKey p.1)
    (hm : ∀ p ∈ ps, ∃ t, L.marshal p.2 = some t) (hn : (ps.map Prod.fst).Nodup) (s : Store L) :
    (Memcached.putAll s ps).2 = .ok ∧
    ∀ k, (Memcached.putAll s ps).1 k = match ps.lookup k with
      | some v => L.marshal v
      | none => s k := by
  induction ps generalizing s with
  | nil => exact ⟨rfl, fun k => rfl⟩
  | cons p ps ih =>
    obtain ⟨k0, v0⟩ := p
    obtain ⟨t, ht⟩ := hm (k0, v0) List.mem_cons_self
    have hlk := (legal_iff k0).2 (hl (k0, v0) List.mem_cons_self)
    rw [List.map_cons, List.nodup_cons] at hn
    obtain ⟨h1, h2⟩ := ih (fun p hp => hl p (List.mem_cons_of_mem _ hp)) (fun p hp => hm p (List.mem_cons_of_mem _ hp)) hn.2
      (s.set k0 t)
    have hp : Memcached.put s k0 v0 = (s.set k0 t, .ok) := by
      simp only at ht
      simp only [Memcached.put, ht, hlk, if_true]
    refine ⟨by simp only [Memcached.putAll, hp, if_true, h1], fun k => ?_⟩
    simp only [Memcached.putAll, hp]
    rw [h2 k, List.lookup_cons]
    by_cases e : k = k0
    · subst e
      have : ps.lookup k = none := by
        rw [List.lookup_eq_none_iff]
        intro q hq
        rw [bne_iff_ne]
        intro e
        exact hn.1 (List.mem_map.2 ⟨q, hq, e.symm⟩)
      simp only [this, Store.set, if_true, beq_self_eq_true]
      exact ht.symm
    · rw [beq_eq_false_iff_ne.2 e]
      simp only [Store.set, e, if_false]

theorem putAll_apply (ks : List String) (vs : List GoVal) (m : Values) (hn : ks.Nodup) (k : String) :
    Cache.putAll m ks vs k = match (ks.zip vs).lookup k with
      | some v => some v
      | none => m k := by
  induction ks generalizing vs m with
  | nil => rfl
  | cons k0 ks ih =>
    cases vs with
    | nil => rfl
    | cons v0 vs =>
      rw [List.nodup_cons] at hn
      simp only [Cache.putAll, List.zip_cons_cons]
      rw [ih vs _ hn.2, List.lookup_cons]
      by_cases e : k = k0
      · subst e
        have : (ks.zip vs).lookup k = none := by
          rw [List.lookup_eq_none_iff]
          intro q hq
          rw [bne_iff_ne]
          intro e
          exact hn.1 (e ▸ (List.of_mem_zip (a := q.1) (b := q.2) hq).1)
        simp only [this, Cache.put, if_true, beq_self_eq_true]
      · rw [beq_eq_false_iff_ne.2 e]
        simp only [Cache.put, e, if_false]

theorem lookup_mem {β : Type} {l : List (String × β)} (hn : (l.map Prod.fst).Nodup) {k : String} {v : β} :
    l.lookup k = some v ↔ (k, v) ∈ l := by
  induction l with
  | nil => simp
  | cons p l ih =>
    obtain ⟨pk, pv⟩ := p
    rw [List.map_cons, List.nodup_cons] at hn
    rw [List.lookup_cons]
    by_cases e : k = pk
    · subst e
      rw [beq_self_eq_true]
      constructor
      · intro h; cases h; exact List.mem_cons_self
      · intro h
        rcases List.mem_cons.1 h with h | h
        · cases h; rfl
        · exact absurd (List.mem_map.2 ⟨_, h, rfl⟩) hn.1
    · rw [beq_eq_false_iff_ne.2 e]
      simp only [ih hn.2, List.mem_cons, Prod.mk.injEq, e, false_and, false_or]

theorem lookup_perm {β : Type} {l l' : List (String × β)} (hp : l.Perm l') (hn : (l'.map Prod.fst).Nodup) (k : String) :
    l.lookup k = l'.lookup k := by
  have hn' : (l.map Prod.fst).Nodup := (hp.map _).nodup_iff.2 hn
  apply Option.ext
  intro v
  rw [lookup_mem hn, lookup_mem hn', hp.mem_iff]

theorem zip_fst {α β : Type} {P : α → β → Prop} {as : List α} {bs : List β} (h : Each P as bs) :
    (as.zip bs).map Prod.fst = as := by
  induction h with
  | nil => rfl
  | cons => simp_all

theorem Each.zip {α β : Type} {P : α → β → Prop} {as : List α} {bs : List β} (h : Each P as bs) :
    ∀ p ∈ as.zip bs, P p.1 p.2 := by
  induction h with
  | nil => intro p hp; cases hp
  | cons a b as bs h _ ih =>
    intro p hp
    rcases List.mem_cons.1 hp with rfl | hp
    · exact h
    · exact ih p hp

theorem memcached_step {kinds : String → GoType} {m : Values} {s : Store L} (hr : Rel L kinds m s) {op : Op}
    {order : List (String × GoVal)} (hord : SomeOrder (op, order))
    (ht : Typed L kinds m op) (ho : MemcachedOk m op) :
    (Memcached.step s order op).2 = simpleRes m op ∧ Rel L kinds (Cache.apply m op) (Memcached.step s order op).1 := by
  cases op with
  | put k v =>
    obtain ⟨t, h1, h2⟩ := id ht
    have hl := (legal_iff k).2 ho
    simp only [Memcached.step, Memcached.put, h1, hl, if_true, simpleRes, Cache.apply, true_and]
    exact rel_put hr h1 ht
  | get k d =>
    obtain ⟨cur, rfl⟩ := ht
    have hl := (legal_iff k).2 ho
    refine ⟨?_, hr⟩
    simp only [Memcached.step, Memcached.get, hl, if_true, simpleRes]
    cases hs : s k with
    | none => rw [get_miss hr hs]
    | some t => rw [get_hit hr hs]
  | mset ks vs =>
    obtain ⟨_, h1⟩ := ht
    obtain ⟨hl, hn⟩ := ho
    have hp : order.Perm (ks.zip vs) := hord
    have hfst := zip_fst h1
    have hno : (order.map Prod.fst).Nodup := (hp.map _).nodup_iff.2 (by rw [hfst]; exact hn)
    obtain ⟨h2, h3⟩ := memcached_putAll (L := L) order
      (fun p hp' => hl _ (List.of_mem_zip (a := p.1) (b := p.2) (hp.mem_iff.1 hp')).1)
      (fun p hp' => (h1.zip p (hp.mem_iff.1 hp')).imp fun _ h => h.1) hno s
    have hlen : ¬ vs.length < ks.length := by rw [h1.length]; omega
    have hms : Memcached.mset s order ks vs = ((Memcached.putAll s order).1, .ok) := by
      rw [Memcached.mset, if_neg hlen, ← h2]
    have hcs : Cache.mset m ks vs = (Cache.putAll m ks vs, .ok) := by
      rw [Cache.mset, if_neg (by simp [h1.length])]
    simp only [Memcached.step, hms, simpleRes, Cache.apply, hcs, true_and]
    intro k
    rw [h3 k, putAll_apply ks vs m hn k, lookup_perm hp (by rw [hfst]; exact hn) k]
    cases hk : (ks.zip vs).lookup k with
    | none => exact hr k
    | some v =>
      have hmem := (lookup_mem (by rw [hfst]; exact hn)).1 hk
      obtain ⟨t, a, b⟩ := h1.zip _ hmem
      simp only at a
      show Holds L (kinds k) (some v) (L.marshal v)
      rw [show L.marshal v = some t from a]
      exact .some v t b a
  | mget ks ds =>
    obtain ⟨_, h1⟩ := ht
    have hl : ks.all Memcached.legalKey = true := List.all_eq_true.2 fun k hk => (legal_iff k).2 (ho k hk)
    refine ⟨?_, hr⟩
    simp only [Memcached.step, Memcached.mget, hl, if_true, simpleRes, Cache.mget, h1.length, ne_eq, not_true_eq_false,
      if_false]
    rw [memcached_mget hr h1]
  | delete k =>
    have hl := (legal_iff k).2 ho.1
    have hk := ho.2
    rw [Ne, ← store_none hr] at hk
    cases hs : s k with
    | none => exact absurd hs hk
    | some t =>
      simp only [Memcached.step, Memcached.delete, hl, if_true, hs, simpleRes, Cache.apply, true_and]
      exact rel_del hr k
  | incr k =>
    obtain ⟨hk, hv⟩ := ht
    obtain ⟨hl, n, hm, h0⟩ := ho
    have hl := (legal_iff k).2 hl
    obtain ⟨n', e, h1, h2⟩ := hv _ hm
    cases e
    have hkk := hr k
    rw [hm] at hkk
    cases hs : s k with
    | none => rw [hs] at hkk; cases hkk
    | some t =>
      rw [hs] at hkk
      cases hkk with
      | some _ _ _ h4 =>
        rw [L.marshal_int n h1 (by omega)] at h4
        cases h4
        obtain ⟨i, rfl⟩ := Int.eq_ofNat_of_zero_le h0
        have e : wrap64 ((i : Int) + 1) = i + 1 := wrap_id _ (by omega) (by omega)
        have hmod : (i + 1) % 2 ^ 64 = i + 1 := Nat.mod_eq_of_lt (by omega)
        have ht : Memcached.toInt64 (i + 1) = (i : Int) + 1 := by
          have := e
          unfold wrap64 at this
          unfold Memcached.toInt64
          exact_mod_cast this
        simp only [Memcached.step, Memcached.incr, hl, if_true, hs, L.readNat_show, hmod, ht, simpleRes, incr_some hm,
          Cache.apply, e, true_and]
        have c := carries_int L ((i : Int) + 1) (by omega) (by omega)
        exact rel_put hr (L.marshal_int _ (by omega) (by omega)) (hk ▸ c)

theorem memcached_run {kinds : String → GoType} (ops : List (Op × List (String × GoVal))) :
    ∀ {m : Values} {s : Store L}, Rel L kinds m s → (∀ p ∈ ops, SomeOrder p) →
    Along (fun m op => Typed L kinds m op ∧ MemcachedOk m op) m (ops.map Prod.fst) →
    Memcached.run s ops = simpleRun m (ops.map Prod.fst) := by
  induction ops with
  | nil => intros; rfl
  | cons p ops ih =>
    obtain ⟨op, order⟩ := p
    intro m s hr ho h
    obtain ⟨⟨h1, h2⟩, h3⟩ := h
    obtain ⟨h4, h5⟩ := memcached_step hr (ho _ List.mem_cons_self) h1 h2
    simp only [Memcached.run, List.map_cons, simpleRun, h4,
      ih h5 (fun p hp => ho p (List.mem_cons_of_mem _ hp)) h3]

/-! ### RabbitMQ -/

theorem deliver_share {n : Nat} (hn : 0 < n) (ts : List L.Text) : ∀ (s : Rabbit.State L), s.clients = n →
    (ts.foldl Rabbit.deliver s).clients = n ∧ (ts.foldl Rabbit.deliver s).next = s.next + ts.length ∧
    ∀ c, c < n → (ts.foldl Rabbit.deliver s).buf c = s.buf c ++ share n c s.next ts := by
  induction ts with
  | nil => intro s hs; exact ⟨hs, rfl, fun c _ => by simp [share]⟩
  | cons t ts ih =>
    intro s hs
    have hd : Rabbit.deliver s t =
        { s with buf := fun d => if d = s.next % s.clients then s.buf d ++ [t] else s.buf d, next := s.next + 1 } := by
      simp only [Rabbit.deliver]
      rw [if_neg (by omega)]
    obtain ⟨h1, h2, h3⟩ := ih (Rabbit.deliver s t) (by rw [hd]; exact hs)
    refine ⟨h1, ?_, fun c hc => ?_⟩
    · rw [List.foldl_cons, h2, hd]; simp; omega
    · rw [List.foldl_cons, h3 c hc, hd]
      simp only [share, hs]
      by_cases e : s.next % n = c
      · rw [if_pos e.symm, if_pos e]; simp
      · rw [if_neg (fun h => e h.symm), if_neg e]; simp

/-- Messages that are the JSON of values. -/
inductive Texts (L : Lib) : List GoVal → List L.Text → Prop where
  | nil : Texts L [] []
  | cons (v t vs ts) : L.marshal v = some t → Texts L vs ts → Texts L (v :: vs) (t :: ts)

theorem Texts.snoc {vs : List GoVal} {ts : List L.Text} (h : Texts L vs ts) {v : GoVal} {t : L.Text}
    (hv : L.marshal v = some t) : Texts L (vs ++ [v]) (ts ++ [t]) := by
  induction h with
  | nil => exact .cons _ _ _ _ hv .nil
  | cons v t vs ts h _ ih => exact .cons _ _ _ _ h ih

theorem one_client (ops : List Rabbit.QOp) (items : List GoVal) (s : Rabbit.State L) (h1 : s.clients = 1)
    (ht : Texts L items (s.buf 0)) (hc : ∀ v, (v ∈ items ∨ Rabbit.QOp.push v ∈ ops) → (∃ t, L.marshal v = some t) ∧
      ∀ d, Rabbit.QOp.pop d ∈ ops → CarriesAny L v d) :
    (Rabbit.run s (ops.map fun op => (0, op))).2 = fifo items ops := by
  induction ops generalizing items s with
  | nil => rfl
  | cons op ops ih =>
    cases op with
    | push v =>
      obtain ⟨⟨t, hv⟩, _⟩ := hc v (.inr List.mem_cons_self)
      have hs : Rabbit.step 0 s (.push v) = (Rabbit.deliver s t, .pushed true .ok) := by
        simp only [Rabbit.step, Rabbit.push, hv]
      simp only [List.map_cons, Rabbit.run, hs, fifo]
      congr 1
      apply ih
      · simp only [Rabbit.deliver]; split <;> exact h1
      · have : (Rabbit.deliver s t).buf 0 = s.buf 0 ++ [t] := by
          simp [Rabbit.deliver, h1, Nat.mod_one]
        rw [this]; exact ht.snoc hv
      · intro w hw
        have := hc w (by
          rcases hw with hw | hw
          · rcases List.mem_append.1 hw with hw | hw
            · exact .inl hw
            · rw [List.mem_singleton.1 hw]; exact .inr List.mem_cons_self
          · exact .inr (List.mem_cons_of_mem _ hw))
        exact ⟨this.1, fun d hd => this.2 d (List.mem_cons_of_mem _ hd)⟩
    | pop d =>
      have hrest : ∀ w, (w ∈ items ∨ Rabbit.QOp.push w ∈ ops) → (∃ t, L.marshal w = some t) ∧
          ∀ d, Rabbit.QOp.pop d ∈ ops → CarriesAny L w d := fun w hw => by
        have := hc w (hw.imp id (List.mem_cons_of_mem _))
        exact ⟨this.1, fun d hd => this.2 d (List.mem_cons_of_mem _ hd)⟩
      simp only [List.map_cons, Rabbit.run]
      cases hb : s.buf 0 with
      | nil =>
        rw [hb] at ht; cases ht
        have hs : Rabbit.step 0 s (.pop d) = (s, .waits) := by
          simp only [Rabbit.step, Rabbit.pop, hb]
        simp only [hs, fifo]
        congr 1
        exact ih [] s h1 (by rw [hb]; exact .nil) hrest
      | cons t ts =>
        rw [hb] at ht
        cases ht with
        | cons v _ vs _ hv htv =>
          obtain ⟨t', w, a1, a2, a3⟩ := (hc v (.inl List.mem_cons_self)).2 d List.mem_cons_self
          rw [hv] at a1; cases a1
          have hs : Rabbit.step 0 s (.pop d) = ({ s with buf := fun e => if e = 0 then ts else s.buf e },
              .popped (copyResult v d).1 (copyResult v d).2) := by
            simp only [Rabbit.step, Rabbit.pop, hb, Rabbit.decode, a2, a3]
          simp only [hs, fifo]
          congr 1
          refine ih vs _ h1 (by simpa using htv) fun x hx => hrest x (hx.imp (List.mem_cons_of_mem _) id)

theorem start_clients (n : Nat) : (Rabbit.start L n).clients = n ∧ (Rabbit.start L n).next = 0 ∧
    (Rabbit.start L n).waiting = [] ∧ ∀ c, (Rabbit.start L n).buf c = [] := by
  induction n with
  | zero => exact ⟨rfl, rfl, rfl, fun _ => rfl⟩
  | succ n ih =>
    obtain ⟨h1, h2, h3, h4⟩ := ih
    refine ⟨by simp [Rabbit.start, Rabbit.connect, h1], h2, rfl, fun c => ?_⟩
    simp [Rabbit.start, Rabbit.connect, h3, h4]

theorem run_pushes (vs : List (Nat × GoVal)) (ts : List L.Text) (h : Texts L (vs.map Prod.snd) ts) (s : Rabbit.State L) :
    (Rabbit.run s (vs.map fun p => (p.1, .push p.2))).1 = ts.foldl Rabbit.deliver s := by
  induction vs generalizing ts s with
  | nil => cases h; rfl
  | cons p vs ih =>
    cases h with
    | cons _ t _ ts hv h =>
      have : Rabbit.step p.1 s (.push p.2) = (Rabbit.deliver s t, .pushed true .ok) := by
        simp only [Rabbit.step, Rabbit.push, hv]
      simp only [List.map_cons, Rabbit.run, this, List.foldl_cons]
      exact ih ts h _

end Verif.Backends
