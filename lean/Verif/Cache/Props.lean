import Verif.Cache.Lemmas
/-
C01 and C02: the in-memory cache.
-/
namespace Verif.Cache
open Verif.GoValue

/-- C01, Get: after any history, Get of `k` hits exactly when the latest call that stored or deleted `k`
stored some `v`, and then delivers that `v` (by the typed copy of C55); otherwise it is a miss without error
and the destination is untouched. -/
theorem C01_get_is_latest_write (h : List Op) (k : String) (d : Dst) :
    ((get (after h) k d).hit = true ↔ ∃ v, LatestWrite h k v) ∧
    (∀ v, LatestWrite h k v →
      get (after h) k d = ⟨true, (copyResult v d).1, (copyResult v d).2⟩) ∧
    ((¬ ∃ v, LatestWrite h k v) → get (after h) k d = ⟨false, d, .ok⟩) := by
  have key : ∀ v, after h k = some v ↔ LatestWrite h k v := by
    intro v; have := after_eq_some h.reverse k v; simpa using this
  cases hm : after h k with
  | none =>
    have hno : ¬ ∃ v, LatestWrite h k v := by
      rintro ⟨v, hv⟩; have := (key v).2 hv; simp [hm] at this
    refine ⟨⟨by simp [get, hm], fun hh => absurd hh hno⟩, fun v hv => absurd ⟨v, hv⟩ hno, ?_⟩
    intro _; simp [get, hm]
  | some w =>
    have hw := (key w).1 hm
    refine ⟨⟨fun _ => ⟨w, hw⟩, fun _ => by simp [get, hm]⟩, ?_, fun hh => absurd ⟨w, hw⟩ hh⟩
    intro v hv
    have := (key v).2 hv
    simp [get, this]

/-- At most one value is the latest write of a key: the value a Get delivers is determined. -/
theorem C01_latest_write_unique (h : List Op) (k : String) (v w : GoVal)
    (hv : LatestWrite h k v) (hw : LatestWrite h k w) : v = w := by
  have key : ∀ v, after h k = some v ↔ LatestWrite h k v := by
    intro v; have := after_eq_some h.reverse k v; simpa using this
  have h1 := (key v).2 hv
  rw [(key w).2 hw] at h1
  simpa using h1.symm

/-- C01, Mget: with as many keys as destinations, the slots are filled one after another exactly as by
separate Gets, up to and including the first slot whose delivery fails; the slots after it are untouched.
Without a failure every slot is filled. -/
theorem C01_mget_is_pointwise_get (m : Values) : ∀ (ks : List String) (ds : List Dst),
    ks.length = ds.length →
    (((mget m ks ds).2 = .ok ∧
      (∀ (i : Nat) (k : String) (d : Dst), ks[i]? = some k → ds[i]? = some d → (get m k d).outcome = .ok ∧
        (mget m ks ds).1[i]? = some (get m k d).dst)) ∨
    (∃ (i : Nat) (k : String) (d : Dst), ks[i]? = some k ∧ ds[i]? = some d ∧ (get m k d).outcome ≠ .ok ∧
      (mget m ks ds).2 = (get m k d).outcome ∧
      (∀ (j : Nat) (k : String) (d : Dst), ks[j]? = some k → ds[j]? = some d →
        (j < i → (get m k d).outcome = .ok) ∧
        (j ≤ i → (mget m ks ds).1[j]? = some (get m k d).dst) ∧
        (i < j → (mget m ks ds).1[j]? = some d)))) ∧
    (mget m ks ds).1.length = ds.length := by
  intro ks
  induction ks with
  | nil =>
    intro ds hl
    cases ds with
    | nil => simp [mget, getAll]
    | cons => simp at hl
  | cons k ks ih =>
    intro ds hl
    cases ds with
    | nil => simp at hl
    | cons d ds =>
      have hl' : ks.length = ds.length := by simpa using hl
      have ih := ih ds hl'
      simp only [mget, ne_eq, hl', not_true, if_false] at ih
      have hunf : mget m (k :: ks) (d :: ds) = getAll m (k :: ks) (d :: ds) := by simp [mget, hl']
      rw [hunf]
      by_cases ho : (get m k d).outcome = .ok
      · have hg : getAll m (k :: ks) (d :: ds) = ((get m k d).dst :: (getAll m ks ds).1, (getAll m ks ds).2) := by
          simp [getAll, ho]
        rw [hg]
        refine ⟨?_, by simp [ih.2]⟩
        rcases ih.1 with ⟨h1, h2⟩ | ⟨i, k', d', h1, h2, h3, h4, h5⟩
        · left
          refine ⟨h1, ?_⟩
          intro i k' d' hk hd
          cases i with
          | zero => simp at hk hd; subst hk hd; exact ⟨ho, by simp⟩
          | succ i => simpa using h2 i k' d' (by simpa using hk) (by simpa using hd)
        · right
          refine ⟨i + 1, k', d', by simpa using h1, by simpa using h2, h3, h4, ?_⟩
          intro j k'' d'' hk hd
          cases j with
          | zero => simp at hk hd; subst hk hd; exact ⟨fun _ => ho, by simp, by omega⟩
          | succ j =>
            have := h5 j k'' d'' (by simpa using hk) (by simpa using hd)
            exact ⟨fun hj => this.1 (by omega), fun hj => by simpa using this.2.1 (by omega),
              fun hj => by simpa using this.2.2 (by omega)⟩
      · have hg : getAll m (k :: ks) (d :: ds) = ((get m k d).dst :: ds, (get m k d).outcome) := by
          simp only [getAll]
        rw [hg]
        refine ⟨.inr ⟨0, k, d, by simp, by simp, ho, rfl, ?_⟩, by simp⟩
        intro j k' d' hk hd
        refine ⟨by omega, ?_, ?_⟩
        · intro hj
          have : j = 0 := by omega
          subst this
          simp at hk hd; subst hk hd; simp
        · intro hj
          cases j with
          | zero => omega
          | succ j => simpa using hd

/-- C01, mismatched lengths: Mset and Mget with different numbers of keys and values return an error; the
cache and the destinations are unchanged. -/
theorem C01_length_mismatch (m : Values) (ks : List String) (vs : List GoVal) (ds : List Dst) :
    (ks.length ≠ vs.length → mset m ks vs = (m, .err)) ∧
    (ks.length ≠ ds.length → mget m ks ds = (ds, .err)) ∧
    (ks.length = vs.length → (mset m ks vs).2 = .ok) := by
  refine ⟨?_, ?_, ?_⟩ <;> intro h <;> simp [mset, mget, h]

/-- C02 refuted: two Incr calls on a fresh key that interleave both return 1 and leave the counter at 1. -/
theorem C02_lost_update_refuted :
    ∃ acts s, cexec (cinit empty) acts = some s ∧ returns s.log "k" = [1, 1] ∧
      counter s.values "k" = some 1 := by
  refine ⟨[.start "k", .start "k", .finish 0, .finish 1], ?_⟩
  simp [cexec, cstep, cinit, incrRead, get, empty, int64, returns, counter, put, wrap64]

/-- C02 for calls that do not overlap: whatever the schedule, as long as no two Incr calls on the same key
overlap in time, `n` completed Incr calls on a key whose counter was `b` return b+1, b+2, ..., b+n in this
order and leave the counter at b+n (int64 arithmetic).
Missing from the full property: overlapping calls, for which it is false (`C02_lost_update_refuted`). -/
theorem C02_nonoverlapping_incr_partial (m : Values) (k : String) (b : Int)
    (hb : counter m k = some b) (hr : -2 ^ 63 ≤ b ∧ b < 2 ^ 63)
    (acts : List CAct) (s : CState) (h : cexec (cinit m) acts = some s) (hno : NoOverlap s.log) :
    ∃ n, returns s.log k = (List.range n).map (fun i => wrap64 (b + (i + 1 : Nat))) ∧
      counter s.values k = some (wrap64 (b + n)) := by
  have hi : CInv k b (cinit m) := by
    refine ⟨by simp [cinit, returns, hb, wrap64_small hr.1 hr.2], by simp [cinit, returns], by simp [cinit],
      by simp [cinit, started, ended], by simp [cinit], by simp [cinit], by simp [cinit]⟩
  have := cexec_induct (P := NoOverlap) (I := CInv k b) (fun a b h => h.prefix)
    (fun s s' h1 h2 h3 => cinv_step h1 h2 h3) acts _ _ h hi hno
  exact ⟨_, this.rets, this.count⟩

/-- C02, distinctness: the numbers returned by fewer than 2^64 non-overlapping Incr calls are distinct. -/
theorem C02_returned_numbers_distinct_partial (m : Values) (k : String) (b : Int)
    (hb : counter m k = some b) (hr : -2 ^ 63 ≤ b ∧ b < 2 ^ 63)
    (acts : List CAct) (s : CState) (h : cexec (cinit m) acts = some s) (hno : NoOverlap s.log)
    (hsmall : (returns s.log k).length ≤ 2 ^ 64) :
    (returns s.log k).Nodup := by
  obtain ⟨n, h1, _⟩ := C02_nonoverlapping_incr_partial m k b hb hr acts s h hno
  have hn : (returns s.log k).length = n := by rw [h1]; simp
  rw [h1]
  refine List.pairwise_map.2 (List.Pairwise.imp_of_mem ?_ List.nodup_range)
  intro i j hi hj hij heq
  simp only [List.mem_range] at hi hj
  simp only [wrap64] at heq
  have := Int.bmod_eq_bmod_iff_bmod_sub_eq_zero.1 heq
  have hd := Int.dvd_of_bmod_eq_zero this
  obtain ⟨q, hq⟩ := hd
  have h64 : ((2 ^ 64 : Nat) : Int) = 18446744073709551616 := by rfl
  rw [h64] at hq
  omega

/-- C02, what holds in every schedule: from a counter `b`, the counter never passes `b` plus the number of
completed calls, never falls back below `b`, has moved once a call has completed, and every call returns a
number in that range. (No int64 overflow in the range considered.) -/
theorem C02_counter_bounds_partial (m : Values) (k : String) (b : Int)
    (hb : counter m k = some b) (hr : -2 ^ 63 ≤ b)
    (acts : List CAct) (s : CState) (h : cexec (cinit m) acts = some s)
    (hsmall : b + (returns s.log k).length < 2 ^ 63) :
    ∃ v, counter s.values k = some v ∧ b ≤ v ∧ v ≤ b + (returns s.log k).length ∧
      (returns s.log k ≠ [] → b + 1 ≤ v) ∧
      ∀ n ∈ returns s.log k, b + 1 ≤ n ∧ n ≤ b + (returns s.log k).length := by
  have hi : BInv k b (cinit m) :=
    ⟨⟨b, by simpa [cinit] using hb, by omega, by simp [cinit, returns], by simp [cinit, returns]⟩,
      by simp [cinit], by simp [cinit, returns]⟩
  have := cexec_induct (P := fun l => b + (returns l k).length < 2 ^ 63) (I := BInv k b)
    (fun x y hxy => by simp at hxy; omega)
    (fun s s' h1 h2 h3 => binv_step hr h1 h2 h3) acts _ _ h hi hsmall
  obtain ⟨v, h1, h2, h3, h4⟩ := this.count
  exact ⟨v, h1, h2, h3, h4, this.rets⟩

/-- C02, wrong type: while a key holds something that is not an int64, every Incr on it fails and the value
is left alone, in every schedule. -/
theorem C02_non_counter_untouched (m : Values) (k : String) (hk : counter m k = none)
    (acts : List CAct) (s : CState) (h : cexec (cinit m) acts = some s) :
    s.values k = m k ∧ returns s.log k = [] ∧
      ∀ s', cstep s (.start k) = some s' → s'.values = s.values ∧ ∃ c o, o ≠ .ok ∧
        s'.log = s.log ++ [.start c k, .fail c k o] := by
  have hi : XInv k m (cinit m) := ⟨rfl, by simp [cinit], by simp [cinit, returns]⟩
  have := cexec_induct (P := fun _ => True) (I := XInv k m) (fun _ _ _ => trivial)
    (fun s s' h1 _ h3 => xinv_step hk h1 h3) acts _ _ h hi trivial
  refine ⟨this.same, this.rets, ?_⟩
  intro s' hs
  have hc : counter s.values k = none := by simpa [counter, this.same] using hk
  rcases incrRead_eq s.values k with ⟨n, h1, _⟩ | ⟨_, o, ho, h2⟩
  · simp [hc] at h1
  · simp only [cstep, h2] at hs
    cases hs
    exact ⟨rfl, s.next, o, ho, rfl⟩

/-- C02, an undisturbed Incr after any history of calls: if a Get would deliver the number `n`, it returns
`n + 1` (as an int64), and the cache holds that number under the key afterwards; otherwise it fails and changes
nothing.  Other keys are not affected. -/
theorem C02_sequential_incr (h : List Op) (k : String) :
    (∀ n, Reads h k n → ∃ m, IsInt64Of (n + 1) m ∧ (incr (after h) k).2 = (m, .ok) ∧ Reads (h ++ [.incr k]) k m) ∧
    ((¬ ∃ n, Reads h k n) → (incr (after h) k).1 = after h ∧ (incr (after h) k).2.2 ≠ .ok) ∧
    (∀ j d, j ≠ k → get (after (h ++ [.incr k])) j d = get (after h) j d) := by
  refine ⟨?_, ?_, ?_⟩
  · intro n hn
    rw [reads_iff] at hn
    refine ⟨wrap64 (n + 1), isInt64Of_wrap _, by simp [incr, hn], ?_⟩
    rw [reads_iff, after_snoc]
    have hm : apply (after h) (.incr k) = put (after h) k (int64 (wrap64 (n + 1))) := by simp [apply, incr, hn]
    rw [hm]
    simp [incrRead, get, put, copyResult, copyTo, assignable, int64]
  · intro hno
    rcases incrRead_eq (after h) k with ⟨n, -, h2⟩ | ⟨-, o, ho, h2⟩
    · exact absurd ⟨n, (reads_iff h k n).2 h2⟩ hno
    · simp [incr, h2, ho]
  · intro j d hj
    rw [after_snoc]
    simp only [apply, incr]
    cases incrRead (after h) k with
    | error o => rfl
    | ok n => simp [get, put, hj]

/-! ### Concrete cases -/

example : LatestWrite [.put "a" (int64 1), .delete "a", .mset ["a", "b", "a"] [int64 2, int64 3, int64 4],
    .delete "b"] "a" (int64 4) := by
  refine ⟨[.put "a" (int64 1), .delete "a"], _, [.delete "b"], rfl,
    .mset _ _ 2 _ _ rfl rfl rfl ?_, ?_⟩
  · intro j hj
    match j with
    | 0 => omega
    | 1 => omega
    | 2 => omega
    | j + 3 => simp
  · intro a o b ho
    have : a = [] ∧ o = .delete "b" := by
      cases a with
      | nil => simp at ho; exact ⟨rfl, ho.1.symm⟩
      | cons x a => simp at ho
    obtain ⟨rfl, rfl⟩ := this
    rintro (h | ⟨v, h⟩)
    · simp at h
    · cases h

/-- A schedule of three Incr calls without overlap on one key, interleaved with one on another key. -/
example : ∃ s, cexec (cinit empty) [.start "k", .start "j", .finish 0, .start "k", .finish 1, .finish 2] = some s ∧
    NoOverlap s.log ∧ returns s.log "k" = [1, 2] ∧ counter empty "k" = some 0 := by
  refine ⟨_, by simp only [cexec, cstep, cinit, incrRead, get, empty, copyResult, int64]; rfl,
    ?_, by simp [returns, wrap64], by simp [counter, empty]⟩
  intro pre k hp
  rw [List.prefix_iff_eq_take] at hp
  rw [hp]
  generalize pre.length = n
  have h1 : ("k" = k ∧ "j" ≠ k) ∨ ("k" ≠ k ∧ "j" = k) ∨ ("k" ≠ k ∧ "j" ≠ k) := by
    by_cases a : "k" = k
    · subst a; simp
    · by_cases b : "j" = k <;> simp [a, b]
  match n with
  | 0 | 1 | 2 | 3 | 4 | 5 | n + 6 => rcases h1 with ⟨a, b⟩ | ⟨a, b⟩ | ⟨a, b⟩ <;> simp [started, ended, a, b]

example : counter (put empty "k" (.scalar "string" 3)) "k" = none := by simp [counter, put]

end Verif.Cache
