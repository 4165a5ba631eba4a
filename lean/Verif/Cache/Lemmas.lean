import Verif.Cache.Spec
/- Helper lemmas for the cache properties. -/
namespace Verif.Cache
open Verif.GoValue

theorem putAll_not_mem (ks : List String) : ∀ (m : Values) (vs : List GoVal) (k : String), k ∉ ks →
    putAll m ks vs k = m k := by
  induction ks with
  | nil => intro m vs k _; simp [putAll]
  | cons a ks ih =>
    intro m vs k hk
    cases vs with
    | nil => simp [putAll]
    | cons v vs =>
      simp only [putAll]
      rw [ih _ _ _ (by simp_all)]
      simp [put]; simp_all

theorem putAll_last (ks : List String) : ∀ (m : Values) (vs : List GoVal) (k : String) (v : GoVal) (i : Nat),
    ks.length = vs.length → ks[i]? = some k → vs[i]? = some v → (∀ j, i < j → ks[j]? ≠ some k) →
    putAll m ks vs k = some v := by
  induction ks with
  | nil => intro m vs k v i _ h; simp at h
  | cons a ks ih =>
    intro m vs k v i hl hk hv hlast
    cases vs with
    | nil => simp at hl
    | cons w vs =>
      simp only [putAll]
      cases i with
      | zero =>
        simp at hk hv
        subst hk hv
        rw [putAll_not_mem]
        · simp [put]
        · intro hm
          obtain ⟨j, hj⟩ := List.mem_iff_getElem?.1 hm
          exact hlast (j + 1) (by omega) (by simpa using hj)
      | succ i =>
        exact ih _ vs k v i (by simpa using hl) (by simpa using hk) (by simpa using hv)
          (fun j hj => by have := hlast (j + 1) (by omega); simpa using this)

theorem exists_last (ks : List String) (k : String) (h : k ∈ ks) :
    ∃ i : Nat, ks[i]? = some k ∧ ∀ j, i < j → ks[j]? ≠ some k := by
  induction ks with
  | nil => simp at h
  | cons a ks ih =>
    by_cases hm : k ∈ ks
    · obtain ⟨i, h1, h2⟩ := ih hm
      refine ⟨i + 1, by simpa using h1, ?_⟩
      intro j hj
      cases j with
      | zero => omega
      | succ j => simpa using h2 j (by omega)
    · have : k = a := by simpa [hm] using h
      subst this
      refine ⟨0, by simp, ?_⟩
      intro j hj
      cases j with
      | zero => omega
      | succ j =>
        intro hc
        exact hm (List.mem_iff_getElem?.2 ⟨j, by simpa using hc⟩)

/-! ### Incr -/

theorem incrRead_eq (m : Values) (k : String) :
    (∃ n, counter m k = some n ∧ incrRead m k = .ok n) ∨
    (counter m k = none ∧ ∃ o, o ≠ .ok ∧ incrRead m k = .error o) := by
  unfold counter incrRead get
  cases hm : m k with
  | none => left; simp [int64]
  | some v =>
    cases v with
    | nil => right; simp [copyResult, copyTo, Fail.toOutcome]
    | slice e vs => right; simp [copyResult, copyTo, Fail.toOutcome]
    | scalar t p =>
      by_cases ht : t = "int64"
      · subst ht; left; simp [copyResult, copyTo, assignable]
      · right
        simp only [copyResult, copyTo, assignable]
        simp [ht, Fail.toOutcome]

theorem wrap64_add (a b : Int) : wrap64 (wrap64 a + b) = wrap64 (a + b) := by
  simp [wrap64]

theorem wrap64_small {a : Int} (h1 : -2 ^ 63 ≤ a) (h2 : a < 2 ^ 63) : wrap64 a = a := by
  unfold wrap64
  rw [Int.bmod_eq_of_le] <;> omega


theorem isInt64Of_wrap (n : Int) : IsInt64Of n (wrap64 n) := by
  have h1 : -2 ^ 63 ≤ wrap64 n := by
    have := Int.le_bmod (x := n) (m := 2 ^ 64) (by decide)
    unfold wrap64; omega
  have h2 : wrap64 n < 2 ^ 63 := by
    have := Int.bmod_lt (x := n) (m := 2 ^ 64) (by decide)
    unfold wrap64; omega
  refine ⟨h1, h2, ?_⟩
  have h := Int.bmod_add_bdiv n (2 ^ 64)
  have h64 : ((2 ^ 64 : Nat) : Int) = 18446744073709551616 := by rfl
  refine ⟨Int.bdiv n (2 ^ 64), ?_⟩
  rw [h64] at h
  unfold wrap64
  omega

theorem isInt64Of_iff (n m : Int) : IsInt64Of n m ↔ m = wrap64 n := by
  constructor
  · rintro ⟨h1, h2, q, hq⟩
    obtain ⟨h3, h4, r, hr⟩ := isInt64Of_wrap n
    omega
  · rintro rfl; exact isInt64Of_wrap n

theorem reads_iff (h : List Op) (k : String) (n : Int) : Reads h k n ↔ incrRead (after h) k = .ok n := by
  unfold Reads incrRead
  simp only [int64]
  cases hm : after h k with
  | none =>
    simp only [get, hm]
    constructor
    · rintro ⟨-, h2⟩; cases h2; rfl
    · intro h; cases h; exact ⟨trivial, rfl⟩
  | some v =>
    simp only [get, hm]
    cases v with
    | nil => simp [copyResult, copyTo, Fail.toOutcome]
    | slice e vs => simp [copyResult, copyTo, Fail.toOutcome]
    | scalar t p =>
      by_cases ht : t = "int64"
      · subst ht; simp [copyResult, copyTo, assignable]
      · simp only [copyResult, copyTo, assignable]
        simp [ht, Fail.toOutcome]

theorem apply_writes {h op k v} (hw : Writes h op k v) : apply (after h) op k = some v := by
  cases hw with
  | put => simp [apply, put]
  | mset ks vs i _ _ hl hk hv hlast =>
    simp only [apply, mset, hl]
    simp only [ne_eq, not_true, if_false]
    exact putAll_last ks _ vs k v i hl hk hv hlast
  | incr _ n m hr hm =>
    rw [reads_iff] at hr
    rw [isInt64Of_iff] at hm
    subst hm
    simp [apply, incr, hr, put, int64]

theorem apply_untouched {h op k} (ht : ¬ Touches h op k) : apply (after h) op k = after h k := by
  cases op with
  | put k' v =>
    have : k ≠ k' := by
      rintro rfl; exact ht (.inr ⟨v, .put _ _⟩)
    simp [apply, put, this]
  | get => rfl
  | mget => rfl
  | delete k' =>
    have : k ≠ k' := by rintro rfl; exact ht (.inl rfl)
    simp [apply, delete, this]
  | incr k' =>
    simp only [apply, incr]
    cases hr : incrRead (after h) k' with
    | error o => rfl
    | ok n =>
      have : k ≠ k' := by
        rintro rfl
        exact ht (.inr ⟨_, .incr _ n _ ((reads_iff h k n).2 hr) (isInt64Of_wrap _)⟩)
      simp [put, this]
  | mset ks vs =>
    simp only [apply, mset]
    split
    · rfl
    · rename_i hl
      have hl : ks.length = vs.length := by simpa using hl
      apply putAll_not_mem
      intro hm
      obtain ⟨i, h1, h2⟩ := exists_last ks k hm
      have hi : i < vs.length := by
        have := (List.getElem?_eq_some_iff.1 h1).1
        omega
      exact ht (.inr ⟨vs[i], .mset ks vs i k _ hl h1 (by simp [hi]) h2⟩)

theorem not_writes_delete {h k v k'} : ¬ Writes h (.delete k') k v := by intro h; cases h

theorem latestWrite_snoc {h op k v} : LatestWrite (h ++ [op]) k v ↔
    Writes h op k v ∨ (¬ Touches h op k ∧ LatestWrite h k v) := by
  constructor
  · rintro ⟨pre, o, post, he, hw, hp⟩
    rcases List.eq_nil_or_concat post with rfl | ⟨post', y, rfl⟩
    · left
      have := List.append_inj' (s₂ := pre) (t₂ := [o]) he rfl
      have h2 : op = o := by simpa using this.2
      rw [h2, this.1]; exact hw
    · right
      have he : h ++ [op] = (pre ++ o :: post') ++ [y] := by simpa using he
      have := List.append_inj' he rfl
      have hy : op = y := by simpa using this.2
      subst hy
      refine ⟨?_, pre, o, post', this.1, hw, fun a x b hx => hp a x (b ++ [op]) (by simp [hx])⟩
      rw [this.1]
      exact hp post' op [] (by simp)
  · rintro (hw | ⟨ht, pre, o, post, he, hw, hp⟩)
    · exact ⟨h, op, [], rfl, hw, by simp⟩
    · refine ⟨pre, o, post ++ [op], by simp [he], hw, ?_⟩
      intro a x b hx
      rcases List.eq_nil_or_concat b with rfl | ⟨b', y, rfl⟩
      · have := List.append_inj' (s₂ := a) (t₂ := [x]) hx rfl
        have h2 : op = x := by simpa using this.2
        rw [← h2, ← this.1, ← he]; exact ht
      · have hx : post ++ [op] = (a ++ x :: b') ++ [y] := by simpa using hx
        exact hp a x b' (List.append_inj' hx rfl).1

theorem after_snoc (h op) : after (h ++ [op]) = apply (after h) op := by simp [after]

theorem after_eq_some (r : List Op) : ∀ k v, after r.reverse k = some v ↔ LatestWrite r.reverse k v := by
  induction r with
  | nil =>
    intro k v
    simp [after, empty, LatestWrite]
  | cons op r ih =>
    intro k v
    rw [List.reverse_cons, after_snoc, latestWrite_snoc]
    by_cases ht : Touches r.reverse op k
    · rcases ht with rfl | ⟨w, hw⟩
      · have ht : Touches r.reverse (.delete k) k := .inl rfl
        simp [apply, delete, not_writes_delete, ht]
      · have ht : Touches r.reverse op k := .inr ⟨w, hw⟩
        rw [apply_writes hw]
        constructor
        · intro h; cases h; exact .inl hw
        · rintro (h | h)
          · have := apply_writes hw
            rw [apply_writes h] at this
            exact this.symm
          · exact absurd ht h.1
    · rw [apply_untouched ht, ih]
      constructor
      · intro h; exact .inr ⟨ht, h⟩
      · rintro (h | h)
        · exact absurd (.inr ⟨v, h⟩) ht
        · exact h.2

@[simp] theorem returns_append (a b k) : returns (a ++ b) k = returns a k ++ returns b k := by simp [returns]
@[simp] theorem started_append (a b k) : started (a ++ b) k = started a k + started b k := by simp [started]
@[simp] theorem ended_append (a b k) : ended (a ++ b) k = ended a k + ended b k := by simp [ended]

theorem NoOverlap.prefix {a b} (h : NoOverlap (a ++ b)) : NoOverlap a :=
  fun pre k hp => h pre k (hp.trans (List.prefix_append a b))

/-- The two ways to start and the way to finish. -/
inductive CShape (s : CState) : CState → Prop where
  | fail (k o) : counter s.values k = none → CShape s { s with
      next := s.next + 1, log := s.log ++ [.start s.next k, .fail s.next k o] }
  | start (k n) : counter s.values k = some n → CShape s { s with
      pending := fun c => if c = s.next then some (k, n) else s.pending c,
      next := s.next + 1, log := s.log ++ [.start s.next k] }
  | finish (c k n) : s.pending c = some (k, n) → CShape s { s with
      values := put s.values k (int64 (wrap64 (n + 1))),
      pending := fun d => if d = c then none else s.pending d,
      log := s.log ++ [.ret c k (wrap64 (n + 1))] }

theorem cstep_shape {s a s'} (h : cstep s a = some s') : CShape s s' := by
  cases a with
  | start k =>
    simp only [cstep] at h
    rcases incrRead_eq s.values k with ⟨n, h1, h2⟩ | ⟨h1, o, _, h2⟩
    · simp only [h2] at h; cases h; exact .start k n h1
    · simp only [h2] at h; cases h; exact .fail k o h1
  | finish c =>
    simp only [cstep] at h
    cases hp : s.pending c with
    | none => simp [hp] at h
    | some x => simp only [hp] at h; cases h; exact .finish c x.1 x.2 hp

theorem counter_put_same (m k n) : counter (put m k (int64 n)) k = some n := by
  simp [counter, put, int64]

theorem counter_put_other (m) {k k'} (v) (h : k ≠ k') : counter (put m k' v) k = counter m k := by
  simp [counter, put, h]

/-- Generic induction over schedules for an invariant that may rely on a prefix-closed assumption on the
history. -/
theorem cexec_induct {P : List Event → Prop} {I : CState → Prop}
    (hpre : ∀ a b, P (a ++ b) → P a)
    (hstep : ∀ s s', I s → P s'.log → CShape s s' → I s')
    (acts : List CAct) : ∀ s s', cexec s acts = some s' → I s → P s'.log → I s' := by
  have hmono : ∀ (acts : List CAct) s s', cexec s acts = some s' → ∃ l, s'.log = s.log ++ l := by
    intro acts
    induction acts with
    | nil => intro s s' h; simp [cexec] at h; exact ⟨[], by simp [h]⟩
    | cons a as ih =>
      intro s s' h
      simp only [cexec] at h
      cases hs : cstep s a with
      | none => simp [hs] at h
      | some t =>
        simp only [hs] at h
        obtain ⟨l, hl⟩ := ih t s' h
        have := cstep_shape hs
        cases this <;> exact ⟨_, by rw [hl, List.append_assoc]⟩
  induction acts with
  | nil => intro s s' h hi _; simp [cexec] at h; exact h ▸ hi
  | cons a as ih =>
    intro s s' h hi hP
    simp only [cexec] at h
    cases hs : cstep s a with
    | none => simp [hs] at h
    | some t =>
      simp only [hs] at h
      obtain ⟨l, hl⟩ := hmono as t s' h
      exact ih t s' h (hstep s t hi (hpre t.log l (hl ▸ hP)) (cstep_shape hs)) hP

/-- Invariant for one key while Incr calls do not overlap. -/
structure CInv (k : String) (b : Int) (s : CState) : Prop where
  count : counter s.values k = some (wrap64 (b + (returns s.log k).length))
  rets : returns s.log k = (List.range (returns s.log k).length).map fun i => wrap64 (b + (i + 1 : Nat))
  pend : ∀ c n, s.pending c = some (k, n) → n = wrap64 (b + (returns s.log k).length)
  quiet : (∀ c n, s.pending c ≠ some (k, n)) → started s.log k = ended s.log k
  busy : ∀ c n, s.pending c = some (k, n) → started s.log k = ended s.log k + 1
  uniq : ∀ c d n n', s.pending c = some (k, n) → s.pending d = some (k, n') → c = d
  lt : ∀ c x, s.pending c = some x → c < s.next

theorem cinv_step {k b s s'} (h : CInv k b s) (hP : NoOverlap s'.log) (hs : CShape s s') : CInv k b s' := by
  obtain ⟨count, rets, pend, quiet, busy, uniq, lt⟩ := h
  cases hs with
  | fail k' o hc =>
    have hk : k' ≠ k := by rintro rfl; simp [hc] at count
    refine ⟨by simpa [returns] using count, by simpa [returns] using rets, by simpa [returns] using pend, ?_,
      ?_, uniq, fun c x hx => by have := lt c x hx; simp; omega⟩
    · intro hq; have := quiet hq; simp [started, ended, hk] at this ⊢; exact this
    · intro c n hq; have := busy c n hq; simp [started, ended, hk] at this ⊢; exact this
  | start k' n hc =>
    by_cases hk : k' = k
    · subst hk
      have hn : n = wrap64 (b + (returns s.log k').length) := by rw [count] at hc; simpa using hc.symm
      have hnp : ∀ c m, s.pending c ≠ some (k', m) := by
        intro c m hp
        have h1 := busy c m hp
        have h2 := hP _ k' (List.prefix_refl _)
        simp [started, ended] at h1 h2
        omega
      have hse := quiet hnp
      have hr : returns (s.log ++ [.start s.next k']) k' = returns s.log k' := by simp [returns]
      refine ⟨by simp only [hr]; exact count, by simp only [hr]; exact rets, ?_, ?_, ?_, ?_, ?_⟩
      · intro c m hp
        simp only [hr]
        by_cases hcn : c = s.next
        · simp [hcn] at hp; omega
        · simp [hcn] at hp; exact absurd hp (hnp c m)
      · intro hq; exact absurd (by simp) (hq s.next n)
      · intro c m _; simp [hse]; simp [started, ended]
      · intro c d m m' h1 h2
        by_cases hcn : c = s.next <;> by_cases hdn : d = s.next
        · omega
        · simp [hdn] at h2; exact absurd h2 (hnp d m')
        · simp [hcn] at h1; exact absurd h1 (hnp c m)
        · simp [hcn] at h1; exact absurd h1 (hnp c m)
      · intro c x hx
        by_cases hcn : c = s.next
        · simp [hcn]
        · simp [hcn] at hx; have := lt c x hx; simp; omega
    · have hr : returns (s.log ++ [.start s.next k']) k = returns s.log k := by simp [returns]
      have hst : started (s.log ++ [.start s.next k']) k = started s.log k := by simp [started, hk]
      have hen : ended (s.log ++ [.start s.next k']) k = ended s.log k := by simp [ended]
      have hpk : ∀ c m, (if c = s.next then some (k', n) else s.pending c) = some (k, m) →
          s.pending c = some (k, m) := by
        intro c m hp
        by_cases hcn : c = s.next
        · simp [hcn] at hp; exact absurd hp.1 hk
        · simpa [hcn] using hp
      refine ⟨by simp only [hr]; exact count, by simp only [hr]; exact rets, ?_, ?_, ?_, ?_, ?_⟩
      · intro c m hp; simp only [hr]; exact pend c m (hpk c m hp)
      · intro hq
        simp only [hst, hen]
        apply quiet
        intro c m hp
        have hlt := lt c _ hp
        apply hq c m
        have : c ≠ s.next := by omega
        simpa [this] using hp
      · intro c m hp; simp only [hst, hen]; exact busy c m (hpk c m hp)
      · intro c d m m' h1 h2; exact uniq c d m m' (hpk c m h1) (hpk d m' h2)
      · intro c x hx
        by_cases hcn : c = s.next
        · simp [hcn]
        · simp [hcn] at hx; have := lt c x hx; simp; omega
  | finish c k' n hc =>
    by_cases hk : k' = k
    · subst hk
      have hn := pend c n hc
      have hval : wrap64 (n + 1) = wrap64 (b + ((returns s.log k').length + 1 : Nat)) := by
        rw [hn, wrap64_add]; congr 1; push_cast; omega
      have hr : returns (s.log ++ [.ret c k' (wrap64 (n + 1))]) k' = returns s.log k' ++ [wrap64 (n + 1)] := by
        simp [returns]
      have hno : ∀ d m, (if d = c then none else s.pending d) ≠ some (k', m) := by
        intro d m hp
        by_cases hd : d = c
        · simp [hd] at hp
        · simp [hd] at hp; exact hd (uniq d c m n hp hc)
      refine ⟨?_, ?_, fun d m hp => absurd hp (hno d m), ?_, fun d m hp => absurd hp (hno d m),
        fun d _ m _ hp => absurd hp (hno d m), ?_⟩
      · show counter (put s.values k' (int64 (wrap64 (n + 1)))) k' = _
        rw [hr, counter_put_same, hval]; simp
      · simp only [hr]
        rw [List.length_append, List.length_singleton, List.range_succ, List.map_append, ← rets, hval]
        simp
      · intro _
        have := busy c n hc
        simp [started_append, ended_append, this]; simp [started, ended]
      · intro d x hx
        by_cases hd : d = c
        · simp [hd] at hx
        · simp [hd] at hx; exact lt d x hx
    · have hr : returns (s.log ++ [.ret c k' (wrap64 (n + 1))]) k = returns s.log k := by simp [returns, hk]
      have hst : started (s.log ++ [.ret c k' (wrap64 (n + 1))]) k = started s.log k := by simp [started]
      have hen : ended (s.log ++ [.ret c k' (wrap64 (n + 1))]) k = ended s.log k := by simp [ended, hk]
      have hpk : ∀ d m, (if d = c then none else s.pending d) = some (k, m) → s.pending d = some (k, m) := by
        intro d m hp
        by_cases hd : d = c
        · simp [hd] at hp
        · simpa [hd] using hp
      refine ⟨by simp only [hr, counter_put_other _ _ (Ne.symm hk)]; exact count,
        by simp only [hr]; exact rets, ?_, ?_, ?_, ?_, ?_⟩
      · intro d m hp; simp only [hr]; exact pend d m (hpk d m hp)
      · intro hq
        simp only [hst, hen]
        apply quiet
        intro d m hp
        apply hq d m
        have : d ≠ c := by rintro rfl; rw [hc] at hp; simp at hp; exact hk hp.1
        simpa [this] using hp
      · intro d m hp; simp only [hst, hen]; exact busy d m (hpk d m hp)
      · intro d e m m' h1 h2; exact uniq d e m m' (hpk d m h1) (hpk e m' h2)
      · intro d x hx
        by_cases hd : d = c
        · simp [hd] at hx
        · simp [hd] at hx; exact lt d x hx

/-- Invariant for one key in any schedule: no lost update can push the counter beyond the number of calls. -/
structure BInv (k : String) (b : Int) (s : CState) : Prop where
  count : ∃ v, counter s.values k = some v ∧ b ≤ v ∧ v ≤ b + (returns s.log k).length ∧
    ((returns s.log k) ≠ [] → b + 1 ≤ v)
  pend : ∀ c n, s.pending c = some (k, n) → b ≤ n ∧ n ≤ b + (returns s.log k).length
  rets : ∀ n ∈ returns s.log k, b + 1 ≤ n ∧ n ≤ b + (returns s.log k).length

theorem binv_step {k b s s'} (hb : -2 ^ 63 ≤ b) (h : BInv k b s)
    (hP : b + (returns s'.log k).length < 2 ^ 63) (hs : CShape s s') : BInv k b s' := by
  obtain ⟨count, pend, rets⟩ := h
  cases hs with
  | fail k' o hc => exact ⟨by simpa [returns] using count, by simpa [returns] using pend, by simpa [returns] using rets⟩
  | start k' n hc =>
    have hr : returns (s.log ++ [.start s.next k']) k = returns s.log k := by simp [returns]
    refine ⟨by simp only [hr]; exact count, ?_, by simp only [hr]; exact rets⟩
    intro c m hp
    simp only [hr]
    by_cases hcn : c = s.next
    · simp [hcn] at hp
      obtain ⟨rfl, rfl⟩ := hp
      obtain ⟨v, h1, h2, h3, _⟩ := count
      rw [h1] at hc; cases hc; exact ⟨h2, h3⟩
    · simp [hcn] at hp; exact pend c m hp
  | finish c k' n hc =>
    by_cases hk : k' = k
    · subst hk
      have hr : returns (s.log ++ [.ret c k' (wrap64 (n + 1))]) k' = returns s.log k' ++ [wrap64 (n + 1)] := by
        simp [returns]
      simp only [hr, List.length_append, List.length_singleton] at hP
      have hn := pend c n hc
      have hw : wrap64 (n + 1) = n + 1 := wrap64_small (by omega) (by push_cast at hP; omega)
      refine ⟨⟨n + 1, ?_, ?_, ?_, ?_⟩, ?_, ?_⟩
      · simp only [counter_put_same, hw]
      · omega
      · simp only [hr, List.length_append, List.length_singleton]; push_cast; omega
      · intro _; omega
      · intro d m hp
        simp only [hr, List.length_append, List.length_singleton]
        by_cases hd : d = c
        · simp [hd] at hp
        · simp [hd] at hp; have := pend d m hp; push_cast; omega
      · intro m hm
        simp only [hr, List.length_append, List.length_singleton] at hm ⊢
        rcases List.mem_append.1 hm with hm | hm
        · have := rets m hm; push_cast; omega
        · simp at hm; subst hm; rw [hw]; push_cast; omega
    · have hr : returns (s.log ++ [.ret c k' (wrap64 (n + 1))]) k = returns s.log k := by simp [returns, hk]
      refine ⟨by simp only [hr, counter_put_other _ _ (Ne.symm hk)]; exact count, ?_, by simp only [hr]; exact rets⟩
      intro d m hp
      simp only [hr]
      by_cases hd : d = c
      · simp [hd] at hp
      · simp [hd] at hp; exact pend d m hp

/-- A key that holds something other than a counter is never touched. -/
structure XInv (k : String) (m : Values) (s : CState) : Prop where
  same : s.values k = m k
  pend : ∀ c n, s.pending c ≠ some (k, n)
  rets : returns s.log k = []

theorem xinv_step {k m s s'} (hm : counter m k = none) (h : XInv k m s) (hs : CShape s s') : XInv k m s' := by
  obtain ⟨same, pend, rets⟩ := h
  have hcs : counter s.values k = none := by simpa [counter, same] using hm
  cases hs with
  | fail k' o hc => exact ⟨same, pend, by simpa [returns] using rets⟩
  | start k' n hc =>
    have hk : k' ≠ k := by rintro rfl; simp [hcs] at hc
    refine ⟨same, ?_, by simpa [returns] using rets⟩
    intro c m hp
    by_cases hcn : c = s.next
    · simp [hcn] at hp; exact hk hp.1
    · simp [hcn] at hp; exact pend c m hp
  | finish c k' n hc =>
    have hk : k' ≠ k := by rintro rfl; exact pend c n hc
    refine ⟨by simp [put, Ne.symm hk, same], ?_, by simpa [returns, hk] using rets⟩
    intro d m hp
    by_cases hd : d = c
    · simp [hd] at hp
    · simp [hd] at hp; exact pend d m hp

end Verif.Cache
