import Verif.Wrappers.Spec
/-
C47 (load balancer) and C48 (timeouts).
-/
namespace Verif.Wrappers

/-! ### Load balancer -/

/-- What holds in every state: the picks so far are 0, 1, …, n-1, 0, 1, …; the
goroutine inside the critical section is the one holding the mutex; and `idx` is
the next client unless that goroutine has picked and not yet advanced it. -/
structure LbInv (n : Nat) (s : Lb) : Prop where
  picks : s.picks = (List.range s.picks.length).map (· % n)
  inside : ∀ t, (s.pc t = .locked ∨ (∃ c, s.pc t = .picked c) ∨ (∃ c, s.pc t = .advanced c)) →
    s.holder = some t
  next : (∀ t c, s.pc t ≠ .picked c) → s.idx = s.picks.length % n
  mid : ∀ t c, s.pc t = .picked c → (s.idx + 1) % n = s.picks.length % n ∧ c = s.idx

theorem LbInv.init (n : Nat) : LbInv n Lb.init := by
  refine ⟨rfl, ?_, ?_, ?_⟩
  · intro t h; simp [Lb.init] at h
  · intro _; simp [Lb.init]
  · intro t c h; simp [Lb.init] at h

theorem LbInv.step {n : Nat} (hn : 0 < n) {s : Lb} (h : LbInv n s) (a : LbAct) :
    LbInv n (s.step n a) := by
  obtain ⟨hp, hin, hnext, hmid⟩ := h
  cases a with
  | lock t =>
    simp only [Lb.step]
    split
    · rename_i hpc hh
      refine ⟨hp, ?_, ?_, ?_⟩
      · intro u hu
        simp only at hu ⊢
        by_cases hut : u = t
        · rw [hut]
        · simp only [hut, if_false] at hu
          have := hin u hu
          rw [hh] at this; exact absurd this (by simp)
      · intro hno
        refine hnext ?_
        intro u c hu
        have := hno u c
        by_cases hut : u = t
        · rw [hut, hpc] at hu; exact absurd hu (by simp)
        · simp only [hut, if_false] at this; exact this hu
      · intro u c hu
        by_cases hut : u = t
        · simp [hut] at hu
        · simp only [hut, if_false] at hu; exact hmid u c hu
    · exact ⟨hp, hin, hnext, hmid⟩
  | pick t =>
    simp only [Lb.step]
    split
    · rename_i hpc
      have hh := hin t (Or.inl hpc)
      have others : ∀ u c, s.pc u ≠ .picked c := by
        intro u c hu
        have := hin u (Or.inr (Or.inl ⟨c, hu⟩))
        rw [hh, Option.some.injEq] at this
        rw [← this, hpc] at hu; exact absurd hu (by simp)
      have hidx := hnext others
      have hlt : s.idx < n := by rw [hidx]; exact Nat.mod_lt _ hn
      rw [if_pos hlt]
      refine ⟨?_, ?_, ?_, ?_⟩
      · simp only [List.length_append, List.length_singleton, List.range_succ, List.map_append,
          List.map_cons, List.map_nil]
        rw [← hp, hidx]
      · intro u hu
        simp only at hu ⊢
        by_cases hut : u = t
        · rw [hut]; exact hh
        · simp only [hut, if_false] at hu; exact hin u hu
      · intro hno
        exact absurd (by simp) (hno t s.idx)
      · intro u c hu
        by_cases hut : u = t
        · simp only [hut, if_true, LbPc.picked.injEq] at hu
          refine ⟨?_, hu.symm⟩
          simp only [List.length_append, List.length_singleton]
          rw [hidx, Nat.mod_add_mod]
        · simp only [hut, if_false] at hu; exact absurd hu (others u c)
    · exact ⟨hp, hin, hnext, hmid⟩
  | advance t =>
    simp only [Lb.step]
    split
    · rename_i c hpc
      have hh := hin t (Or.inr (Or.inl ⟨c, hpc⟩))
      obtain ⟨hm, -⟩ := hmid t c hpc
      have others : ∀ u d, u ≠ t → s.pc u ≠ .picked d := by
        intro u d hut hu
        have := hin u (Or.inr (Or.inl ⟨d, hu⟩))
        rw [hh, Option.some.injEq] at this
        exact hut this.symm
      refine ⟨hp, ?_, ?_, ?_⟩
      · intro u hu
        simp only at hu ⊢
        by_cases hut : u = t
        · rw [hut]; exact hh
        · simp only [hut, if_false] at hu; exact hin u hu
      · intro _; exact hm
      · intro u d hu
        by_cases hut : u = t
        · simp [hut] at hu
        · simp only [hut, if_false] at hu; exact absurd hu (others u d hut)
    · exact ⟨hp, hin, hnext, hmid⟩
  | unlock t =>
    simp only [Lb.step]
    split
    · rename_i c hpc
      have hh := hin t (Or.inr (Or.inr ⟨c, hpc⟩))
      refine ⟨hp, ?_, ?_, ?_⟩
      · intro u hu
        by_cases hut : u = t
        · simp [hut] at hu
        · simp only [hut, if_false] at hu
          have := hin u hu
          rw [hh, Option.some.injEq] at this
          exact absurd this.symm hut
      · intro hno
        refine hnext ?_
        intro u d hu
        have := hno u d
        by_cases hut : u = t
        · rw [hut, hpc] at hu; exact absurd hu (by simp)
        · simp only [hut, if_false] at this; exact this hu
      · intro u d hu
        by_cases hut : u = t
        · simp [hut] at hu
        · simp only [hut, if_false] at hu; exact hmid u d hu
    · exact ⟨hp, hin, hnext, hmid⟩

theorem LbInv.exec {n : Nat} (hn : 0 < n) (as : List LbAct) : ∀ {s : Lb}, LbInv n s →
    LbInv n (s.exec n as) := by
  induction as with
  | nil => intro s h; exact h
  | cons a as ih => intro s h; exact ih (h.step hn a)

/-- **C47**, order.  With at least one client, under every schedule of any number
of goroutines, the i-th pick goes to client `i mod n`. -/
theorem C47_round_robin (n : Nat) (hn : 0 < n) (as : List LbAct) (i : Nat)
    (hi : i < (Lb.init.exec n as).picks.length) :
    (Lb.init.exec n as).picks[i]? = some (i % n) := by
  have h := (LbInv.exec hn as (LbInv.init n)).picks
  rw [h, List.getElem?_map, List.getElem?_range hi]; rfl

theorem count_mod_window (n : Nat) (hn : 0 < n) (c : Nat) (hc : c < n) :
    ∀ (k start : Nat),
      (((List.range (n * k)).map fun j => (start + j) % n).count c) = k := by
  have one : ∀ start, ((List.range n).map fun j => (start + j) % n).count c = 1 := by
    intro start
    -- the position that maps to c
    have hs : start % n < n := Nat.mod_lt _ hn
    have inj : ∀ j, j < n → ((start + j) % n = c ↔ j = (c + n - start % n) % n) := by
      intro j hj
      have e1 : (start + j) % n = (start % n + j) % n := by rw [Nat.mod_add_mod]
      rw [e1]
      generalize start % n = q at *
      have hmod : ∀ x, x < 2 * n → x % n = if x < n then x else x - n := by
        intro x hx
        split
        · exact Nat.mod_eq_of_lt (by assumption)
        · rw [Nat.mod_eq_sub_mod (by omega), Nat.mod_eq_of_lt (by omega)]
      rw [hmod (q + j) (by omega), hmod (c + n - q) (by omega)]
      split <;> split <;> omega
    have e2 : ((List.range n).map fun j => (start + j) % n).count c
        = (List.range n).count ((c + n - start % n) % n) := by
      rw [List.count_eq_countP, List.count_eq_countP, List.countP_map]
      refine List.countP_congr ?_
      intro j hj
      have := inj j (List.mem_range.1 hj)
      simp only [Function.comp, beq_iff_eq]
      exact this
    rw [e2]
    rw [List.count_eq_countP]
    have := List.nodup_range.count (α := Nat) (a := (c + n - start % n) % n) (l := List.range n)
    rw [List.count_eq_countP] at this
    rw [this, if_pos (List.mem_range.2 (Nat.mod_lt _ hn))]
  intro k
  induction k with
  | zero => intro start; simp
  | succ k ih =>
    intro start
    have e : (List.range (n * (k + 1))).map (fun j => (start + j) % n)
        = (List.range n).map (fun j => (start + j) % n)
          ++ (List.range (n * k)).map (fun j => (start + n + j) % n) := by
      rw [Nat.mul_succ, Nat.add_comm (n * k) n, List.range_add, List.map_append, List.map_map]
      congr 1
      refine List.map_congr_left ?_
      intro j _
      simp only [Function.comp]
      congr 1; omega
    rw [e, List.count_append, one, ih]
    omega

/-- **C47**, fairness.  Any `n·k` consecutive picks use each of the `n` clients
exactly `k` times. -/
theorem C47_fair (n : Nat) (as : List LbAct) (start k c : Nat) (hc : c < n)
    (hlen : start + n * k ≤ (Lb.init.exec n as).picks.length) :
    (((Lb.init.exec n as).picks.drop start).take (n * k)).count c = k := by
  have hn : 0 < n := by omega
  have hw : ((Lb.init.exec n as).picks.drop start).take (n * k)
      = (List.range (n * k)).map fun j => (start + j) % n := by
    apply List.ext_getElem?
    intro i
    by_cases hi : i < n * k
    · rw [List.getElem?_take_of_lt hi, List.getElem?_drop, C47_round_robin n hn as _ (by omega),
        List.getElem?_map, List.getElem?_range hi]; rfl
    · rw [List.getElem?_eq_none (by rw [List.length_take]; omega),
        List.getElem?_eq_none (by simp; omega)]
  rw [hw]
  exact count_mod_window n hn c hc k start

/-- **C47**: what a goroutine is handed is the pick it made while it held the
mutex, and at most one goroutine is inside at a time. -/
theorem C47_exclusive (n : Nat) (hn : 0 < n) (as : List LbAct) (t u : Nat) (c d : Nat)
    (ht : (Lb.init.exec n as).pc t = .picked c) (hu : (Lb.init.exec n as).pc u = .picked d) :
    t = u ∧ (Lb.init.exec n as).picks.getLast? = some c := by
  have h := LbInv.exec hn as (LbInv.init n)
  have h1 := h.inside t (Or.inr (Or.inl ⟨c, ht⟩))
  have h2 := h.inside u (Or.inr (Or.inl ⟨d, hu⟩))
  rw [h1, Option.some.injEq] at h2
  refine ⟨h2, ?_⟩
  have key : ∀ (as : List LbAct) (s : Lb),
      (∀ t c, s.pc t = .picked c → s.picks.getLast? = some c) → LbInv n s →
      ∀ t c, (s.exec n as).pc t = .picked c → (s.exec n as).picks.getLast? = some c := by
    intro as
    induction as with
    | nil => intro s hs _; exact hs
    | cons a as ih =>
      intro s hs hi
      refine ih (s.step n a) ?_ (hi.step hn a)
      intro t c htc
      have inv := hi.step hn a
      cases a with
      | lock v =>
        simp only [Lb.step] at htc ⊢
        split at htc
        · rename_i hpc hh
          simp only at htc ⊢
          split at htc
          · exact absurd htc (by simp)
          · exact hs t c htc
        · exact hs t c htc
      | pick v =>
        simp only [Lb.step] at htc ⊢
        split at htc
        · rename_i hpc
          split at htc
          · rename_i hlt
            simp only [hlt, if_true] at htc ⊢
            by_cases htv : t = v
            · simp only [htv, if_true, LbPc.picked.injEq] at htc
              rw [List.getLast?_append]; simp [htc]
            · simp only [htv, if_false] at htc
              have g1 := hi.inside t (Or.inr (Or.inl ⟨c, htc⟩))
              have g2 := hi.inside v (Or.inl hpc)
              rw [g1, Option.some.injEq] at g2
              exact absurd g2 htv
          · rename_i hlt
            simp only [hlt, if_false] at htc ⊢
            split at htc
            · exact absurd htc (by simp)
            · exact hs t c htc
        · exact hs t c htc
      | advance v =>
        simp only [Lb.step] at htc ⊢
        split at htc
        · simp only at htc ⊢
          split at htc
          · exact absurd htc (by simp)
          · exact hs t c htc
        · exact hs t c htc
      | unlock v =>
        simp only [Lb.step] at htc ⊢
        split at htc
        · simp only at htc ⊢
          split at htc
          · exact absurd htc (by simp)
          · exact hs t c htc
        · exact hs t c htc
  exact key as Lb.init (by intro t c h; simp [Lb.init] at h) (LbInv.init n) t c ht

/-- **C47 refuted** for a balancer without clients: a call panics instead of
returning an error. -/
theorem C47_no_clients_refuted :
    (Lb.init.exec 0 [.lock 7, .pick 7]).pc 7 = .panicked := by
  simp [Lb.exec, Lb.step, Lb.init]

/-- Three clients, two interleaved goroutines. -/
example : (Lb.init.exec 3 [.lock 1, .pick 1, .lock 2, .advance 1, .unlock 1, .lock 2, .pick 2,
    .advance 2, .unlock 2, .lock 1, .pick 1, .advance 1, .unlock 1, .lock 2, .pick 2]).picks
    = [0, 1, 2, 0] := by decide

/-! ### Timeouts -/

section Timeouts
variable {V E : Type}

/-- What holds of the helper goroutine in every state. -/
def HelperInv (zero : V) (s : Tmo V E) : Prop :=
  match s.helper with
  | .calling => s.result = none ∧ s.val = zero
  | .assignVal r => s.result = some r ∧ s.val = zero
  | .assignErr r => s.result = some r ∧ s.val = r.val
  | .sending => ∃ r, s.result = some r ∧ s.val = r.val
  | .finished => ∃ r, s.result = some r ∧ s.val = r.val

/-- The error is the timeout error or the one of the wrapped call. -/
def ErrOk (s : Tmo V E) (e : Option (TErr E)) : Prop :=
  e = some .timedOut ∨ ∃ r, s.result = some r ∧ e = r.err.map .ofCall

/-- The value is the zero value or the one of the wrapped call. -/
def ValOk (zero : V) (s : Tmo V E) (v : V) : Prop :=
  v = zero ∨ ∃ r, s.result = some r ∧ v = r.val

/-- What holds of the caller in every state. -/
def CallerInv (zero : V) (s : Tmo V E) : Prop :=
  match s.caller with
  | .selecting => s.helper ≠ .finished ∧
      (s.helper = .sending → ∃ r, s.result = some r ∧ s.err = r.err.map .ofCall)
  | .timeout => s.ctxDone = true ∧ s.helper ≠ .finished
  | .returning true => s.ctxDone = true ∧ s.helper ≠ .finished ∧ ErrOk s s.err
  | .readVal true v => s.ctxDone = true ∧ s.helper ≠ .finished ∧ ErrOk s s.err ∧ ValOk zero s v
  | .returned true v e => s.ctxDone = true ∧ s.helper ≠ .finished ∧ ErrOk s e ∧ ValOk zero s v
  | .returning false => s.helper = .finished ∧
      ∃ r, s.result = some r ∧ s.val = r.val ∧ s.err = r.err.map .ofCall
  | .readVal false v => s.helper = .finished ∧
      ∃ r, s.result = some r ∧ v = r.val ∧ s.err = r.err.map .ofCall
  | .returned false v e => s.helper = .finished ∧
      ∃ r, s.result = some r ∧ v = r.val ∧ e = r.err.map .ofCall

def TmoInv (zero : V) (s : Tmo V E) : Prop := HelperInv zero s ∧ CallerInv zero s

theorem TmoInv.init (zero : V) : TmoInv zero (Tmo.init zero : Tmo V E) := by
  simp [TmoInv, HelperInv, CallerInv, Tmo.init]

theorem ErrOk.mono {s s' : Tmo V E} {e : Option (TErr E)} (h : ErrOk s e)
    (hr : ∀ r, s.result = some r → s'.result = some r) : ErrOk s' e := by
  rcases h with h | ⟨r, h1, h2⟩
  · exact Or.inl h
  · exact Or.inr ⟨r, hr r h1, h2⟩

theorem ValOk.mono {zero : V} {s s' : Tmo V E} {v : V} (h : ValOk zero s v)
    (hr : ∀ r, s.result = some r → s'.result = some r) : ValOk zero s' v := by
  rcases h with h | ⟨r, h1, h2⟩
  · exact Or.inl h
  · exact Or.inr ⟨r, hr r h1, h2⟩

theorem HelperInv.valOk {zero : V} {s : Tmo V E} (h : HelperInv zero s) : ValOk zero s s.val := by
  unfold HelperInv at h
  split at h
  · exact Or.inl h.2
  · exact Or.inl h.2
  · exact Or.inr ⟨_, h.1, h.2⟩
  · exact Or.inr h
  · exact Or.inr h

theorem TmoInv.step {zero : V} {s : Tmo V E} (h : TmoInv zero s) (a : TAct V E) :
    TmoInv zero (s.step a) := by
  obtain ⟨hh, hc⟩ := h
  have hv := hh.valOk
  obtain ⟨val, err, done, helper, caller, result⟩ := s
  cases a with
  | deadline =>
    refine ⟨hh, ?_⟩
    simp only [Tmo.step, CallerInv] at hc ⊢
    split at hc <;> simp_all <;>
      first
        | exact hc.2.1.mono (fun _ h => h)
        | exact ⟨hc.2.1.mono (fun _ h => h), hc.2.2.mono (fun _ h => h)⟩
        | exact ⟨hc.2.2.1.mono (fun _ h => h), hc.2.2.2.mono (fun _ h => h)⟩
        | exact hc.2.2.mono (fun _ h => h)
        | skip
  | callReturns r =>
    cases helper <;> simp only [Tmo.step] <;> try exact ⟨hh, hc⟩
    simp only [HelperInv] at hh
    refine ⟨⟨rfl, hh.2⟩, ?_⟩
    have mono : ∀ r', result = some r' → some r = some r' := by
      intro r' h'; rw [hh.1] at h'; exact absurd h' (by simp)
    simp only [CallerInv] at hc ⊢
    split at hc
    · simp
    · simp [hc.1]
    · exact ⟨hc.1, by simp, hc.2.2.mono mono⟩
    · exact ⟨hc.1, by simp, hc.2.2.1.mono mono, hc.2.2.2.mono mono⟩
    · exact ⟨hc.1, by simp, hc.2.2.1.mono mono, hc.2.2.2.mono mono⟩
    · exact absurd hc.1 (by simp)
    · exact absurd hc.1 (by simp)
    · exact absurd hc.1 (by simp)
  | helper =>
    cases helper with
    | calling => exact ⟨hh, hc⟩
    | sending => exact ⟨hh, hc⟩
    | finished => exact ⟨hh, hc⟩
    | assignVal r =>
      simp only [HelperInv] at hh
      refine ⟨⟨hh.1, rfl⟩, ?_⟩
      simp only [Tmo.step, CallerInv] at hc ⊢
      split at hc
      · simp
      · simp [hc.1]
      · exact ⟨hc.1, by simp, hc.2.2.mono fun _ h => h⟩
      · exact ⟨hc.1, by simp, hc.2.2.1.mono fun _ h => h, hc.2.2.2.mono fun _ h => h⟩
      · exact ⟨hc.1, by simp, hc.2.2.1.mono fun _ h => h, hc.2.2.2.mono fun _ h => h⟩
      · exact absurd hc.1 (by simp)
      · exact absurd hc.1 (by simp)
      · exact absurd hc.1 (by simp)
    | assignErr r =>
      simp only [HelperInv] at hh
      refine ⟨⟨r, hh⟩, ?_⟩
      simp only [Tmo.step, CallerInv] at hc ⊢
      split at hc
      · exact ⟨by simp, fun _ => ⟨r, hh.1, rfl⟩⟩
      · simp [hc.1]
      · exact ⟨hc.1, by simp, Or.inr ⟨r, hh.1, rfl⟩⟩
      · exact ⟨hc.1, by simp, Or.inr ⟨r, hh.1, rfl⟩, hc.2.2.2.mono fun _ h => h⟩
      · exact ⟨hc.1, by simp, hc.2.2.1.mono fun _ h => h, hc.2.2.2.mono fun _ h => h⟩
      · exact absurd hc.1 (by simp)
      · exact absurd hc.1 (by simp)
      · exact absurd hc.1 (by simp)
  | caller =>
    cases caller with
    | selecting => exact ⟨hh, hc⟩
    | returned b v e => exact ⟨hh, hc⟩
    | timeout =>
      refine ⟨hh, ?_⟩
      simp only [Tmo.step, CallerInv] at hc ⊢
      exact ⟨hc.1, hc.2, Or.inl rfl⟩
    | returning b =>
      refine ⟨hh, ?_⟩
      cases b with
      | true =>
        simp only [Tmo.step, CallerInv] at hc ⊢
        exact ⟨hc.1, hc.2.1, hc.2.2.mono fun _ h => h, hv.mono fun _ h => h⟩
      | false => simpa only [Tmo.step, CallerInv] using hc
    | readVal b v =>
      refine ⟨hh, ?_⟩
      cases b with
      | true =>
        simp only [Tmo.step, CallerInv] at hc ⊢
        exact ⟨hc.1, hc.2.1, hc.2.2.1.mono fun _ h => h, hc.2.2.2.mono fun _ h => h⟩
      | false => simpa only [Tmo.step, CallerInv] using hc
  | chooseDone =>
    cases caller <;> simp only [Tmo.step] <;> try exact ⟨hh, hc⟩
    split
    · rename_i hd
      refine ⟨hh, ?_⟩
      simp only [CallerInv] at hc ⊢
      exact ⟨hd, hc.1⟩
    · exact ⟨hh, hc⟩
  | rendezvous =>
    cases caller <;> cases helper <;> simp only [Tmo.step] <;> try exact ⟨hh, hc⟩
    refine ⟨hh, ?_⟩
    simp only [CallerInv, HelperInv] at hc hh ⊢
    obtain ⟨r, hr, he⟩ := hc.2 trivial
    obtain ⟨r', hr', hv'⟩ := hh
    rw [hr, Option.some.injEq] at hr'
    subst hr'
    exact ⟨trivial, r, hr, hv', he⟩

theorem TmoInv.exec {zero : V} (as : List (TAct V E)) : ∀ {s : Tmo V E}, TmoInv zero s →
    TmoInv zero (s.exec as) := by
  induction as with
  | nil => intro s h; exact h
  | cons a as ih => intro s h; exact ih (h.step a)

/-- **C48**, what is returned (partial: see the refutations for what is missing).
Under every schedule, when the client's call has returned `(v, e)`, then either
`e` is the timeout error and the deadline has passed, or `e` is the error that the
wrapped call returned.  If the deadline has not passed, `(v, e)` is exactly the
wrapped call's result. -/
theorem C48_result_partial (zero : V) (s : Tmo V E) (hs : Reached zero s) (b : Bool) (v : V)
    (e : Option (TErr E)) (hr : s.caller = .returned b v e) :
    ((e = some .timedOut ∧ s.ctxDone = true) ∨ (∃ r, s.result = some r ∧ e = r.err.map .ofCall)) ∧
    (s.ctxDone = false → ∃ r, s.result = some r ∧ v = r.val ∧ e = r.err.map .ofCall) ∧
    (v = zero ∨ ∃ r, s.result = some r ∧ v = r.val) := by
  obtain ⟨as, rfl⟩ := hs
  have h := (TmoInv.exec as (TmoInv.init (E := E) zero)).2
  rw [CallerInv, hr] at h
  cases b with
  | true =>
    obtain ⟨h1, h2, h3, h4⟩ := h
    refine ⟨?_, fun hd => ?_, h4⟩
    · rcases h3 with h3 | h3
      · exact Or.inl ⟨h3, h1⟩
      · exact Or.inr h3
    · rw [h1] at hd; exact absurd hd (by simp)
  | false =>
    obtain ⟨h1, r, h2, h3, h4⟩ := h
    exact ⟨Or.inr ⟨r, h2, h4⟩, fun _ => ⟨r, h2, h3, h4⟩, Or.inr ⟨r, h2, h3⟩⟩

/-- **C48**, promptness.  Once the deadline has passed or the wrapped call's result
is ready, the caller's side alone finishes the call: whatever the helper does, at
most four steps of the caller lead to the return. -/
theorem C48_returns (s : Tmo V E) (h : s.ctxDone = true ∨ s.helper = .sending ∨
    s.caller ≠ .selecting) :
    ∃ as : List (TAct V E), as.length ≤ 4 ∧
      (∀ a ∈ as, a = .caller ∨ a = .chooseDone ∨ a = .rendezvous) ∧
      ∃ b v e, (s.exec as).caller = .returned b v e := by
  obtain ⟨val, err, done, helper, caller, result⟩ := s
  cases caller with
  | selecting =>
    simp only [ne_eq, not_true, or_false] at h
    rcases h with h | h
    · refine ⟨[.chooseDone, .caller, .caller, .caller], by simp, by simp, true, val,
        some .timedOut, ?_⟩
      simp [Tmo.exec, Tmo.step, h]
    · refine ⟨[.rendezvous, .caller, .caller], by simp, by simp, false, val, err, ?_⟩
      simp [Tmo.exec, Tmo.step, h]
  | timeout =>
    exact ⟨[.caller, .caller, .caller], by simp, by simp, true, val, some .timedOut, by
      simp [Tmo.exec, Tmo.step]⟩
  | returning b =>
    exact ⟨[.caller, .caller], by simp, by simp, b, val, err, by simp [Tmo.exec, Tmo.step]⟩
  | readVal b v =>
    exact ⟨[.caller], by simp, by simp, b, v, err, by simp [Tmo.exec, Tmo.step]⟩
  | returned b v e => exact ⟨[], by simp, by simp, b, v, e, rfl⟩

/-- **C48**, the normal case: when the client returns through completion, the helper
goroutine has ended. -/
theorem C48_no_leak_on_completion (zero : V) (s : Tmo V E) (hs : Reached zero s) (v : V)
    (e : Option (TErr E)) (hr : s.caller = .returned false v e) : s.helper = .finished := by
  obtain ⟨as, rfl⟩ := hs
  have h := (TmoInv.exec as (TmoInv.init (E := E) zero)).2
  rw [CallerInv, hr] at h
  exact h.1

/-- **C48 refuted**, leak: once the client has timed out, its helper goroutine never
ends, whatever happens afterwards. -/
theorem C48_helper_leaks_refuted (zero : V) (s : Tmo V E) (hs : Reached zero s) (v : V)
    (e : Option (TErr E)) (hr : s.caller = .returned true v e) (as : List (TAct V E)) :
    (s.exec as).helper ≠ .finished := by
  have stay : ∀ (as : List (TAct V E)) (s : Tmo V E), s.caller = .returned true v e →
      (s.exec as).caller = .returned true v e := by
    intro as
    induction as with
    | nil => intro s h; exact h
    | cons a as ih =>
      intro s h
      refine ih (s.step a) ?_
      obtain ⟨val, err, done, helper, caller, result⟩ := s
      simp only at h
      subst h
      cases a <;> cases helper <;> rfl
  obtain ⟨as0, rfl⟩ := hs
  have h := (TmoInv.exec as (TmoInv.exec as0 (TmoInv.init (E := E) zero))).2
  rw [CallerInv, stay as _ hr] at h
  exact h.2.1

/-- The leak happens: a schedule in which the deadline passes, the client returns
the timeout error, and the wrapped call returns afterwards. -/
theorem C48_leak_reached_refuted (zero : V) (r : Ret V E) :
    ∃ s : Tmo V E, Reached zero s ∧ s.caller = .returned true zero (some .timedOut) ∧
      s.result = some r ∧ s.helper = .sending :=
  ⟨_, ⟨[.deadline, .chooseDone, .caller, .caller, .caller, .callReturns r, .helper, .helper], rfl⟩,
    by simp [Tmo.exec, Tmo.step, Tmo.init]⟩

/-- **C48 refuted**, torn result: both goroutines write the same named results, so
a call can report success with a zero value although the wrapped call returned
another value. -/
theorem C48_torn_result_refuted (zero : V) (r : Ret V E) (hok : r.err = none) :
    ∃ s : Tmo V E, Reached zero s ∧ s.result = some r ∧ s.caller = .returned true zero none :=
  ⟨_, ⟨[.deadline, .chooseDone, .caller, .caller, .callReturns r, .helper, .helper, .caller], rfl⟩,
    by simp [Tmo.exec, Tmo.step, Tmo.init, hok]⟩

/-- A completed call. -/
example : ((Tmo.init 0 : Tmo Nat String).exec [.callReturns ⟨5, none⟩, .helper, .helper, .rendezvous,
    .deadline, .caller, .caller]).caller = .returned false 5 none := by decide
/-- A timed-out call. -/
example : ((Tmo.init 0 : Tmo Nat String).exec [.deadline, .chooseDone, .caller, .caller,
    .caller]).caller = .returned true 0 (some .timedOut) := by decide

end Timeouts
end Verif.Wrappers
