import Verif.Wrappers.Spec
/-
C44, C45: the retrying clients.
-/
namespace Verif.Wrappers
variable {V E : Type}

theorem calls_append (a b : List (Ev V E)) : calls (a ++ b) = calls a ++ calls b := by
  induction a with
  | nil => rfl
  | cons x a ih => cases x <;> simp [calls, ih]

theorem calls_delay (d : Option Int) (t : List (Ev V E)) :
    calls ((d.map Ev.sleep).toList ++ t) = calls t := by
  cases d <;> rfl

/-- What the loop does from attempt `i` on. -/
theorem retryLoop_spec (delay : Option Int) (out : Nat → Ret V E) :
    ∀ (left i : Nat) (cur : Ret V E), 1 ≤ left →
      let cs := calls (retryLoop delay out left i cur).1
      let r := (retryLoop delay out left i cur).2
      1 ≤ cs.length ∧ cs.length ≤ left ∧
      (∀ k, k < cs.length → cs[k]? = some (i + k + 1, out (i + k))) ∧
      (∀ k, k + 1 < cs.length → (out (i + k)).err ≠ none) ∧
      ((out (i + (cs.length - 1))).err = none ∨ cs.length = left) ∧
      r = out (i + (cs.length - 1)) := by
  intro left
  induction left with
  | zero => intro i cur h; omega
  | succ n ih =>
    intro i cur _
    simp only [retryLoop]
    by_cases hok : (out i).err.isNone
    · simp only [hok, if_true, calls, List.length_singleton]
      refine ⟨by omega, by omega, ?_, ?_, ?_, ?_⟩
      · intro k hk
        have : k = 0 := by omega
        subst this; simp
      · intro k hk; omega
      · exact Or.inl (by simpa using hok)
      · simp
    · simp only [hok, if_false, calls, calls_delay, Bool.false_eq_true]
      have hne : (out i).err ≠ none := by
        intro h; simp [h] at hok
      cases n with
      | zero =>
        simp only [retryLoop, calls, List.length_singleton]
        refine ⟨by omega, by omega, ?_, ?_, by simp, by simp⟩
        · intro k hk
          have : k = 0 := by omega
          subst this; simp
        · intro k hk; omega
      | succ m =>
        obtain ⟨h1, h2, h3, h4, h5, h6⟩ := ih (i + 1) (out i) (by omega)
        generalize calls (retryLoop delay out (m + 1) (i + 1) (out i)).1 = cs at *
        simp only [List.length_cons]
        have e : i + 1 + (cs.length - 1) = i + (cs.length + 1 - 1) := by omega
        refine ⟨by omega, by omega, ?_, ?_, ?_, ?_⟩
        · intro k hk
          cases k with
          | zero => simp
          | succ k =>
            rw [List.getElem?_cons_succ, h3 k (by omega)]
            congr 2
            · omega
            · congr 1; omega
        · intro k hk
          cases k with
          | zero => simpa using hne
          | succ k =>
            have := h4 k (by omega)
            rwa [show i + 1 + k = i + (k + 1) by omega] at this
        · rcases h5 with h5 | h5
          · rw [e] at h5; exact Or.inl h5
          · exact Or.inr (by omega)
        · rw [h6, e]

/-- **C44** (for at least one try).  The plain and the fixed-delay retrying client
call the wrapped method between 1 and `max` times, numbering the attempts 1, 2, …,
stop right after the first success, go on after a failure until `max` attempts
have been made, and return the result of the last attempt. -/
theorem C44_retries_partial (delay : Option Int) (out : Nat → Ret V E) (zero : V) (max : Int)
    (hmax : 1 ≤ max) :
    Retried max out (calls (retryCall delay out zero max).1) (retryCall delay out zero max).2 := by
  obtain ⟨h1, h2, h3, h4, h5, h6⟩ :=
    retryLoop_spec delay out max.toNat 0 ⟨zero, none⟩ (by omega)
  simp only [Nat.zero_add] at h3 h4 h5 h6
  have hm : ((max.toNat : Nat) : Int) = max := by omega
  refine ⟨h1, ?_, h3, h4, ?_, h6⟩
  · show (List.length (calls (retryLoop delay out max.toNat 0 ⟨zero, none⟩).1) : Int) ≤ max
    omega
  · rcases h5 with h5 | h5
    · exact Or.inl h5
    · right
      show (List.length (calls (retryLoop delay out max.toNat 0 ⟨zero, none⟩).1) : Int) = max
      omega

/-- **C44 refuted** for a maximum of zero (or less): the client never calls the
wrapped method and reports success with zero values. -/
theorem C44_zero_tries_refuted (delay : Option Int) (out : Nat → Ret V E) (zero : V) (max : Int)
    (hmax : max ≤ 0) : retryCall delay out zero max = ([], ⟨zero, none⟩) := by
  have : max.toNat = 0 := by omega
  simp [retryCall, this, retryLoop]

theorem retryLoop_sleeps (d : Int) (out : Nat → Ret V E) :
    ∀ (left i : Nat) (cur : Ret V E),
      sleeps (retryLoop (some d) out left i cur).1
        = (((calls (retryLoop (some d) out left i cur).1).filter
            fun c => c.2.err.isSome).map fun _ => d) ∧
      sleeps (retryLoop none out left i cur).1 = [] := by
  intro left
  induction left with
  | zero => intro i cur; simp [retryLoop, sleeps, calls]
  | succ n ih =>
    intro i cur
    simp only [retryLoop]
    cases hok : (out i).err with
    | none => simp [sleeps, calls, hok]
    | some e => simp [sleeps, calls, hok, ih]

/-- **C44**, sleeps.  The fixed-delay client sleeps exactly `d` after every failed
attempt (also after the last one); the plain client never sleeps. -/
theorem C44_sleeps (d : Int) (out : Nat → Ret V E) (zero : V) (max : Int) :
    sleeps (retryCall (some d) out zero max).1
        = ((calls (retryCall (some d) out zero max).1).filter
            fun c => c.2.err.isSome).map (fun _ => d) ∧
    sleeps (retryCall none out zero max).1 = [] :=
  retryLoop_sleeps d out _ _ _

/-! ### Rate-limited retries -/

theorem rateLoop_spec (out : Nat → Ret V E) (waitErr : Nat → Option E) :
    ∀ (left i c : Nat) (cur : Ret V E),
      let cs := calls (rateLoop out waitErr left i c cur).1
      cs.length ≤ left ∧
      (∀ k, k < cs.length → ∃ n, i ≤ n ∧ waitErr n = none ∧ cs[k]? = some (n, out (c + k))) ∧
      (∀ k, k + 1 < cs.length → (out (c + k)).err ≠ none) ∧
      ((rateLoop out waitErr left i c cur).2.err = none → cur.err ≠ none →
        1 ≤ cs.length ∧ (rateLoop out waitErr left i c cur).2 = out (c + (cs.length - 1))) := by
  intro left
  induction left with
  | zero =>
    intro i c cur
    simp only [rateLoop, calls, List.length_nil]
    exact ⟨by omega, fun k hk => by omega, fun k hk => by omega, fun h h' => absurd h h'⟩
  | succ n ih =>
    intro i c cur
    simp only [rateLoop]
    cases hw : waitErr i with
    | some e =>
      obtain ⟨h1, h2, h3, h4⟩ := ih (i + 1) c ⟨cur.val, some e⟩
      simp only []
      refine ⟨by omega, fun k hk => ?_, h3, fun h _ => h4 h (by simp)⟩
      obtain ⟨m, hm, hm', hm''⟩ := h2 k hk
      exact ⟨m, by omega, hm', hm''⟩
    | none =>
      cases hok : (out c).err with
      | none =>
        simp only [hok, Option.isNone_none, if_true, calls, List.length_singleton]
        refine ⟨by omega, fun k hk => ⟨i, Nat.le_refl _, hw, ?_⟩, fun k hk => by omega,
          fun _ _ => ⟨by omega, by simp⟩⟩
        have : k = 0 := by omega
        subst this; simp
      | some e =>
        simp only [hok, Option.isNone_some, Bool.false_eq_true, if_false, calls, List.length_cons]
        obtain ⟨h1, h2, h3, h4⟩ := ih (i + 1) (c + 1) (out c)
        generalize hcs : calls (rateLoop out waitErr n (i + 1) (c + 1) (out c)).1 = cs at *
        refine ⟨by omega, fun k hk => ?_, fun k hk => ?_, fun h _ => ?_⟩
        · cases k with
          | zero => exact ⟨i, Nat.le_refl _, hw, by simp⟩
          | succ k =>
            obtain ⟨m, hm, hm', hm''⟩ := h2 k (by omega)
            refine ⟨m, by omega, hm', ?_⟩
            rw [List.getElem?_cons_succ, hm'']
            congr 3; omega
        · cases k with
          | zero => simp [hok]
          | succ k =>
            have := h3 k (by omega)
            rwa [show c + 1 + k = c + (k + 1) by omega] at this
        · obtain ⟨g1, g2⟩ := h4 h (by simp [hok])
          refine ⟨by omega, ?_⟩
          rw [g2, show c + 1 + (cs.length - 1) = c + (cs.length + 1 - 1) by omega]

/-- **C44**, rate-limited client.  It makes at least one call and at most
`max 1 maxTries`, every call after the first one holds a token, it stops right
after the first success, and it only reports success with the result of the last
attempt. -/
theorem C44_rate_limited_partial (out : Nat → Ret V E) (waitErr : Nat → Option E) (maxTries : Int) :
    let cs := calls (rateCall out waitErr maxTries).1
    let r := (rateCall out waitErr maxTries).2
    1 ≤ cs.length ∧ (cs.length : Int) ≤ max 1 maxTries ∧
    (∀ k, k < cs.length → ∃ n, cs[k]? = some (n, out k) ∧ (0 < k → waitErr n = none)) ∧
    (∀ k, k + 1 < cs.length → (out k).err ≠ none) ∧
    (r.err = none → r = out (cs.length - 1)) := by
  simp only [rateCall]
  cases hok : (out 0).err with
  | none =>
    simp only [hok, Option.isNone_none, if_true, calls, List.length_singleton]
    refine ⟨by omega, by omega, fun k hk => ⟨1, ?_, fun h => by omega⟩, fun k hk => by omega,
      fun _ => by simp⟩
    have : k = 0 := by omega
    subst this; simp
  | some e =>
    simp only [hok, Option.isNone_some, Bool.false_eq_true, if_false, calls, List.length_cons]
    obtain ⟨h1, h2, h3, h4⟩ := rateLoop_spec out waitErr (maxTries - 1).toNat 1 1 (out 0)
    generalize hcs : calls (rateLoop out waitErr (maxTries - 1).toNat 1 1 (out 0)).1 = cs at *
    refine ⟨by omega, by omega, fun k hk => ?_, fun k hk => ?_, fun h => ?_⟩
    · cases k with
      | zero => exact ⟨1, by simp, fun h => by omega⟩
      | succ k =>
        obtain ⟨m, hm, hm', hm''⟩ := h2 k (by omega)
        exact ⟨m, by rw [List.getElem?_cons_succ, hm'', Nat.add_comm 1 k], fun _ => hm'⟩
    · cases k with
      | zero => simp [hok]
      | succ k =>
        have := h3 k (by omega)
        rwa [show 1 + k = k + 1 by omega] at this
    · obtain ⟨g1, g2⟩ := h4 h (by simp [hok])
      rw [g2, show 1 + (cs.length - 1) = cs.length + 1 - 1 by omega]

/-- **C44 refuted** for the rate-limited client: the second attempt is numbered 1
again. -/
theorem C44_rate_limited_numbering_refuted :
    ∃ out : Nat → Ret Nat String,
      (calls (rateCall out (fun _ => none) 3).1).map (·.1) = [1, 1, 2] :=
  ⟨fun _ => ⟨0, some "down"⟩, by decide⟩

/-- The hypotheses of C44 are met, e.g. by two failures and then a success. -/
example : calls (retryCall none (fun k => if k < 2 then ⟨0, some "down"⟩ else ⟨7, none⟩) 0 5).1
    = [(1, ⟨0, some "down"⟩), (2, ⟨0, some "down"⟩), (3, (⟨7, none⟩ : Ret Nat String))] := by
  decide
example : sleeps (retryCall (some 10) (fun _ => (⟨0, some "down"⟩ : Ret Nat String)) 0 2).1
    = [10, 10] := by decide

/-! ### Exponential backoff -/

theorem wrap64_id {n : Int} (h1 : -2 ^ 63 ≤ n) (h2 : n < 2 ^ 63) : wrap64 n = n := by
  unfold wrap64; omega

/-- A sleep drawn for `d` is at most `d`, and at least half of it. -/
theorem sleepDuration_bounds {jitter : Bool} {d : Int} {seed : Nat} {s : Int} (hd : 0 < d)
    (h : sleepDuration jitter d seed = some s) : d / 2 ≤ s ∧ s ≤ d := by
  unfold sleepDuration int63n at h
  have e : d.tdiv 2 = d / 2 := Int.tdiv_eq_ediv_of_nonneg (by omega)
  rw [e] at h
  cases jitter with
  | false => simp at h; omega
  | true =>
    simp only [if_true] at h
    by_cases hz : d / 2 ≤ 0
    · simp [hz] at h
    · simp only [hz, if_false, Option.map_some, Option.some.injEq] at h
      have h1 := Int.emod_nonneg (seed : Int) (show d / 2 ≠ 0 by omega)
      have h2 := Int.emod_lt_of_pos (seed : Int) (show 0 < d / 2 by omega)
      omega

theorem sleepDuration_some {jitter : Bool} {d : Int} (seed : Nat) (hd : 0 < d)
    (hj : jitter = true → 2 ≤ d) : ∃ s, sleepDuration jitter d seed = some s := by
  unfold sleepDuration int63n
  cases jitter with
  | false => simp
  | true =>
    have := hj rfl
    have e : d.tdiv 2 = d / 2 := Int.tdiv_eq_ediv_of_nonneg (by omega)
    rw [e]
    have hz : ¬ d / 2 ≤ 0 := by omega
    simp [hz]

/-- The whole behaviour of the loop from attempt `k` on, with current delay `d`. -/
theorem backoff_spec (env : Env V E) (jitter : Bool) (limit : Int) (hl : limit ≤ 2 ^ 62) :
    ∀ (n k : Nat) (d : Int), 0 < d → (jitter = true → 2 ≤ d) → limit ≤ d * 2 ^ n →
      ∃ t r, backoff env jitter limit (n + 1) k d = some (t, .returned r) ∧
        1 ≤ (calls t).length ∧ (calls t).length ≤ n + 1 ∧
        (∀ j, j < (calls t).length → (calls t)[j]? = some (k + j + 1, env.out (k + j))) ∧
        (∀ j, j + 1 < (calls t).length → (env.out (k + j)).err ≠ none) ∧
        (∀ s ∈ sleeps t, d / 2 ≤ s ∧ s < limit) ∧
        (sleeps t).Pairwise (· ≤ ·) ∧
        (jitter = false → ∀ j, j < (sleeps t).length → (sleeps t)[j]? = some (d * 2 ^ j)) ∧
        ((∀ j, env.cancelled j = none) → r = env.out (k + ((calls t).length - 1)) ∧
          ((env.out (k + ((calls t).length - 1))).err = none ∨
            limit ≤ d * 2 ^ ((calls t).length - 1))) := by
  intro n
  induction n with
  | zero =>
    intro k d hd hj hlim
    have hge : d ≥ limit := by simpa using hlim
    refine ⟨[.call (k + 1) (env.out k)], env.out k, ?_, ?_⟩
    · simp only [backoff]
      by_cases h : (env.out k).err.isNone <;> simp [h, hge]
    · simp only [calls, sleeps, List.length_singleton, List.length_nil]
      refine ⟨by omega, by omega, ?_, fun j hj => by omega, by simp, by simp,
        fun _ j hj => by omega, fun _ => ⟨by simp, Or.inr (by simpa using hlim)⟩⟩
      intro j hj
      have : j = 0 := by omega
      subst this; simp
  | succ n ih =>
    intro k d hd hj hlim
    rw [backoff]
    simp only []
    have single : ∀ (_ : (env.out k).err = none ∨ d ≥ limit),
        let t : List (Ev V E) := [.call (k + 1) (env.out k)]
        1 ≤ (calls t).length ∧ (calls t).length ≤ n + 1 + 1 ∧
        (∀ j, j < (calls t).length → (calls t)[j]? = some (k + j + 1, env.out (k + j))) ∧
        (∀ j, j + 1 < (calls t).length → (env.out (k + j)).err ≠ none) ∧
        (∀ s ∈ sleeps t, d / 2 ≤ s ∧ s < limit) ∧
        (sleeps t).Pairwise (· ≤ ·) ∧
        (jitter = false → ∀ j, j < (sleeps t).length → (sleeps t)[j]? = some (d * 2 ^ j)) ∧
        ((∀ j, env.cancelled j = none) → env.out k = env.out (k + ((calls t).length - 1)) ∧
          ((env.out (k + ((calls t).length - 1))).err = none ∨
            limit ≤ d * 2 ^ ((calls t).length - 1))) := by
      intro hor
      simp only [calls, sleeps, List.length_singleton, List.length_nil]
      refine ⟨by omega, by omega, ?_, fun j hj => by omega, by simp, by simp,
        fun _ j hj => by omega, fun _ => ⟨by simp, ?_⟩⟩
      · intro j hj
        have : j = 0 := by omega
        subst this; simp
      · simpa using hor
    by_cases hok : (env.out k).err.isNone
    · refine ⟨[.call (k + 1) (env.out k)], env.out k, by simp [hok], ?_⟩
      exact single (Or.inl (by simpa using hok))
    by_cases hge : d ≥ limit
    · refine ⟨[.call (k + 1) (env.out k)], env.out k, by simp [hok, hge], ?_⟩
      exact single (Or.inr hge)
    obtain ⟨s, hs⟩ := sleepDuration_some (jitter := jitter) (env.seed k) hd hj
    obtain ⟨hs1, hs2⟩ := sleepDuration_bounds hd hs
    have hne : (env.out k).err ≠ none := by intro h; simp [h] at hok
    cases hc : env.cancelled k with
    | some e =>
      refine ⟨[.call (k + 1) (env.out k), .sleep s], ⟨(env.out k).val, some e⟩, by
        simp [hok, hge, hs, hc], ?_⟩
      simp only [calls, sleeps, List.length_singleton]
      refine ⟨by omega, by omega, ?_, fun j hj => by omega, ?_, by simp, ?_, ?_⟩
      · intro j hj
        have : j = 0 := by omega
        subst this; simp
      · intro s' hs'
        simp only [List.mem_singleton] at hs'
        subst hs'; omega
      · intro hjf j hj
        have : j = 0 := by omega
        subst this
        rw [hjf] at hs
        simp [sleepDuration] at hs
        simp [hs]
      · intro hcn
        rw [hcn k] at hc
        exact absurd hc (by simp)
    | none =>
      have hw : wrap64 (d * 2) = d * 2 := wrap64_id (by omega) (by omega)
      rw [hw]
      simp only [hok, hge, hs, Bool.false_eq_true, if_false]
      by_cases hbig : d * 2 > limit
      · -- the delay is clamped: one more attempt
        simp only [hbig, if_true]
        have hstep : backoff env jitter limit (n + 1) (k + 1) limit
            = some ([.call (k + 1 + 1) (env.out (k + 1))], .returned (env.out (k + 1))) := by
          simp only [backoff]
          by_cases h : (env.out (k + 1)).err.isNone <;> simp [h]
        rw [hstep]
        refine ⟨[.call (k + 1) (env.out k), .sleep s, .call (k + 1 + 1) (env.out (k + 1))],
          env.out (k + 1), rfl, ?_⟩
        simp only [calls, sleeps, List.length_cons, List.length_nil]
        refine ⟨by omega, by omega, ?_, ?_, ?_, by simp, ?_, fun _ => ⟨by simp, Or.inr ?_⟩⟩
        · intro j hj
          have : j = 0 ∨ j = 1 := by omega
          rcases this with rfl | rfl <;> simp
        · intro j hj
          have : j = 0 := by omega
          subst this; simpa using hne
        · intro s' hs'
          simp only [List.mem_singleton] at hs'
          subst hs'; omega
        · intro hjf j hj
          have : j = 0 := by omega
          subst this
          rw [hjf] at hs
          simp [sleepDuration] at hs
          simp [hs]
        · show limit ≤ d * 2 ^ 1
          omega
      · simp only [hbig, if_false]
        obtain ⟨t, r, ht, g1, g2, g3, g4, g5, g6, g7, g8⟩ :=
          ih (k + 1) (d * 2) (by omega) (fun h => by have := hj h; omega) (by
            rw [Int.mul_assoc, show (2 : Int) * 2 ^ n = 2 ^ (n + 1) by rw [Int.pow_succ]; omega]
            exact hlim)
        rw [ht]
        refine ⟨.call (k + 1) (env.out k) :: .sleep s :: t, r, rfl, ?_⟩
        simp only [calls, sleeps, List.length_cons]
        have e : k + 1 + ((calls t).length - 1) = k + ((calls t).length + 1 - 1) := by omega
        refine ⟨by omega, by omega, ?_, ?_, ?_, ?_, ?_, ?_⟩
        · intro j hj
          cases j with
          | zero => simp
          | succ j =>
            rw [List.getElem?_cons_succ, g3 j (by omega)]
            congr 2
            · omega
            · congr 1; omega
        · intro j hj
          cases j with
          | zero => simpa using hne
          | succ j =>
            have := g4 j (by omega)
            rwa [show k + 1 + j = k + (j + 1) by omega] at this
        · intro s' hs'
          rcases List.mem_cons.1 hs' with rfl | hs'
          · omega
          · have := g5 s' hs'; omega
        · refine List.Pairwise.cons ?_ g6
          intro s' hs'
          have := g5 s' hs'; omega
        · intro hjf j hj
          cases j with
          | zero =>
            rw [hjf] at hs
            simp [sleepDuration] at hs
            simp [hs]
          | succ j =>
            rw [List.getElem?_cons_succ, g7 hjf j (by omega), Int.pow_succ]
            congr 1
            rw [Int.mul_assoc]; congr 1; omega
        · intro hcn
          obtain ⟨q1, q2⟩ := g8 hcn
          rw [e] at q1 q2
          refine ⟨q1, ?_⟩
          rcases q2 with q2 | q2
          · exact Or.inl q2
          · right
            have e2 : (calls t).length + 1 - 1 = (calls t).length - 1 + 1 := by omega
            rw [e2, Int.pow_succ]
            rw [Int.mul_assoc, Int.mul_comm 2] at q2
            exact q2

/-- Doubling reaches any limit. -/
theorem exists_doublings (d limit : Int) (hd : 0 < d) : ∃ n : Nat, limit ≤ d * 2 ^ n := by
  refine ⟨limit.toNat, ?_⟩
  have h : (limit.toNat : Int) ≤ 2 ^ limit.toNat := by
    have := Nat.lt_two_pow_self (n := limit.toNat)
    exact_mod_cast Nat.le_of_lt this
  have h2 : (2 : Int) ^ limit.toNat ≤ d * 2 ^ limit.toNat := by
    have := Int.mul_le_mul_of_nonneg_right (show (1 : Int) ≤ d by omega)
      (show (0 : Int) ≤ 2 ^ limit.toNat from by omega)
    omega
  omega

/-- **C45** (for a positive initial delay, at least 2ns with jitter, and a limit of
at most 2⁶²ns ≈ 146 years).  For every sequence of call results, cancellations and
random draws the exponential backoff client stops; it makes at most `n + 1`
attempts, `n` being any number of doublings that brings the delay to the limit;
attempts are numbered 1, 2, … and none follows a success; every sleep is positive
or zero and below the limit, and at least as long as the previous one. -/
theorem C45_backoff_partial (env : Env V E) (jitter : Bool) (delay limit : Int)
    (hd : 0 < delay) (hj : jitter = true → 2 ≤ delay) (hl : limit ≤ 2 ^ 62) :
    ∃ t r, BackoffEnds env jitter delay limit t (.returned r) ∧
      1 ≤ (calls t).length ∧
      (∀ n : Nat, limit ≤ delay * 2 ^ n → (calls t).length ≤ n + 1) ∧
      (∀ j, j < (calls t).length → (calls t)[j]? = some (j + 1, env.out j)) ∧
      (∀ j, j + 1 < (calls t).length → (env.out j).err ≠ none) ∧
      (∀ s ∈ sleeps t, 0 ≤ s ∧ s < limit) ∧ (sleeps t).Pairwise (· ≤ ·) := by
  obtain ⟨n0, hn0⟩ := exists_doublings delay limit hd
  obtain ⟨t, r, ht, g1, g2, g3, g4, g5, g6, -, -⟩ :=
    backoff_spec env jitter limit hl n0 0 delay hd hj hn0
  refine ⟨t, r, ⟨_, ht⟩, g1, ?_, by simpa using g3, by simpa using g4, ?_, g6⟩
  · intro n hn
    obtain ⟨t', r', ht', -, g2', -⟩ := backoff_spec env jitter limit hl n 0 delay hd hj hn
    have : t' = t := by
      have mono : ∀ (m k : Nat) (d : Int) (x : List (Ev V E) × Outcome V E),
          backoff env jitter limit m k d = some x → backoff env jitter limit (m + 1) k d = some x := by
        intro m
        induction m with
        | zero => intro k d x h; simp [backoff] at h
        | succ m ihm =>
          intro k d x h
          rw [backoff] at h ⊢
          simp only [] at h ⊢
          split at h
          · rename_i h1; rw [if_pos h1]; exact h
          · rename_i h1
            rw [if_neg h1]
            split at h
            · rename_i h2; rw [if_pos h2]; exact h
            · rename_i h2
              rw [if_neg h2]
              cases hs : sleepDuration jitter d (env.seed k) with
              | none => rw [hs] at h; exact h
              | some s =>
                rw [hs] at h
                simp only [] at h ⊢
                cases hc : env.cancelled k with
                | some e => rw [hc] at h; exact h
                | none =>
                  rw [hc] at h
                  simp only [] at h ⊢
                  generalize (if wrap64 (d * 2) > limit then limit else wrap64 (d * 2)) = d' at *
                  cases hb : backoff env jitter limit m (k + 1) d' with
                  | none => rw [hb] at h; simp at h
                  | some y => rw [hb] at h; rw [ihm _ _ _ hb]; exact h
      have monoN : ∀ (q m : Nat) (x : List (Ev V E) × Outcome V E),
          backoff env jitter limit m 0 delay = some x →
          backoff env jitter limit (m + q) 0 delay = some x := by
        intro q
        induction q with
        | zero => intro m x h; exact h
        | succ q ihq => intro m x h; exact mono _ _ _ _ (ihq m x h)
      have a := monoN (n + 1) (n0 + 1) _ ht
      have b := monoN (n0 + 1) (n + 1) _ ht'
      rw [Nat.add_comm, b] at a
      simp only [Option.some.injEq, Prod.mk.injEq] at a
      exact a.1
    rw [← this]; exact g2'
  · intro s hs
    have := g5 s hs; omega

/-- **C45**, exact schedule without jitter and without cancellation: the j-th sleep
is `delay · 2ʲ`, and the client returns the result of its last attempt, which
succeeded or was made when the delay had reached the limit. -/
theorem C45_schedule (env : Env V E) (delay limit : Int)
    (hd : 0 < delay) (hl : limit ≤ 2 ^ 62) (hc : ∀ j, env.cancelled j = none) :
    ∃ t r, BackoffEnds env false delay limit t (.returned r) ∧
      (∀ j, j < (sleeps t).length → (sleeps t)[j]? = some (delay * 2 ^ j)) ∧
      r = env.out ((calls t).length - 1) ∧
      (r.err = none ∨ limit ≤ delay * 2 ^ ((calls t).length - 1)) := by
  obtain ⟨n0, hn0⟩ := exists_doublings delay limit hd
  obtain ⟨t, r, ht, g1, g2, g3, g4, g5, g6, g7, g8⟩ :=
    backoff_spec env false limit hl n0 0 delay hd (by simp) hn0
  obtain ⟨q1, q2⟩ := g8 hc
  simp only [Nat.zero_add] at q1 q2
  exact ⟨t, r, ⟨_, ht⟩, g7 rfl, q1, by rw [q1]; exact q2⟩

/-- **C45 refuted** for an initial delay of zero (accepted by the wiring): with a
positive limit and a method that keeps failing, the client retries forever. -/
theorem C45_zero_delay_refuted (env : Env V E) (limit : Int) (hl : 0 < limit)
    (hf : ∀ k, (env.out k).err ≠ none) (hc : ∀ k, env.cancelled k = none) :
    ¬ ∃ t o, BackoffEnds env false 0 limit t o := by
  have key : ∀ fuel k, backoff env false limit fuel k 0 = none := by
    intro fuel
    induction fuel with
    | zero => intro k; rfl
    | succ n ih =>
      intro k
      have h1 : (env.out k).err.isNone = false := by
        have := hf k
        cases h : (env.out k).err <;> simp_all
      have h2 : ¬ (0 : Int) ≥ limit := by omega
      have h3 : ¬ wrap64 (0 * 2) > limit := by
        rw [wrap64_id (by omega) (by omega)]; omega
      have h4 : wrap64 (0 * 2) = 0 := wrap64_id (by omega) (by omega)
      rw [backoff]
      simp only [h1, h2, h3, sleepDuration, hc k, Bool.false_eq_true, if_false]
      rw [h4, ih]; rfl
  rintro ⟨t, o, fuel, h⟩
  rw [key] at h
  exact absurd h (by simp)

/-- **C45 refuted** near the end of the range of durations: the doubled delay
overflows and the client retries forever without pausing. -/
theorem C45_overflow_refuted (env : Env V E) (hf : ∀ k, (env.out k).err ≠ none)
    (hc : ∀ k, env.cancelled k = none) :
    ¬ ∃ t o, BackoffEnds env false (2 ^ 62) (2 ^ 63 - 1) t o := by
  have h1 : ∀ k, (env.out k).err.isNone = false := by
    intro k
    have := hf k
    cases h : (env.out k).err <;> simp_all
  have zero := C45_zero_delay_refuted ⟨fun k => env.out (k + 2), fun _ => none, fun k => env.seed (k + 2)⟩
    (2 ^ 63 - 1) (by omega) (fun k => hf (k + 2)) (fun _ => rfl)
  have shift : ∀ fuel k d, ∀ x, backoff env false (2 ^ 63 - 1) fuel (k + 2) d = some x →
      ∃ y, backoff ⟨fun k => env.out (k + 2), fun _ => none, fun k => env.seed (k + 2)⟩ false
        (2 ^ 63 - 1) fuel k d = some y := by
    intro fuel
    induction fuel with
    | zero => intro k d x h; simp [backoff] at h
    | succ n ih =>
      intro k d x h
      rw [backoff] at h ⊢
      simp only [h1, hc, sleepDuration, Bool.false_eq_true, if_false] at h ⊢
      split at h
      · rename_i hd; rw [if_pos hd]; exact ⟨_, rfl⟩
      · rename_i hd
        rw [if_neg hd]
        generalize (if wrap64 (d * 2) > 2 ^ 63 - 1 then 2 ^ 63 - 1 else wrap64 (d * 2)) = d' at *
        cases hb : backoff env false (2 ^ 63 - 1) n (k + 2 + 1) d' with
        | none => rw [hb] at h; simp at h
        | some z =>
          obtain ⟨y, hy⟩ := ih (k + 1) d' z (by rw [← hb])
          rw [hy]; exact ⟨_, rfl⟩
  rintro ⟨t, o, fuel, h⟩
  have w1 : wrap64 (2 ^ 62 * 2) = - 2 ^ 63 := by decide
  have w2 : wrap64 (- 2 ^ 63 * 2) = 0 := by decide
  match fuel, h with
  | 0, h => simp [backoff] at h
  | 1, h =>
    rw [backoff] at h
    simp [h1, hc, sleepDuration, backoff] at h
  | fuel + 2, h =>
    rw [backoff] at h
    simp only [h1, hc, sleepDuration, Bool.false_eq_true, if_false, w1] at h
    rw [if_neg (by decide), if_neg (by decide)] at h
    rw [backoff] at h
    simp only [h1, hc, sleepDuration, Bool.false_eq_true, if_false, w2] at h
    rw [if_neg (by decide), if_neg (by decide)] at h
    cases hb : backoff env false (2 ^ 63 - 1) fuel (0 + 1 + 1) 0 with
    | none => rw [hb] at h; simp at h
    | some z =>
      obtain ⟨y, hy⟩ := shift fuel 0 0 z hb
      exact zero ⟨y.1, y.2, fuel, hy⟩

/-- **C45 refuted** for jitter on a one-nanosecond delay: the client panics instead
of retrying. -/
theorem C45_jitter_panics_refuted (env : Env V E) (limit : Int) (hl : 1 < limit)
    (hf : (env.out 0).err ≠ none) :
    BackoffEnds env true 1 limit [.call 1 (env.out 0)] .panicked := by
  refine ⟨1, ?_⟩
  have h1 : (env.out 0).err.isNone = false := by
    cases h : (env.out 0).err <;> simp_all
  have h2 : ¬ (1 : Int) ≥ limit := by omega
  simp [backoff, h1, h2, sleepDuration, int63n]

/-- The hypotheses of C45 are met: delay 10, limit 50, always failing. -/
example : backoff (⟨fun _ => ⟨0, some "down"⟩, fun _ => none, fun _ => 0⟩ : Env Nat String)
    false 50 9 0 10
    = some ([.call 1 ⟨0, some "down"⟩, .sleep 10, .call 2 ⟨0, some "down"⟩, .sleep 20,
      .call 3 ⟨0, some "down"⟩, .sleep 40, .call 4 ⟨0, some "down"⟩],
      .returned ⟨0, some "down"⟩) := by decide

end Verif.Wrappers
