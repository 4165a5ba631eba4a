/-
C89: unique identifiers of the social network example (examples/dsb_sn/workflow/socialnetwork/UniqueIdService.go; `RegisterUser` in
UserService.go lines 207-230 computes identifiers of users in the same way).
-/
namespace Verif.Social

/-! ### Model -/

/-- `strconv.FormatInt(n, 16)` for `n ≥ 0`: the digits, most significant first. -/
def hex (n : Nat) : List Nat := if n < 16 then [n] else hex (n / 16) ++ [n % 16]
termination_by n
decreasing_by omega

/-- `strconv.ParseInt(s, 16, 64)` of digits. -/
def value : List Nat → Nat := List.foldl (fun v d => 16 * v + d) 0

/-- The first `n` digits, or zeros in front to have `n` digits (lines 46-50, 52-56). -/
def fit (n : Nat) (ds : List Nat) : List Nat :=
  if ds.length > n then ds.take n else List.replicate (n - ds.length) 0 ++ ds

/-- `UniqueIdServiceImpl` (lines 18-22); `machine` are the hexadecimal digits of the machine id. -/
structure IdState where
  counter : Nat
  current : Option Nat
  deriving DecidableEq, Repr

/-- `NewUniqueIdServiceImpl` (lines 25-27); the timestamp -1 is `none`. -/
def IdState.init : IdState := ⟨0, none⟩

/-- `getCounter` (lines 29-39). -/
def getCounter (s : IdState) (timestamp : Nat) : IdState × Nat :=
  if s.current = some timestamp then ({ s with counter := s.counter + 1 }, s.counter)
  else (⟨1, some timestamp⟩, 0)

/-- `ComposeUniqueId` (lines 42-65) at the given time in milliseconds.  `none` is the error of `ParseInt`: the number has to be less than
2^63, so that the mask of line 63 changes nothing. -/
def composeId (machine : List Nat) (s : IdState) (timestamp : Nat) : IdState × Option Nat :=
  let c := getCounter s timestamp
  let id := value (machine ++ fit 10 (hex timestamp) ++ fit 1 (hex c.2))
  (c.1, if id < 2 ^ 63 then some id else none)

/-- Calls at the given times, one after the other. -/
def composeIds (machine : List Nat) : IdState → List Nat → List (Option Nat)
  | _, [] => []
  | s, t :: ts => (composeId machine s t).2 :: composeIds machine (composeId machine s t).1 ts

/-! ### Proofs -/

theorem value_append (a b : List Nat) : value (a ++ b) = value a * 16 ^ b.length + value b := by
  unfold value
  rw [List.foldl_append]
  have key : ∀ (b : List Nat) (v : Nat), b.foldl (fun v d => 16 * v + d) v = v * 16 ^ b.length + b.foldl (fun v d => 16 * v + d) 0 := by
    intro b
    induction b with
    | nil => simp
    | cons d b ih =>
      intro v
      simp only [List.foldl_cons, List.length_cons]
      rw [ih (16 * v + d), ih (16 * 0 + d), Nat.pow_succ]
      rw [Nat.add_mul, Nat.mul_zero, Nat.zero_add]
      have : 16 * v * 16 ^ b.length = v * (16 ^ b.length * 16) := by
        rw [Nat.mul_comm 16 v, Nat.mul_assoc, Nat.mul_comm 16]
      omega
  exact key b _

theorem value_hex (n : Nat) : value (hex n) = n := by
  induction n using hex.induct with
  | case1 n h => rw [hex, if_pos h]; simp [value]
  | case2 n h ih =>
    rw [hex, if_neg h, value_append, ih]
    simp [value]
    omega

theorem value_replicate (k : Nat) (ds : List Nat) : value (List.replicate k 0 ++ ds) = value ds := by
  have : value (List.replicate k 0) = 0 := by
    induction k with
    | zero => rfl
    | succ k ih =>
      rw [List.replicate_succ', value_append, ih]
      simp [value]
  rw [value_append, this]
  omega

theorem hex_length_pos (n : Nat) : 0 < (hex n).length := by
  rw [hex]
  split <;> simp

/-- A number has at most `k + 1` digits exactly if it is less than `16 ^ (k + 1)`. -/
theorem hex_length (k : Nat) : ∀ n, (hex n).length ≤ k + 1 ↔ n < 16 ^ (k + 1) := by
  induction k with
  | zero =>
    intro n
    rw [hex]
    split
    · simp; omega
    · have := hex_length_pos (n / 16)
      simp only [List.length_append, List.length_cons, List.length_nil, Nat.zero_add, Nat.pow_one]
      omega
  | succ k ih =>
    intro n
    rw [hex]
    split
    · next h =>
      have : 16 ^ 1 ≤ 16 ^ (k + 1 + 1) := Nat.pow_le_pow_right (by omega) (by omega)
      simp
      omega
    · simp only [List.length_append, List.length_cons, List.length_nil]
      have := ih (n / 16)
      rw [Nat.pow_succ 16 (k + 1)]
      generalize 16 ^ (k + 1) = p at *
      constructor
      · intro h
        have := this.1 (by omega)
        omega
      · intro h
        have := this.2 (by omega)
        omega

/-- The first digits of a number. -/
theorem value_take (n : Nat) (k : Nat) (h : k < (hex n).length) : value ((hex n).take k) = n / 16 ^ ((hex n).length - k) := by
  induction n using hex.induct with
  | case1 n hn =>
    rw [hex, if_pos hn] at h ⊢
    simp only [List.length_cons, List.length_nil] at h ⊢
    have : k = 0 := by omega
    subst this
    simp [value]
    omega
  | case2 n hn ih =>
    rw [hex, if_neg hn] at h ⊢
    simp only [List.length_append, List.length_cons, List.length_nil] at h ⊢
    by_cases hk : k < (hex (n / 16)).length
    · rw [List.take_append_of_le_length (by omega), ih hk]
      rw [Nat.div_div_eq_div_mul, show (hex (n / 16)).length + 1 - k = (hex (n / 16)).length - k + 1 by omega, Nat.pow_succ]
      rw [Nat.mul_comm]
    · have : k = (hex (n / 16)).length := by omega
      rw [this, List.take_left, value_hex]
      simp

theorem fit_length (n : Nat) (ds : List Nat) : (fit n ds).length = n := by
  unfold fit
  split
  · simp; omega
  · simp; omega

theorem hex_digits (n : Nat) : ∀ d ∈ hex n, d < 16 := by
  induction n using hex.induct with
  | case1 n h => rw [hex, if_pos h]; simpa using h
  | case2 n h ih =>
    rw [hex, if_neg h]
    intro d hd
    rcases List.mem_append.1 hd with hd | hd
    · exact ih d hd
    · rw [List.mem_singleton.1 hd]
      omega

private theorem value_fit10 (t : Nat) : value (fit 10 (hex t)) = if t < 16 ^ 10 then t else t / 16 ^ ((hex t).length - 10) := by
  have hl := hex_length 9 t
  unfold fit
  by_cases h : t < 16 ^ 10
  · have : ¬ (hex t).length > 10 := by have := hl.2 h; omega
    rw [if_neg this, if_pos h, value_replicate, value_hex]
  · have : (hex t).length > 10 := by
      rcases Nat.lt_or_ge 10 (hex t).length with g | g
      · exact g
      · exact absurd (hl.1 g) h
    rw [if_pos this, if_neg h, value_take t 10 this]

private theorem value_fit1 (c : Nat) : value (fit 1 (hex c)) < 16 ∧ (c < 16 → value (fit 1 (hex c)) = c) := by
  unfold fit
  constructor
  · split
    · cases h : hex c with
      | nil => simp [value]
      | cons d ds =>
        have := hex_digits c d (by rw [h]; simp)
        simpa [value] using this
    · next hl =>
      rw [value_replicate, value_hex]
      have := (hex_length 0 c).1 (by omega)
      omega
  · intro hc
    have := (hex_length 0 c).2 (by omega)
    rw [if_neg (by omega), value_replicate, value_hex]

/-- C89: what an identifier says: for times before the year 2527 (11 hexadecimal digits of milliseconds), two identifiers from the same
machine are different if they are made in different windows of 16 milliseconds, and also if they are made in the same millisecond and are
among the first 16 of that millisecond.  Missing from the full property: different milliseconds of a window, later calls of a
millisecond (`C89_window_refuted`, `C89_counter_refuted`). -/
theorem C89_unique_partial (machine : List Nat) (s s' : IdState) (t t' : Nat) (ht : 16 ^ 10 ≤ t) (ht' : 16 ^ 10 ≤ t') (hu : t < 16 ^ 11)
    (hu' : t' < 16 ^ 11) (a b : Nat) (ha : (composeId machine s t).2 = some a) (hb : (composeId machine s' t').2 = some b) :
    (t / 16 ≠ t' / 16 → a ≠ b) ∧
    (t = t' → (getCounter s t).2 < 16 → (getCounter s' t').2 < 16 → (getCounter s t).2 ≠ (getCounter s' t').2 → a ≠ b) := by
  have val : ∀ u, 16 ^ 10 ≤ u → u < 16 ^ 11 → value (fit 10 (hex u)) = u / 16 := by
    intro u h1 h2
    rw [value_fit10, if_neg (by omega)]
    have e1 := (hex_length 10 u).2 h2
    have e2 : ¬ (hex u).length ≤ 10 := fun h => absurd ((hex_length 9 u).1 h) (by omega)
    rw [show (hex u).length - 10 = 1 by omega, Nat.pow_one]
  have form : ∀ (r : IdState) u x, 16 ^ 10 ≤ u → u < 16 ^ 11 → (composeId machine r u).2 = some x →
      x = (value machine * 16 ^ 10 + u / 16) * 16 + value (fit 1 (hex (getCounter r u).2)) := by
    intro r u x h1 h2 hx
    simp only [composeId] at hx
    split at hx
    · cases hx
      rw [value_append, value_append, fit_length, fit_length, val u h1 h2, Nat.pow_one]
    · cases hx
  have fa := form s t a ht hu ha
  have fb := form s' t' b ht' hu' hb
  obtain ⟨c1, c2⟩ := value_fit1 (getCounter s t).2
  obtain ⟨d1, d2⟩ := value_fit1 (getCounter s' t').2
  constructor
  · intro hne e
    rw [fa, fb] at e
    omega
  · intro he h1 h2 hne e
    subst he
    rw [fa, fb, c2 h1, d2 h2] at e
    omega

/-- C89 refuted: two identifiers that are asked for in different milliseconds of the same 16 milliseconds are the same: the last
digit of the time is cut off, and the counter starts again at 0. -/
theorem C89_window_refuted (machine : List Nat) (t t' : Nat) (htt : t ≠ t') (hw : t / 16 = t' / 16) (ht : 16 ^ 10 ≤ t) (hu : t < 16 ^ 11) :
    ∃ id, composeIds machine .init [t, t'] = [id, id] := by
  have ht' : 16 ^ 10 ≤ t' := by omega
  have hu' : t' < 16 ^ 11 := by omega
  have val : ∀ u, 16 ^ 10 ≤ u → u < 16 ^ 11 → fit 10 (hex u) = hex (u / 16) := by
    intro u h1 h2
    have e1 := (hex_length 10 u).2 h2
    have e2 : ¬ (hex u).length ≤ 10 := fun h => absurd ((hex_length 9 u).1 h) (by omega)
    have hlt : ¬ u < 16 := by omega
    unfold fit
    rw [if_pos (by omega)]
    have he : hex u = hex (u / 16) ++ [u % 16] := by rw [hex, if_neg hlt]
    rw [he] at e1 e2 ⊢
    simp only [List.length_append, List.length_cons, List.length_nil] at e1 e2
    rw [List.take_append_of_le_length (by omega), List.take_of_length_le (by omega)]
  have hc : (getCounter (getCounter .init t).1 t').2 = 0 := by
    simp [getCounter, IdState.init, htt]
  refine ⟨(composeId machine .init t).2, ?_⟩
  simp only [composeIds, composeId, val t ht hu, val t' ht' hu', hw, hc]
  simp [getCounter, IdState.init]

/-- C89 refuted: the 17th identifier of a millisecond is the same as the second one: only the first digit of the counter is
used. -/
theorem C89_counter_refuted (machine : List Nat) (t : Nat) :
    (composeId machine ⟨16, some t⟩ t).2 = (composeId machine ⟨1, some t⟩ t).2 ∧
    (composeIds machine .init (List.replicate 17 t))[16]? = (composeIds machine .init (List.replicate 17 t))[1]? := by
  have e : fit 1 (hex 16) = fit 1 (hex 1) := by decide +kernel
  have h1 : (composeId machine ⟨16, some t⟩ t).2 = (composeId machine ⟨1, some t⟩ t).2 := by
    simp [composeId, getCounter, e]
  refine ⟨h1, ?_⟩
  have step : ∀ c, (composeId machine ⟨c, some t⟩ t).1 = ⟨c + 1, some t⟩ := by
    intro c
    simp [composeId, getCounter]
  have first : (composeId machine .init t).1 = ⟨1, some t⟩ := by simp [composeId, getCounter, IdState.init]
  simp only [List.replicate, composeIds, first, step]
  simp only [List.getElem?_cons_succ, List.getElem?_cons_zero]
  rw [h1]

-- the time is 2024-01-01; two milliseconds later
example : (composeIds [10, 11] .init [1704067200000, 1704067200000, 1704067200016]).map (·.isSome) = [true, true, true] := by
  decide +kernel
example : composeIds [] .init [1704067200000, 1704067200002] = [some 1704067200000, some 1704067200000] := by decide +kernel
example : (16 : Nat) ^ 10 ≤ 1704067200000 ∧ 1704067200000 < 16 ^ 11 := by decide

end Verif.Social
