import Verif.Registry.Spec
/-
C07: the service registry.
-/
namespace Verif.Registry
variable {R : Type}

private theorem run_append (a b : List (Op R)) : ∀ s : State R,
    run s (a ++ b) = ((run (run s a).1 b).1, (run s a).2 ++ (run (run s a).1 b).2) := by
  induction a with
  | nil => intro s; simp [run]
  | cons op ops ih => intro s; cases op <;> simp [run, ih]

private theorem run_built (ops : List (Op R)) : ∀ (s : State R) (r), s.result = some r →
    (run s ops).1.result = some r ∧ ∀ x ∈ (run s ops).2, x = (r, none) := by
  induction ops with
  | nil => intro s r h; simp [run, h]
  | cons op ops ih =>
    intro s r h
    cases op with
    | setDefault n => simpa [run] using ih (setDefault s n) r (by simpa [setDefault] using h)
    | register n f =>
      simpa [run] using ih (register s n f) r (by simp only [register]; split <;> simpa using h)
    | get w =>
      have hg : get s w = (s, r, none) := by simp [get, h]
      have := ih s r h
      simp only [run, hg]
      refine ⟨this.1, ?_⟩
      intro x hx
      rcases List.mem_cons.1 hx with rfl | hx
      · rfl
      · exact this.2 x hx

private theorem get_sets (s : State R) (w) : ∃ r, (get s w).1.result = some r ∧ (get s w).2.1 = r := by
  unfold get
  cases h : s.result with
  | some r => exact ⟨r, by simp [h]⟩
  | none =>
    simp only
    split
    · exact ⟨_, rfl, rfl⟩
    · split <;> exact ⟨_, rfl, rfl⟩

private theorem run_trace (ops : List (Op R)) : ∀ s : State R,
    (run s ops).2 = [] ∨ ∃ r f rest, (run s ops).2 = (r, f) :: rest ∧ ∀ x ∈ rest, x = (r, none) := by
  induction ops with
  | nil => intro s; simp [run]
  | cons op ops ih =>
    intro s
    cases op with
    | setDefault n => simpa [run] using ih (setDefault s n)
    | register n f => simpa [run] using ih (register s n f)
    | get w =>
      right
      obtain ⟨r, h1, h2⟩ := get_sets s w
      refine ⟨r, (get s w).2.2, (run (get s w).1 ops).2, by simp [run, ← h2], ?_⟩
      exact (run_built ops _ r h1).2

/-- C07, at most once and cached: over any history, all Gets return the same result as the first one, and
only the first one may run a build function (so at most one build is run). -/
theorem C07_built_at_most_once_and_cached (ops : List (Op R)) :
    (run (init R) ops).2 = [] ∨
    ∃ r f rest, (run (init R) ops).2 = (r, f) :: rest ∧ ∀ x ∈ rest, x = (r, none) :=
  run_trace ops (init R)

/-- C07, as a count of builds. -/
theorem C07_builds_at_most_one (ops : List (Op R)) :
    (((run (init R) ops).2.filterMap (·.2)).length ≤ 1) := by
  rcases run_trace ops (init R) with h | ⟨r, f, rest, h, hr⟩
  · simp [h]
  · rw [h]
    have : rest.filterMap (·.2) = [] := by
      rw [List.filterMap_eq_nil_iff]; intro x hx; rw [hr x hx]
    cases f <;> simp [this]

private theorem lastRegistered_append (n : String) (a b : List (Op R)) :
    lastRegistered n (a ++ b) = (lastRegistered n b).or (lastRegistered n a) := by
  induction a with
  | nil => simp [lastRegistered]
  | cons op ops ih =>
    simp only [List.cons_append, lastRegistered, ih]
    cases lastRegistered n b <;> simp

private theorem lastSetDefault_append (a b : List (Op R)) :
    lastSetDefault (a ++ b) = (lastSetDefault b).or (lastSetDefault a) := by
  induction a with
  | nil => simp [lastSetDefault]
  | cons op ops ih =>
    simp only [List.cons_append, lastSetDefault, ih]
    cases lastSetDefault b <;> simp

private theorem firstRegistered_append (a b : List (Op R)) :
    firstRegistered (a ++ b) = (firstRegistered a).or (firstRegistered b) := by
  induction a with
  | nil => simp [firstRegistered]
  | cons op ops ih => cases op <;> simp [firstRegistered, ih]

private theorem afterFirst_append (a b : List (Op R)) :
    afterFirstRegister (a ++ b) =
      match firstRegistered a with
      | some _ => afterFirstRegister a ++ b
      | none => afterFirstRegister b := by
  induction a with
  | nil => simp [firstRegistered]
  | cons op ops ih => cases op <;> simp [afterFirstRegister, firstRegistered, ih]

/-- State before the first Get, described by the history. -/
private structure Desc (h : List (Op R)) (s : State R) : Prop where
  unbuilt : s.result = none
  empty : s.registered = [] ↔ firstRegistered h = none
  look : ∀ n, lookup s.registered n = lastRegistered n h
  dflt : ∀ n, firstRegistered h = some n →
    s.defaultBuildFunc = (lastSetDefault (afterFirstRegister h)).getD n

private theorem desc (h : List (Op R)) (hg : ∀ op ∈ h, op.isGet = false) :
    Desc h (run (init R) h).1 := by
  suffices hs : ∀ (r : List (Op R)), (∀ op ∈ r.reverse, op.isGet = false) →
      Desc r.reverse (run (init R) r.reverse).1 by
    have := hs h.reverse (by simpa using hg)
    simpa using this
  intro r
  induction r with
  | nil => intro _; exact ⟨rfl, by simp [run, init, firstRegistered], fun n => by simp [run, init, lookup, lastRegistered],
      fun n hn => by simp [firstRegistered] at hn⟩
  | cons op r ih =>
    intro hg
    have hd := ih (fun x hx => hg x (by simp at hx ⊢; exact .inl hx))
    have hop := hg op (by simp)
    obtain ⟨h1, h2, h3, h4⟩ := hd
    rw [List.reverse_cons, run_append]
    generalize run (init R) r.reverse = p at *
    generalize r.reverse = h at *
    cases op with
    | get w => simp [Op.isGet] at hop
    | setDefault m =>
      simp only [run, setDefault]
      refine ⟨h1, ?_, ?_, ?_⟩
      · rw [h2, firstRegistered_append]; simp [firstRegistered]
      · intro n; rw [h3 n, lastRegistered_append]; simp [lastRegistered]
      · intro n hn
        rw [firstRegistered_append] at hn
        have hn : firstRegistered h = some n := by simpa [firstRegistered] using hn
        rw [afterFirst_append, hn]
        simp [lastSetDefault_append, lastSetDefault]
    | register m f =>
      by_cases he : p.1.registered = []
      · have hf := h2.1 he
        simp only [run, register, he]
        refine ⟨by simpa using h1, ?_, ?_, ?_⟩
        · rw [firstRegistered_append, hf]; simp [firstRegistered]
        · intro n
          have := h3 n
          rw [he] at this
          rw [lastRegistered_append, ← this]
          simp only [lookup, lastRegistered]
          by_cases hmn : m = n <;> simp [hmn]
        · intro n hn
          rw [firstRegistered_append, hf] at hn
          have hn : m = n := by simpa [firstRegistered] using hn
          rw [afterFirst_append, hf]
          simp [afterFirstRegister, lastSetDefault, hn]
      · have hf : firstRegistered h ≠ none := fun hh => he (h2.2 hh)
        obtain ⟨fn, hfn⟩ := Option.ne_none_iff_exists'.1 hf
        have hlen : ¬ p.1.registered.length = 0 := by simpa using he
        simp only [run, register, hlen, if_false]
        refine ⟨h1, ?_, ?_, ?_⟩
        · rw [firstRegistered_append, hfn]; simp
        · intro n
          rw [lastRegistered_append, ← h3 n]
          simp only [lookup, lastRegistered]
          by_cases hmn : m = n <;> simp [hmn]
        · intro n hn
          rw [firstRegistered_append, hfn] at hn
          have hn : fn = n := by simpa using hn
          subst hn
          rw [afterFirst_append, hfn]
          simp [lastSetDefault_append, lastSetDefault, h4 fn hfn]

/-- C07, first Get: it returns an error and runs nothing if nothing was registered.  Otherwise the default
name is the one given by the last SetDefault since the first registration, and the first registered name if
there is none; the Get runs the function last registered under that name and returns what it returns, and
if no function was registered under that name it returns an error naming it and runs nothing. -/
theorem C07_first_get_builds_default (h : List (Op R)) (hg : ∀ op ∈ h, op.isGet = false) (w : Nat → R) :
    (firstRegistered h = none →
      (run (init R) (h ++ [.get w])).2 = [(.noClients, none)]) ∧
    (∀ first name, firstRegistered h = some first →
      (lastSetDefault (afterFirstRegister h)).getD first = name →
      (∀ f, lastRegistered name h = some f →
        (run (init R) (h ++ [.get w])).2 = [(.built (w f), some f)]) ∧
      (lastRegistered name h = none →
        (run (init R) (h ++ [.get w])).2 = [(.unknownDefault name, none)])) := by
  obtain ⟨h1, h2, h3, h4⟩ := desc h hg
  have hnil : (run (init R) h).2 = [] := by
    clear h1 h2 h3 h4
    suffices ∀ s : State R, (run s h).2 = [] from this _
    induction h with
    | nil => intro s; rfl
    | cons op ops ih =>
      intro s
      have hh := ih (fun x hx => hg x (by simp [hx]))
      have hop := hg op (by simp)
      cases op with
      | get w => simp [Op.isGet] at hop
      | setDefault n => simpa [run] using hh _
      | register n f => simpa [run] using hh _
  rw [run_append, hnil]
  simp only [run, List.nil_append]
  generalize run (init R) h = p at *
  refine ⟨?_, ?_⟩
  · intro hf
    simp [get, h1, h2.2 hf]
  · intro first name hf hname
    have hne : ¬ p.1.registered.length = 0 := by
      intro hh
      have := h2.1 (by simpa using hh)
      simp [hf] at this
    have hd := h4 first hf
    rw [hname] at hd
    refine ⟨?_, ?_⟩
    · intro f hlf
      have : lookup p.1.registered name = some f := by rw [h3]; exact hlf
      simp [get, h1, hne, hd, this]
    · intro hlf
      have : lookup p.1.registered name = none := by rw [h3]; exact hlf
      simp [get, h1, hne, hd, this]

/-- C07 is violated in one way: a SetDefault made before the first Register is silently overridden by
that Register, so the Get does not build the client that was asked for. -/
theorem C07_early_set_default_ignored_refuted :
    ∃ (h : List (Op Nat)) (name : String) (f : Nat), lastSetDefault h = some name ∧
      lastRegistered name h = some f ∧
      (run (init Nat) (h ++ [.get id])).2 = [(.built 7, some 7)] ∧ f ≠ 7 := by
  refine ⟨[.setDefault "mine", .register "other" 7, .register "mine" 8], "mine", 8, ?_⟩
  decide

/-! ### Concrete cases -/

example : firstRegistered (R := Nat) [.register "a" 1, .register "b" 2, .setDefault "b", .register "b" 3] = some "a" ∧
    (lastSetDefault (afterFirstRegister (R := Nat)
      [.register "a" 1, .register "b" 2, .setDefault "b", .register "b" 3])).getD "a" = "b" ∧
    lastRegistered (R := Nat) "b" [.register "a" 1, .register "b" 2, .setDefault "b", .register "b" 3] = some 3 := by
  decide

example : (run (init Nat) [.register "a" 1, .get (fun f => f + 10), .setDefault "b", .get (fun _ => 0)]).2 =
    [(.built 11, some 1), (.built 11, none)] := by decide

end Verif.Registry
