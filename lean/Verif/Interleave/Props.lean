import Verif.Interleave.Model
/-
Programs that work on different parts of a store do not disturb each other.
-/
namespace Verif.Interleave
variable {σ ρ : Type}

theorem steps_succ (n : Nat) : ∀ (p : Prog σ ρ) (s : σ), p.steps (n + 1) s =
    match p.steps n s with
    | (s', .act f k) => (f s', k s')
    | (s', .done r) => (s', .done r) := by
  induction n with
  | zero => intro p s; cases p <;> rfl
  | succ n ih =>
    intro p s
    cases p with
    | done r => rfl
    | act f k => exact ih (k s) (f s)

theorem steps_done {n : Nat} : ∀ {p : Prog σ ρ} {s : σ} {r : ρ}, (p.steps n s).2 = .done r → p.run s = ((p.steps n s).1, r) := by
  induction n with
  | zero => intro p s r h; cases h; rfl
  | succ n ih =>
    intro p s r h
    cases p with
    | done r' => cases h; rfl
    | act f k => exact ih h

/-- A program ends after some calls. -/
theorem ends (p : Prog σ ρ) : ∀ s, ∃ n, ∀ m, n ≤ m → ∃ r, (p.steps m s).2 = .done r := by
  induction p with
  | done r =>
    intro s
    exact ⟨0, fun m _ => ⟨r, by cases m <;> rfl⟩⟩
  | act f k ih =>
    intro s
    obtain ⟨n, hn⟩ := ih s (f s)
    refine ⟨n + 1, fun m hm => ?_⟩
    obtain ⟨m, rfl⟩ : ∃ k, m = k + 1 := ⟨m - 1, by omega⟩
    exact hn m (by omega)

section
variable {P : Type} (same : P → σ → σ → Prop)

/-- The program works on one part of the store: what it does there and how it goes on depend on this part only, and the other parts
stay as they are.  `same q s s'` says that `s` and `s'` agree on part `q`. -/
inductive Within (part : P) : Prog σ ρ → Prop where
  | done {r : ρ} : Within part (.done r)
  | act {f : σ → σ} {k : σ → Prog σ ρ} :
      (∀ s s', same part s s' → same part (f s) (f s') ∧ k s = k s') → (∀ q, q ≠ part → ∀ s, same q s (f s)) →
      (∀ s, Within part (k s)) → Within part (.act f k)

variable {same}

theorem within_steps {part : P} (n : Nat) : ∀ {p : Prog σ ρ} {s : σ}, Within same part p → Within same part (p.steps n s).2 := by
  induction n with
  | zero => intro p s h; exact h
  | succ n ih =>
    intro p s h
    cases h with
    | done => exact .done
    | act _ _ h3 => exact ih (h3 s)

theorem isolated (hrefl : ∀ q s, same q s s)
    (htrans : ∀ q a b c, same q a b → same q b c → same q a c) (s : σ) (ts : List (Prog σ ρ)) (own : Nat → P)
    (hown : ∀ i j, i < ts.length → j < ts.length → own i = own j → i = j)
    (hw : ∀ i p, ts[i]? = some p → Within same (own i) p) (sched : List Nat) :
    (∀ i p, ts[i]? = some p →
      same (own i) ((p.steps (sched.count i) s).1) ((Sys.run ⟨s, ts⟩ sched).store) ∧
      (Sys.run ⟨s, ts⟩ sched).threads[i]? = some (p.steps (sched.count i) s).2) ∧
    (Sys.run ⟨s, ts⟩ sched).threads.length = ts.length ∧
    ∀ q, (∀ i, i < ts.length → own i ≠ q) → same q s (Sys.run ⟨s, ts⟩ sched).store := by
  rw [← List.reverse_reverse sched]
  generalize sched.reverse = l
  induction l with
  | nil => exact ⟨fun i p hp => ⟨hrefl _ _, hp⟩, rfl, fun q _ => hrefl _ _⟩
  | cons j l ih =>
    obtain ⟨ih1, ih2, ih3⟩ := ih
    rw [List.reverse_cons]
    have hrun : Sys.run ⟨s, ts⟩ (l.reverse ++ [j]) = (Sys.run ⟨s, ts⟩ l.reverse).step j := by
      unfold Sys.run; rw [List.foldl_append]; rfl
    have hcount : ∀ i, (l.reverse ++ [j]).count i = l.reverse.count i + if j = i then 1 else 0 := by
      intro i
      rw [List.count_append]
      congr 1
      by_cases h : j = i
      · subst h; simp
      · simp [h]
    rw [hrun]
    generalize Sys.run ⟨s, ts⟩ l.reverse = S at ih1 ih2 ih3
    by_cases hj : j < ts.length
    · have hp : ts[j]? = some ts[j] := List.getElem?_eq_getElem hj
      obtain ⟨h1, h2⟩ := ih1 j _ hp
      cases ht : (ts[j].steps (l.reverse.count j) s).2 with
      | done r =>
        have hst : S.step j = S := by unfold Sys.step; rw [h2, ht]
        rw [hst]
        refine ⟨fun i p hp' => ?_, ih2, ih3⟩
        rw [hcount]
        by_cases hij : j = i
        · subst hij
          rw [if_pos rfl]
          rw [hp] at hp'
          cases hp'
          have e : ts[j].steps (l.reverse.count j + 1) s = ((ts[j].steps (l.reverse.count j) s).1, .done r) := by
            rw [steps_succ]
            cases h : ts[j].steps (l.reverse.count j) s with
            | mk a b => rw [h] at ht; simp only at ht; subst ht; rfl
          rw [e]
          exact ⟨h1, by rw [h2, ht]⟩
        · rw [if_neg hij, Nat.add_zero]
          exact ih1 i p hp'
      | act f k =>
        have hst : S.step j = ⟨f S.store, S.threads.set j (k S.store)⟩ := by unfold Sys.step; rw [h2, ht]
        rw [hst]
        have hwj := within_steps (l.reverse.count j) (s := s) (hw j _ hp)
        rw [ht] at hwj
        cases hwj with
        | act g1 g2 g3 =>
        have e : ts[j].steps (l.reverse.count j + 1) s =
            (f (ts[j].steps (l.reverse.count j) s).1, k (ts[j].steps (l.reverse.count j) s).1) := by
          rw [steps_succ]
          cases h : ts[j].steps (l.reverse.count j) s with
          | mk a b => rw [h] at ht; simp only at ht; subst ht; rfl
        refine ⟨fun i p hp' => ?_, by simpa using ih2, fun q hq => htrans _ _ _ _ (ih3 q hq) (g2 q (fun h => hq j hj h.symm) _)⟩
        rw [hcount]
        by_cases hij : j = i
        · subst hij
          rw [if_pos rfl]
          rw [hp] at hp'
          cases hp'
          rw [e]
          obtain ⟨k1, k2⟩ := g1 _ _ h1
          refine ⟨k1, ?_⟩
          simp only
          rw [List.getElem?_set_self (by omega), k2]
        · rw [if_neg hij, Nat.add_zero]
          obtain ⟨i1, i2⟩ := ih1 i p hp'
          have hi : i < ts.length := (List.getElem?_eq_some_iff.1 hp').1
          refine ⟨htrans _ _ _ _ i1 (g2 _ (fun h => hij (hown i j hi hj h).symm) _), ?_⟩
          simp only
          rw [List.getElem?_set_ne hij, i2]
    · have hst : S.step j = S := by
        unfold Sys.step
        rw [List.getElem?_eq_none (by omega)]
      rw [hst]
      refine ⟨fun i p hp' => ?_, ih2, ih3⟩
      have hi : i < ts.length := (List.getElem?_eq_some_iff.1 hp').1
      rw [hcount, if_neg (by omega), Nat.add_zero]
      exact ih1 i p hp'

/-- C125: goroutines that work on different parts of a store have, whatever the schedule, when all of them have ended, done and returned
what each of them does and returns alone; and what belongs to none of them is unchanged. -/
theorem C125_isolation (hrefl : ∀ q s, same q s s)
    (htrans : ∀ q a b c, same q a b → same q b c → same q a c) (s : σ) (ts : List (Prog σ ρ)) (own : Nat → P)
    (hown : ∀ i j, i < ts.length → j < ts.length → own i = own j → i = j)
    (hw : ∀ i p, ts[i]? = some p → Within same (own i) p) (sched : List Nat) (he : (Sys.run ⟨s, ts⟩ sched).Ended) :
    (∀ i p, ts[i]? = some p → same (own i) (p.run s).1 (Sys.run ⟨s, ts⟩ sched).store ∧
      (Sys.run ⟨s, ts⟩ sched).threads[i]? = some (.done (p.run s).2)) ∧
    ∀ q, (∀ i, i < ts.length → own i ≠ q) → same q s (Sys.run ⟨s, ts⟩ sched).store := by
  obtain ⟨h1, -, h3⟩ := isolated hrefl htrans s ts own hown hw sched
  refine ⟨fun i p hp => ?_, h3⟩
  obtain ⟨a, b⟩ := h1 i p hp
  obtain ⟨r, hr⟩ := he _ (List.mem_of_getElem? b)
  have := steps_done hr
  rw [this]
  exact ⟨a, by rw [b, hr]⟩

end

/-- C125: a schedule that gives every goroutine enough turns ends all of them, in whatever order it gives them, if they work on different
parts of the store. -/
theorem C125_finishes {P : Type} {same : P → σ → σ → Prop} (hrefl : ∀ q s, same q s s)
    (htrans : ∀ q a b c, same q a b → same q b c → same q a c) (s : σ) (ts : List (Prog σ ρ)) (own : Nat → P)
    (hown : ∀ i j, i < ts.length → j < ts.length → own i = own j → i = j)
    (hw : ∀ i p, ts[i]? = some p → Within same (own i) p) :
    ∃ n, ∀ sched : List Nat, (∀ i, i < ts.length → n ≤ sched.count i) → (Sys.run ⟨s, ts⟩ sched).Ended := by
  have hb : ∀ l : List (Prog σ ρ), ∃ n, ∀ p ∈ l, ∀ m, n ≤ m → ∃ r, (p.steps m s).2 = .done r := by
    intro l
    induction l with
    | nil => exact ⟨0, by simp⟩
    | cons p l ih =>
      obtain ⟨n, hn⟩ := ih
      obtain ⟨k, hk⟩ := ends p s
      refine ⟨n + k, fun q hq m hm => ?_⟩
      rcases List.mem_cons.1 hq with rfl | hq
      · exact hk m (by omega)
      · exact hn q hq m (by omega)
  obtain ⟨n, hn⟩ := hb ts
  refine ⟨n, fun sched hs t ht => ?_⟩
  obtain ⟨h1, h2, -⟩ := isolated hrefl htrans s ts own hown hw sched
  obtain ⟨i, hi, rfl⟩ := List.mem_iff_getElem.1 ht
  rw [h2] at hi
  obtain ⟨-, b⟩ := h1 i ts[i] (List.getElem?_eq_getElem hi)
  rw [List.getElem?_eq_getElem (by omega)] at b
  rw [Option.some.inj b]
  exact hn _ (List.getElem_mem hi) _ (hs i hi)

end Verif.Interleave
