import Verif.RtNs.WaitModel
/-
C13: Await, Shutdown and failing runnables.
-/
namespace Verif.RtNs.Wait

/-- The job's Run was called and has not returned. -/
def Job.active (j : Job) : Prop := j.pc = .running

instance (j : Job) : Decidable j.active := inferInstanceAs (Decidable (_ = _))

def tally (f : Job → Int) : List Job → Int
  | [] => 0
  | j :: l => f j + tally f l

theorem tally_append (f : Job → Int) (l l' : List Job) : tally f (l ++ l') = tally f l + tally f l' := by
  induction l with
  | nil => simp [tally]
  | cons j l ih => simp only [List.cons_append, tally, ih]; omega

theorem tally_set (f : Job → Int) : ∀ (l : List Job) (i : Nat) (j k : Job), l[i]? = some j →
    tally f (l.set i k) = tally f l - f j + f k := by
  intro l
  induction l with
  | nil => intro i j k h; simp at h
  | cons a l ih =>
    intro i j k h
    cases i with
    | zero => simp at h; subst h; simp only [List.set_cons_zero, tally]; omega
    | succ i =>
      simp only [List.getElem?_cons_succ] at h
      simp only [List.set_cons_succ, tally, ih i j k h]; omega

theorem tally_nonneg (f : Job → Int) (hf : ∀ j, 0 ≤ f j) (l : List Job) : 0 ≤ tally f l := by
  induction l with
  | nil => simp [tally]
  | cons j l ih => have := hf j; simp only [tally]; omega

theorem tally_zero (f : Job → Int) (hf : ∀ j, 0 ≤ f j) (l : List Job) (h : tally f l = 0) :
    ∀ j ∈ l, f j = 0 := by
  induction l with
  | nil => simp
  | cons a l ih =>
    simp only [tally] at h
    have h1 := hf a
    have h2 := tally_nonneg f hf l
    intro j hj
    rcases List.mem_cons.1 hj with rfl | hj
    · omega
    · exact ih (by omega) j hj

/-- What a job contributes to its own wait group. -/
def Pc.own : Pc → Int
  | .added | .running | .failing | .leaving => 1
  | _ => 0

/-- What a job contributes to the wait group of the parent. -/
def Pc.par : Pc → Int
  | .running | .failing | .leaving | .leavingParent => 1
  | _ => 0

def contrib (parent : Nat → Option Nat) (m : Nat) (j : Job) : Int :=
  (if j.ns = m then j.pc.own else 0) + (if parent j.ns = some m then j.pc.par else 0)

theorem contrib_nonneg (parent : Nat → Option Nat) (m : Nat) (j : Job) : 0 ≤ contrib parent m j := by
  have h1 : 0 ≤ j.pc.own := by cases j.pc <;> simp [Pc.own]
  have h2 : 0 ≤ j.pc.par := by cases j.pc <;> simp [Pc.par]
  unfold contrib
  split <;> split <;> omega

structure Inv (s : St) : Prop where
  parent : ∀ c p, s.parent c = some p → p < c ∧ c < s.size
  jobs : ∀ j ∈ s.jobs, j.ns < s.size ∧ (j.pc = .leavingParent → s.parent j.ns ≠ none) ∧
    (j.err = true → (j.pc = .leaving ∨ j.pc = .leavingParent ∨ j.pc = .finished) →
      s.cancelled j.ns = true)
  wg : ∀ m, s.wg m = tally (contrib s.parent m) s.jobs

theorem tally_congr (f g : Job → Int) (l : List Job) (h : ∀ j ∈ l, f j = g j) :
    tally f l = tally g l := by
  induction l with
  | nil => rfl
  | cons a l ih =>
    simp only [tally, h a (List.mem_cons_self ..), ih fun j hj => h j (List.mem_cons_of_mem _ hj)]

theorem mem_set_cases {l : List Job} {i : Nat} {k j : Job} (h : j ∈ l.set i k) : j = k ∨ j ∈ l := by
  rcases List.mem_or_eq_of_mem_set h with h | h
  · exact .inr h
  · exact .inl h

theorem inv_step {s s' : St} (e : Step) (h : Inv s) (hs : s.step e = some s') : Inv s' := by
  cases e with
  | newChild p =>
    simp only [St.step] at hs
    split at hs
    · next hp =>
      injection hs with hs; subst hs
      refine ⟨?_, ?_, ?_⟩
      · intro c q hc
        simp only at hc ⊢
        by_cases hcs : c = s.size
        · simp only [hcs, if_true, Option.some.injEq] at hc; omega
        · simp only [hcs, if_false] at hc
          have := h.parent c q hc; omega
      · intro j hj
        obtain ⟨a, b, c⟩ := h.jobs j hj
        have : j.ns ≠ s.size := by omega
        simp only [this, if_false]
        exact ⟨by omega, b, c⟩
      · intro m
        simp only
        rw [h.wg m]
        refine tally_congr _ _ _ fun j hj => ?_
        have : j.ns ≠ s.size := by have := (h.jobs j hj).1; omega
        simp [contrib, this]
    · simp at hs
  | start ns =>
    simp only [St.step] at hs
    split at hs
    · next hns =>
      injection hs with hs; subst hs
      refine ⟨h.parent, ?_, ?_⟩
      · intro j hj
        simp only [List.mem_append, List.mem_singleton] at hj
        rcases hj with hj | rfl
        · exact h.jobs j hj
        · exact ⟨hns, by simp, by simp⟩
      · intro m
        simp only [St.add, tally_append, tally, contrib, Pc.own, Pc.par, ite_self, h.wg m]
        by_cases hm : m = ns
        · simp [hm]
        · simp [hm, Ne.symm hm]
    · simp at hs
  | go i =>
    simp only [St.step] at hs
    split at hs
    · next ns e hj =>
      have hmem := List.mem_of_getElem? hj
      injection hs with hs; subst hs
      obtain ⟨a, b, c⟩ := h.jobs _ hmem
      cases hp : s.parent ns with
      | none =>
        refine ⟨h.parent, ?_, ?_⟩
        · intro j hjm
          rcases mem_set_cases hjm with rfl | hjm
          · exact ⟨a, by simp, by simp⟩
          · exact h.jobs j hjm
        · intro m
          simp only
          rw [tally_set _ _ _ _ _ hj, h.wg m]
          simp [contrib, hp, Pc.own]
      | some p =>
        refine ⟨h.parent, ?_, ?_⟩
        · intro j hjm
          rcases mem_set_cases hjm with rfl | hjm
          · exact ⟨a, by simp, by simp⟩
          · exact h.jobs j hjm
        · intro m
          simp only [St.add]
          rw [tally_set _ _ _ _ _ hj, h.wg m]
          simp only [contrib, hp, Pc.own, Pc.par, Option.some.injEq]
          by_cases hm : p = m <;> by_cases hm' : ns = m <;> simp [hm, hm', Ne.symm] <;> omega
    · simp at hs
  | ret i err =>
    simp only [St.step] at hs
    split at hs
    · next ns e hj =>
      have hmem := List.mem_of_getElem? hj
      injection hs with hs; subst hs
      obtain ⟨a, b, c⟩ := h.jobs _ hmem
      refine ⟨h.parent, ?_, ?_⟩
      · intro j hjm
        rcases mem_set_cases hjm with rfl | hjm
        · cases err <;> exact ⟨a, by simp, by simp⟩
        · exact h.jobs j hjm
      · intro m
        simp only
        rw [tally_set _ _ _ _ _ hj, h.wg m]
        cases err <;> simp [contrib, Pc.own, Pc.par]
    · simp at hs
  | next i =>
    simp only [St.step] at hs
    split at hs
    · next ns e hj =>
      have hmem := List.mem_of_getElem? hj
      injection hs with hs; subst hs
      obtain ⟨a, b, c⟩ := h.jobs _ hmem
      refine ⟨h.parent, ?_, ?_⟩
      · intro j hjm
        rcases mem_set_cases hjm with rfl | hjm
        · exact ⟨a, by simp, by simp⟩
        · obtain ⟨a', b', c'⟩ := h.jobs j hjm
          refine ⟨a', b', fun h1 h2 => ?_⟩
          simp only
          split
          · rfl
          · exact c' h1 h2
      · intro m
        simp only
        rw [tally_set _ _ _ _ _ hj, h.wg m]
        simp [contrib, Pc.own, Pc.par]
    · next ns e hj =>
      have hmem := List.mem_of_getElem? hj
      injection hs with hs; subst hs
      obtain ⟨a, b, c⟩ := h.jobs _ hmem
      refine ⟨h.parent, ?_, ?_⟩
      · intro j hjm
        rcases mem_set_cases hjm with rfl | hjm
        · refine ⟨a, ?_, fun h1 _ => c h1 (.inl rfl)⟩
          simp only [St.add]
          cases s.parent ns <;> simp
        · exact h.jobs j hjm
      · intro m
        simp only [St.add]
        rw [tally_set _ _ _ _ _ hj, h.wg m]
        cases hp : s.parent ns with
        | none =>
          simp only [contrib, Pc.own, Pc.par, hp]
          by_cases hm : m = ns <;> simp [hm, Ne.symm] <;> omega
        | some p =>
          simp only [contrib, Pc.own, Pc.par, hp]
          by_cases hm : m = ns
          · subst hm
            by_cases hm' : p = m <;> simp [hm'] <;> omega
          · have hm2 : ¬ ns = m := fun h => hm h.symm
            by_cases hm' : p = m <;> simp [hm, hm2, hm'] <;> omega
    · next ns e hj =>
      have hmem := List.mem_of_getElem? hj
      obtain ⟨a, b, c⟩ := h.jobs _ hmem
      split at hs
      · next p hp =>
        injection hs with hs; subst hs
        refine ⟨h.parent, ?_, ?_⟩
        · intro j hjm
          rcases mem_set_cases hjm with rfl | hjm
          · exact ⟨a, by simp, fun h1 _ => c h1 (.inr (.inl rfl))⟩
          · exact h.jobs j hjm
        · intro m
          simp only [St.add]
          rw [tally_set _ _ _ _ _ hj, h.wg m]
          simp only [contrib, hp, Pc.own, Pc.par, Option.some.injEq]
          by_cases hm : m = p
          · subst hm; simp; omega
          · have hm2 : ¬ p = m := fun h => hm h.symm
            simp [hm, hm2]
      · simp at hs
    · simp at hs
  | shutdown ns =>
    simp only [St.step, Option.some.injEq] at hs
    subst hs
    refine ⟨h.parent, ?_, h.wg⟩
    intro j hj
    obtain ⟨a', b', c'⟩ := h.jobs j hj
    refine ⟨a', b', fun h1 h2 => ?_⟩
    simp only
    split
    · rfl
    · exact c' h1 h2

theorem inv {s : St} (h : Reach s) : Inv s := by
  induction h with
  | init => exact ⟨by simp [St.init], by simp [St.init], fun m => rfl⟩
  | step e _ hs ih => exact inv_step e ih hs

/-- C13, proved part: when Await on a namespace returns, every Runnable that was started
in it or in one of its children has returned, and if one of the namespace's own failed,
its context has been cancelled.  Missing: Runnables of deeper descendants. -/
theorem C13_await_partial {s : St} (h : Reach s) (ns : Nat) (ha : s.awaitReturns ns) :
    ∀ j ∈ s.jobs, (j.ns = ns ∨ s.parent j.ns = some ns) →
      ¬ j.active ∧ (j.ns = ns → j.err = true → s.ctxDone ns) := by
  have hi := inv h
  intro j hj hns
  have hz : tally (contrib s.parent ns) s.jobs = 0 := by rw [← hi.wg]; exact ha
  have h0 := tally_zero _ (contrib_nonneg s.parent ns) _ hz j hj
  unfold contrib at h0
  constructor
  · intro hact
    simp only [Job.active] at hact
    rw [hact] at h0
    simp only [Pc.own, Pc.par] at h0
    rcases hns with h1 | h1 <;> simp only [h1, if_true] at h0 <;> split at h0 <;> omega
  · intro h1 herr
    refine .here ?_
    have hown : j.pc.own = 0 := by
      rw [h1] at h0
      simp only [if_true] at h0
      have : 0 ≤ (if s.parent ns = some ns then j.pc.par else 0) := by
        split
        · unfold Pc.par; split <;> omega
        · omega
      have : 0 ≤ j.pc.own := by unfold Pc.own; split <;> omega
      omega
    rw [← h1]
    refine (hi.jobs j hj).2.2 herr ?_
    cases hpc : j.pc <;> rw [hpc] at hown <;> simp [Pc.own] at hown <;> simp

/-- C13: a failing Runnable cancels the context of its namespace, and with it that of all
descendants, before Await can return. -/
theorem C13_failure_cancels {s : St} (h : Reach s) (j : Job) (hj : j ∈ s.jobs) (he : j.err = true)
    (hp : j.pc ≠ .failing) : s.ctxDone j.ns ∧ ∀ c, s.parent c = some j.ns → s.ctxDone c := by
  have hi := inv h
  have herr : ∀ {t : St}, Reach t → ∀ k ∈ t.jobs, k.err = true → k.pc ≠ .added ∧ k.pc ≠ .running := by
    intro t ht
    induction ht with
    | init => simp [St.init]
    | @step a b e _ hs ih =>
      intro k hk hke
      cases e with
      | newChild p =>
        simp only [St.step] at hs
        split at hs
        · injection hs with hs; subst hs; exact ih k hk hke
        · simp at hs
      | start ns =>
        simp only [St.step] at hs
        split at hs
        · injection hs with hs; subst hs
          simp only [List.mem_append, List.mem_singleton] at hk
          rcases hk with hk | rfl
          · exact ih k hk hke
          · simp at hke
        · simp at hs
      | go i =>
        simp only [St.step] at hs
        split at hs
        · next ns e' hj' =>
          injection hs with hs; subst hs
          have hm := List.mem_of_getElem? hj'
          have hk' : k ∈ a.jobs.set i ⟨ns, .running, e'⟩ := by
            cases hp : a.parent ns <;> simp only [hp] at hk <;> exact hk
          rcases mem_set_cases hk' with rfl | hk'
          · exact absurd rfl (ih _ hm hke).1
          · exact ih k hk' hke
        · simp at hs
      | ret i err =>
        simp only [St.step] at hs
        split at hs
        · injection hs with hs; subst hs
          rcases mem_set_cases hk with rfl | hk
          · cases err <;> simp
          · exact ih k hk hke
        · simp at hs
      | next i =>
        simp only [St.step] at hs
        split at hs
        · injection hs with hs; subst hs
          rcases mem_set_cases hk with rfl | hk
          · simp
          · exact ih k hk hke
        · injection hs with hs; subst hs
          rcases mem_set_cases hk with rfl | hk
          · simp only; split <;> simp
          · exact ih k hk hke
        · split at hs
          · injection hs with hs; subst hs
            rcases mem_set_cases hk with rfl | hk
            · simp
            · exact ih k hk hke
          · simp at hs
        · simp at hs
      | shutdown ns =>
        simp only [St.step, Option.some.injEq] at hs
        subst hs; exact ih k hk hke
  have hpc : j.pc = .leaving ∨ j.pc = .leavingParent ∨ j.pc = .finished := by
    have := herr h j hj he
    cases hpc : j.pc <;> simp_all
  have hc : s.ctxDone j.ns := .here ((hi.jobs j hj).2.2 he hpc)
  exact ⟨hc, fun c hpc => .up hpc hc⟩

/-- C13: Shutdown and failures reach every descendant: once a context is done it stays
done. -/
theorem C13_done_stays {s s' : St} (e : Step) (h : Reach s) (hs : s.step e = some s') (ns : Nat)
    (hd : s.ctxDone ns) : s'.ctxDone ns := by
  have hi := inv h
  have hk : (∀ m, s.cancelled m = true → s'.cancelled m = true) ∧
      ∀ m p, s.parent m = some p → s'.parent m = some p := by
    cases e with
    | newChild p =>
      simp only [St.step] at hs
      split at hs
      · injection hs with hs; subst hs
        refine ⟨fun m h => h, fun m q hq => ?_⟩
        have := hi.parent m q hq
        have : m ≠ s.size := by omega
        simp [this, hq]
      · simp at hs
    | start ns =>
      simp only [St.step] at hs
      split at hs
      · injection hs with hs; subst hs; exact ⟨fun m h => h, fun m q h => h⟩
      · simp at hs
    | go i =>
      simp only [St.step] at hs
      split at hs
      · next ns e' _ =>
        injection hs with hs; subst hs
        cases hp : s.parent ns <;> exact ⟨fun m h => h, fun m q h => h⟩
      · simp at hs
    | ret i err =>
      simp only [St.step] at hs
      split at hs
      · injection hs with hs; subst hs; exact ⟨fun m h => h, fun m q h => h⟩
      · simp at hs
    | next i =>
      simp only [St.step] at hs
      split at hs
      · injection hs with hs; subst hs
        refine ⟨fun m h => ?_, fun m q h => h⟩
        simp only; split
        · rfl
        · exact h
      · injection hs with hs; subst hs; exact ⟨fun m h => h, fun m q h => h⟩
      · split at hs
        · injection hs with hs; subst hs; exact ⟨fun m h => h, fun m q h => h⟩
        · simp at hs
      · simp at hs
    | shutdown n =>
      simp only [St.step, Option.some.injEq] at hs
      subst hs
      refine ⟨fun m h => ?_, fun m q h => h⟩
      simp only; split
      · rfl
      · exact h
  induction hd with
  | here h => exact .here (hk.1 _ h)
  | up hp _ ih => exact .up (hk.2 _ _ hp) ih

/-- C13: the wait groups never go negative (which would panic), and once every job has
finished, Await returns on every namespace. -/
theorem C13_await_returns {s : St} (h : Reach s) :
    (∀ ns, 0 ≤ s.wg ns) ∧ ((∀ j ∈ s.jobs, j.pc = .finished) → ∀ ns, s.awaitReturns ns) := by
  have hi := inv h
  constructor
  · intro ns
    rw [hi.wg]; exact tally_nonneg _ (contrib_nonneg _ _) _
  · intro hf ns
    show s.wg ns = 0
    rw [hi.wg, tally_congr _ (fun _ => 0) _ fun j hj => by simp [contrib, hf j hj, Pc.own, Pc.par]]
    induction s.jobs with
    | nil => rfl
    | cons a l ih => simpa [tally] using ih

/-- C13: after its Run has returned, a job can always take its next step, so Await is
never stuck on it. -/
theorem C13_not_stuck {s : St} (h : Reach s) (i : Nat) (j : Job) (hj : s.jobs[i]? = some j)
    (hp : j.pc = .failing ∨ j.pc = .leaving ∨ j.pc = .leavingParent) : ∃ s', s.step (.next i) = some s' := by
  have hi := inv h
  have hm := (hi.jobs j (List.mem_of_getElem? hj)).2.1
  obtain ⟨ns, pc, e⟩ := j
  simp only at hp hm
  rcases hp with rfl | rfl | rfl <;> simp only [St.step, hj]
  · exact ⟨_, rfl⟩
  · exact ⟨_, rfl⟩
  · cases hpar : s.parent ns with
    | none => exact absurd hpar (hm rfl)
    | some p => exact ⟨_, rfl⟩

/-- A run with a parent, a child and three Runnables, one of which fails. -/
def demo : List Step :=
  [.newChild 0, .start 1, .go 0, .start 1, .go 1, .start 0, .go 2, .ret 0 true, .next 0, .next 0,
   .next 0, .ret 1 false, .next 1, .next 1, .shutdown 0, .ret 2 false, .next 2]

def runAll : St → List Step → Option St
  | s, [] => some s
  | s, e :: es => match s.step e with
    | some s' => runAll s' es
    | none => none

theorem runAll_reach {s s' : St} (h : Reach s) : ∀ {es : List Step}, runAll s es = some s' → Reach s' := by
  intro es
  induction es generalizing s with
  | nil => intro hs; simp only [runAll, Option.some.injEq] at hs; subst hs; exact h
  | cons e es ih =>
    intro hs
    simp only [runAll] at hs
    cases he : s.step e with
    | none => simp [he] at hs
    | some s1 => simp only [he] at hs; exact ih (.step e h he) hs

example : ∃ s, runAll .init demo = some s ∧ s.wg 0 = 0 ∧ s.wg 1 = 0 ∧ s.jobs.length = 3 ∧
    (∀ j ∈ s.jobs, j.pc = .finished) ∧ s.cancelled 1 = true :=
  ⟨_, rfl, by decide, by decide, by decide, by decide, by decide⟩

/-- In the middle of that run nobody's Await returns. -/
example : ∃ s, runAll .init (demo.take 8) = some s ∧ s.wg 0 = 3 ∧ s.wg 1 = 2 :=
  ⟨_, rfl, by decide, by decide⟩

/-- C13 fails for deeper descendants: Await on a namespace returns while a Runnable of a
grandchild is running, since only the namespace itself and its parent count it. -/
theorem C13_grandchild_refuted : ∃ s, Reach s ∧ s.awaitReturns 0 ∧ s.parent 2 = some 1 ∧
    s.parent 1 = some 0 ∧ ∃ j ∈ s.jobs, j.ns = 2 ∧ j.active :=
  ⟨_, runAll_reach .init (show runAll .init [.newChild 0, .newChild 1, .start 2, .go 0] = some _ from rfl),
    rfl, rfl, rfl, ⟨2, .running, false⟩, by decide, rfl, rfl⟩

/-- C13 fails in part: a failing Runnable of a child does not cancel the context of the
parent, although the parent waits for it. -/
theorem C13_parent_not_cancelled_refuted : ∃ s, Reach s ∧ s.awaitReturns 0 ∧ s.parent 1 = some 0 ∧
    (∃ j ∈ s.jobs, j.ns = 1 ∧ j.err = true) ∧ ¬ s.ctxDone 0 :=
  ⟨_, runAll_reach .init (show runAll .init
      [.newChild 0, .start 1, .go 0, .ret 0 true, .next 0, .next 0, .next 0] = some _ from rfl),
    by show (_ : Int) = 0; decide, rfl, ⟨⟨1, .finished, true⟩, by decide, rfl, rfl⟩, by
      intro h
      cases h with
      | here h => simp [St.add, St.init] at h
      | up h => simp [St.add, St.init] at h⟩

end Verif.RtNs.Wait
