import Verif.RtNs.Spec
/-
Invariants of runtime namespaces.
-/
namespace Verif.RtNs

structure WF (s : St) : Prop where
  pos : 0 < s.size
  parent : ∀ c p, s.parent c = some p → p < c ∧ c < s.size
  def_ : ∀ m x v, s.built m x = some v → s.isDef m x = true ∧ .built m x v ∈ s.log

/-- Counters and cache agree. -/
def Inv (s : St) : Prop :=
  ∀ m x, (pending s.log m x ≠ 0 → s.built m x = none) ∧
    builtCount s.log m x = (if (s.built m x).isSome then 1 else 0) ∧
    runCount s.log m x = (match s.built m x with
      | some v => if v.isRunnable then 1 else 0
      | none => 0)

/-- Every node that Get returned was made before by its nearest definer. -/
def GotOk (s : St) : Prop :=
  ∀ A B ns x v, s.log = A ++ .got ns x v :: B → ns < s.size ∧ ∃ d, Definer s x ns d ∧ .built d x v ∈ A

/-- A run of the namespace's own build function returned this node. -/
def Made (s : St) (m : NsId) (x : Name) (v : Val) : Prop :=
  ∃ fuel s0 s1, exec fuel s0 (.prog (s.defn m x m)) = some (s1, .ok v)

/-- What an execution does to the state. -/
structure R (s s' : St) : Prop where
  wf : WF s'
  size : s.size ≤ s'.size
  parent : ∀ m, m < s.size → s'.parent m = s.parent m
  isDef : ∀ m, m < s.size → s'.isDef m = s.isDef m
  defn : ∀ m, m < s.size → s'.defn m = s.defn m
  log : ∃ es, s'.log = s.log ++ es
  bal : ∀ m x, pending s'.log m x = pending s.log m x
  inv : Inv s → NoReentry s'.log →
    Inv s' ∧ ∀ m x v, s.built m x = some v → s'.built m x = some v
  made : ∀ m x v, .built m x v ∈ s'.log → .built m x v ∈ s.log ∨ m < s'.size ∧ Made s' m x v

theorem NoReentry.prefix {A B : List Event} (h : NoReentry (A ++ B)) : NoReentry A := by
  intro C D ns x e
  exact h C (D ++ B) ns x (by rw [e]; simp)

theorem R.refl {s : St} (h : WF s) : R s s :=
  ⟨h, Nat.le_refl _, fun _ _ => rfl, fun _ _ => rfl, fun _ _ => rfl, ⟨[], by simp⟩, fun _ _ => rfl,
    fun h _ => ⟨h, fun _ _ _ h => h⟩, fun _ _ _ h => .inl h⟩

theorem R.trans {s s1 s2 : St} (h1 : R s s1) (h2 : R s1 s2) : R s s2 := by
  refine ⟨h2.wf, Nat.le_trans h1.size h2.size, ?_, ?_, ?_, ?_, ?_, ?_, ?_⟩
  · intro m hm; rw [h2.parent m (Nat.lt_of_lt_of_le hm h1.size), h1.parent m hm]
  · intro m hm; rw [h2.isDef m (Nat.lt_of_lt_of_le hm h1.size), h1.isDef m hm]
  · intro m hm; rw [h2.defn m (Nat.lt_of_lt_of_le hm h1.size), h1.defn m hm]
  · obtain ⟨a, ha⟩ := h1.log
    obtain ⟨b, hb⟩ := h2.log
    exact ⟨a ++ b, by rw [hb, ha, List.append_assoc]⟩
  · intro m x; rw [h2.bal, h1.bal]
  · intro hi hn
    obtain ⟨b, hb⟩ := h2.log
    obtain ⟨i1, m1⟩ := h1.inv hi (by rw [hb] at hn; exact hn.prefix)
    obtain ⟨i2, m2⟩ := h2.inv i1 hn
    exact ⟨i2, fun m x v h => m2 m x v (m1 m x v h)⟩
  · intro m x v h
    rcases h2.made m x v h with h | h
    · rcases h1.made m x v h with h | ⟨hlt, f, a, b, h⟩
      · exact .inl h
      · exact .inr ⟨Nat.lt_of_lt_of_le hlt h2.size, f, a, b, by rw [h2.defn m hlt]; exact h⟩
    · exact .inr h

/-- The state differs in log and identities only, and the new events are not about
building. -/
theorem R.silent {s s' : St} (h : WF s) (h1 : s'.size = s.size) (h2 : s'.parent = s.parent)
    (h3 : s'.isDef = s.isDef) (h4 : s'.defn = s.defn) (h5 : s'.built = s.built)
    (es : List Event) (h6 : s'.log = s.log ++ es)
    (h7 : ∀ m x, startCount es m x = 0 ∧ builtCount es m x = 0 ∧ failedCount es m x = 0 ∧
      runCount es m x = 0) : R s s' := by
  have hb : ∀ m x, builtCount s'.log m x = builtCount s.log m x := by
    intro m x
    have := (h7 m x).2.1
    simp only [builtCount, h6, List.countP_append] at this ⊢; omega
  have hr : ∀ m x, runCount s'.log m x = runCount s.log m x := by
    intro m x
    have := (h7 m x).2.2.2
    simp only [runCount, h6, List.countP_append] at this ⊢; omega
  have hp : ∀ m x, pending s'.log m x = pending s.log m x := by
    intro m x
    obtain ⟨a, b, c, -⟩ := h7 m x
    have ha : startCount s'.log m x = startCount s.log m x := by
      simp only [startCount, h6, List.countP_append] at a ⊢; omega
    have hc : failedCount s'.log m x = failedCount s.log m x := by
      simp only [failedCount, h6, List.countP_append] at c ⊢; omega
    simp only [pending, ha, hb, hc]
  refine ⟨⟨?_, ?_, ?_⟩, by omega, fun _ _ => by rw [h2], fun _ _ => by rw [h3],
    fun _ _ => by rw [h4], ⟨es, h6⟩, hp, ?_, ?_⟩
  · rw [h1]; exact h.pos
  · intro c p hc; rw [h2] at hc; rw [h1]; exact h.parent c p hc
  · intro m x v hv
    rw [h5] at hv
    obtain ⟨a, b⟩ := h.def_ m x v hv
    exact ⟨by rw [h3]; exact a, by rw [h6]; exact List.mem_append_left _ b⟩
  · intro hi _
    refine ⟨fun m x => ?_, fun m x v hv => by rw [h5]; exact hv⟩
    rw [hp, hb, hr, h5]
    exact hi m x
  · intro m x v hv
    rw [h6, List.mem_append] at hv
    rcases hv with hv | hv
    · exact .inl hv
    · have := (h7 m x).2.1
      rw [builtCount, List.countP_eq_zero] at this
      exact absurd (by simp) (this _ hv)

theorem R.got {s : St} (h : WF s) (ns : NsId) (x : Name) (v : Val) : R s (s.emit (.got ns x v)) :=
  .silent h rfl rfl rfl rfl rfl [.got ns x v] rfl (fun _ _ => ⟨rfl, rfl, rfl, rfl⟩)

theorem R.addChild {s : St} (h : WF s) {ns : NsId} (hns : ns < s.size) (isDef : Name → Bool)
    (defn : Name → NsId → Prog) (hi : s.built s.size = fun _ => none) :
    R s (s.addChild ns isDef defn) := by
  have hb : (s.addChild ns isDef defn).built = s.built := by
    funext m x
    by_cases hm : m = s.size
    · subst hm; simp [St.addChild, hi]
    · simp [St.addChild, hm]
  refine ⟨⟨Nat.succ_pos _, ?_, ?_⟩, Nat.le_succ _, ?_, ?_, ?_, ⟨[], by simp [St.addChild]⟩,
    fun _ _ => rfl, ?_, fun _ _ _ h => .inl h⟩
  · intro c p hc
    simp only [St.addChild] at hc ⊢
    by_cases hm : c = s.size
    · simp only [hm, if_true, Option.some.injEq] at hc; omega
    · simp only [hm, if_false] at hc
      have := h.parent c p hc; omega
  · intro m x v hv
    rw [hb] at hv
    have hne : m ≠ s.size := by rintro rfl; rw [hi] at hv; simp at hv
    simp only [St.addChild, hne, if_false]
    exact h.def_ m x v hv
  · intro m hm; simp [St.addChild, Nat.ne_of_lt hm]
  · intro m hm; simp [St.addChild, Nat.ne_of_lt hm]
  · intro m hm; simp [St.addChild, Nat.ne_of_lt hm]
  · intro hinv _
    refine ⟨fun m x => ?_, fun m x v hv => by rw [hb]; exact hv⟩
    rw [hb]; exact hinv m x

theorem pending_snoc (l : List Event) (e : Event) (m : NsId) (x : Name) :
    pending (l ++ [e]) m x = pending l m x + pending [e] m x := by
  simp only [pending, startCount, builtCount, failedCount, List.countP_append]
  omega

theorem WF.start {s : St} (h : WF s) (ns : NsId) (x : Name) : WF (s.emit (.start ns x)) :=
  ⟨h.pos, h.parent, fun m y v hv => ⟨(h.def_ m y v hv).1, List.mem_append_left _ (h.def_ m y v hv).2⟩⟩

/-- Before a build function: the invariant holds for the state in which it starts. -/
theorem Inv.start {s : St} {ns : NsId} {x : Name} (hi : Inv s) (hb : s.built ns x = none) :
    Inv (s.emit (.start ns x)) := by
  intro m y
  have e1 : builtCount (s.emit (.start ns x)).log m y = builtCount s.log m y := by
    simp [builtCount, St.emit, List.countP_append]
  have e2 : runCount (s.emit (.start ns x)).log m y = runCount s.log m y := by
    simp [runCount, St.emit, List.countP_append]
  rw [e1, e2]
  refine ⟨?_, (hi m y).2⟩
  intro hp
  by_cases hm : m = ns ∧ y = x
  · obtain ⟨rfl, rfl⟩ := hm; exact hb
  · refine (hi m y).1 ?_
    intro h0
    apply hp
    show pending (s.log ++ [.start ns x]) m y = 0
    rw [pending_snoc, h0]
    have : ¬ (ns = m ∧ x = y) := fun h => hm ⟨h.1.symm, h.2.symm⟩
    simp only [pending, startCount, builtCount, failedCount, List.countP_cons, List.countP_nil,
      Bool.and_eq_true, beq_iff_eq, this, if_false, Bool.false_eq_true]
    rfl

/-- The events recorded when a build function returned a node. -/
def finishEvents (ns : NsId) (x : Name) (v : Val) : List Event :=
  .built ns x v :: if v.isRunnable then [.run ns x v] else []

theorem finish_log (s : St) (ns : NsId) (x : Name) (v : Val) :
    (s.finish ns x v).log = s.log ++ finishEvents ns x v := by
  unfold St.finish finishEvents
  simp only [St.emit]
  split <;> simp_all

theorem finish_built (s : St) (ns : NsId) (x : Name) (v : Val) (m : NsId) (y : Name) :
    (s.finish ns x v).built m y = if m = ns ∧ y = x then some v else s.built m y := by
  unfold St.finish
  simp only [St.emit]
  split <;> rfl

theorem finish_rest (s : St) (ns : NsId) (x : Name) (v : Val) :
    (s.finish ns x v).size = s.size ∧ (s.finish ns x v).parent = s.parent ∧
    (s.finish ns x v).isDef = s.isDef ∧ (s.finish ns x v).defn = s.defn := by
  unfold St.finish
  simp only [St.emit]
  split <;> exact ⟨rfl, rfl, rfl, rfl⟩

theorem finish_counts (ns : NsId) (x : Name) (v : Val) (m : NsId) (y : Name) :
    startCount (finishEvents ns x v) m y = 0 ∧
    builtCount (finishEvents ns x v) m y = (if m = ns ∧ y = x then 1 else 0) ∧
    failedCount (finishEvents ns x v) m y = 0 ∧
    runCount (finishEvents ns x v) m y =
      (if m = ns ∧ y = x then (if v.isRunnable then 1 else 0) else 0) := by
  have hc : (ns = m ∧ x = y) ↔ (m = ns ∧ y = x) := ⟨fun h => ⟨h.1.symm, h.2.symm⟩, fun h => ⟨h.1.symm, h.2.symm⟩⟩
  unfold finishEvents
  by_cases hr : v.isRunnable = true <;> by_cases hm : m = ns ∧ y = x <;>
    simp [startCount, builtCount, failedCount, runCount, hr, hc, hm, List.countP_cons]

theorem pending_start (ns : NsId) (x : Name) (m : NsId) (y : Name) :
    pending [.start ns x] m y = if m = ns ∧ y = x then 1 else 0 := by
  have hc : (ns = m ∧ x = y) ↔ (m = ns ∧ y = x) := ⟨fun h => ⟨h.1.symm, h.2.symm⟩, fun h => ⟨h.1.symm, h.2.symm⟩⟩
  by_cases hm : m = ns ∧ y = x <;>
    simp [pending, startCount, builtCount, failedCount, List.countP_cons, hc, hm]

theorem pending_failed (ns : NsId) (x : Name) (m : NsId) (y : Name) :
    pending [.failed ns x] m y = if m = ns ∧ y = x then -1 else 0 := by
  have hc : (ns = m ∧ x = y) ↔ (m = ns ∧ y = x) := ⟨fun h => ⟨h.1.symm, h.2.symm⟩, fun h => ⟨h.1.symm, h.2.symm⟩⟩
  by_cases hm : m = ns ∧ y = x <;>
    simp [pending, startCount, builtCount, failedCount, List.countP_cons, hc, hm]

theorem pending_append (l l' : List Event) (m : NsId) (x : Name) :
    pending (l ++ l') m x = pending l m x + pending l' m x := by
  simp only [pending, startCount, builtCount, failedCount, List.countP_append]
  omega

theorem pending_finish (ns : NsId) (x : Name) (v : Val) (m : NsId) (y : Name) :
    pending (finishEvents ns x v) m y = if m = ns ∧ y = x then -1 else 0 := by
  obtain ⟨a, b, c, -⟩ := finish_counts ns x v m y
  unfold pending
  rw [a, b, c]
  by_cases hm : m = ns ∧ y = x <;> simp [hm]

/-- A call of a build function that returned a node. -/
theorem R.bracket {s s1 : St} (_h : WF s) {ns : NsId} {x : Name} (hns : ns < s.size)
    (hd : s.isDef ns x = true) (hb : s.built ns x = none) (hr : R (s.emit (.start ns x)) s1)
    {v : Val} (hex : ∃ fuel s0, exec fuel s0 (.prog (s.defn ns x ns)) = some (s1, .ok v)) :
    R s (s1.finish ns x v) := by
  obtain ⟨es, he⟩ := hr.log
  obtain ⟨f1, f2, f3, f4⟩ := finish_rest s1 ns x v
  have hlog : s1.log = s.log ++ ([.start ns x] ++ es) := by
    rw [he]; simp [St.emit]
  have hsz : s.size ≤ s1.size := hr.size
  refine ⟨⟨?_, ?_, ?_⟩, by rw [f1]; exact hsz, ?_, ?_, ?_, ⟨[.start ns x] ++ es ++ finishEvents ns x v, ?_⟩, ?_, ?_, ?_⟩
  · rw [f1]; exact hr.wf.pos
  · intro c p hc; rw [f2] at hc; rw [f1]; exact hr.wf.parent c p hc
  · intro m y w hw
    rw [finish_built] at hw
    rw [f3, finish_log]
    split at hw
    · next hm =>
      obtain ⟨rfl, rfl⟩ := hm
      injection hw with hw; subst hw
      refine ⟨?_, List.mem_append_right _ (by simp [finishEvents])⟩
      rw [hr.isDef m hns]; exact hd
    · exact ⟨(hr.wf.def_ m y w hw).1, List.mem_append_left _ (hr.wf.def_ m y w hw).2⟩
  · intro m hm; rw [f2, hr.parent m hm]; rfl
  · intro m hm; rw [f3, hr.isDef m hm]; rfl
  · intro m hm; rw [f4, hr.defn m hm]; rfl
  · rw [finish_log, hlog]; simp
  · intro m y
    rw [finish_log, pending_append, pending_finish, hr.bal]
    show pending (s.log ++ [.start ns x]) m y + _ = _
    rw [pending_snoc, pending_start]
    split <;> omega
  · intro hi hn
    have hn1 : NoReentry s1.log := by rw [finish_log] at hn; exact hn.prefix
    have hz : pending s.log ns x = 0 := hn1 s.log es ns x (by rw [hlog]; simp)
    obtain ⟨i1, m1⟩ := hr.inv (hi.start hb) hn1
    have hp1 : pending s1.log ns x = 1 := by
      rw [hr.bal]
      show pending (s.log ++ [.start ns x]) ns x = 1
      rw [pending_snoc, pending_start, hz]; simp
    have hnone : s1.built ns x = none := (i1 ns x).1 (by rw [hp1]; decide)
    refine ⟨fun m y => ?_, ?_⟩
    · obtain ⟨c1, c2, c3⟩ := i1 m y
      obtain ⟨-, a2, -, a4⟩ := finish_counts ns x v m y
      have b2 : builtCount (s1.finish ns x v).log m y = builtCount s1.log m y + (if m = ns ∧ y = x then 1 else 0) := by
        rw [finish_log, ← a2]; simp only [builtCount, List.countP_append]
      have b3 : runCount (s1.finish ns x v).log m y = runCount s1.log m y +
          (if m = ns ∧ y = x then (if v.isRunnable then 1 else 0) else 0) := by
        rw [finish_log, ← a4]; simp only [runCount, List.countP_append]
      rw [b2, b3, finish_log, pending_append, pending_finish, finish_built, c2, c3]
      by_cases hm : m = ns ∧ y = x
      · obtain ⟨rfl, rfl⟩ := hm
        rw [hp1, hnone]
        simp
      · simp only [hm, if_false, Int.add_zero, Nat.add_zero]
        exact ⟨c1, by trivial, by trivial⟩
    · intro m y w hw
      rw [finish_built]
      by_cases hm : m = ns ∧ y = x
      · obtain ⟨rfl, rfl⟩ := hm
        rw [hb] at hw; exact absurd hw (by simp)
      · simp only [hm, if_false]
        exact m1 m y w hw
  · intro m y w hw
    rw [finish_log, List.mem_append] at hw
    rcases hw with hw | hw
    · rcases hr.made m y w hw with hw | ⟨hlt, f, a, b, hw⟩
      · simp only [St.emit, List.mem_append, List.mem_singleton, reduceCtorEq, or_false] at hw
        exact .inl hw
      · exact .inr ⟨by rw [f1]; exact hlt, f, a, b, by rw [f4]; exact hw⟩
    · have : m = ns ∧ y = x ∧ w = v := by
        unfold finishEvents at hw
        split at hw <;> simpa using hw
      obtain ⟨rfl, rfl, rfl⟩ := this
      obtain ⟨f, a, he⟩ := hex
      refine .inr ⟨by rw [f1]; exact Nat.lt_of_lt_of_le hns hsz, f, a, s1, ?_⟩
      rw [f4, hr.defn m hns]; exact he

/-- A call of a build function that returned an error. -/
theorem R.bracketFailed {s s1 : St} (_h : WF s) {ns : NsId} {x : Name}
    (hb : s.built ns x = none) (hr : R (s.emit (.start ns x)) s1) :
    R s (s1.emit (.failed ns x)) := by
  obtain ⟨es, he⟩ := hr.log
  have hlog : s1.log = s.log ++ ([.start ns x] ++ es) := by
    rw [he]; simp [St.emit]
  have hbal : ∀ m y, pending (s1.emit (.failed ns x)).log m y = pending s.log m y := by
    intro m y
    show pending (s1.log ++ [.failed ns x]) m y = _
    rw [pending_snoc, pending_failed, hr.bal]
    show pending (s.log ++ [.start ns x]) m y + _ = _
    rw [pending_snoc, pending_start]
    split <;> omega
  refine ⟨⟨hr.wf.pos, hr.wf.parent, ?_⟩, hr.size, hr.parent, hr.isDef, hr.defn,
    ⟨[.start ns x] ++ es ++ [.failed ns x], by simp [St.emit, hlog]⟩, hbal, ?_, ?_⟩
  · intro m y v hv
    exact ⟨(hr.wf.def_ m y v hv).1, List.mem_append_left _ (hr.wf.def_ m y v hv).2⟩
  · intro hi hn
    have hn1 : NoReentry s1.log := NoReentry.prefix (B := [.failed ns x]) hn
    have hz : pending s.log ns x = 0 := hn1 s.log es ns x (by rw [hlog]; simp)
    obtain ⟨i1, m1⟩ := hr.inv (hi.start hb) hn1
    refine ⟨fun m y => ?_, m1⟩
    have e1 : builtCount (s1.emit (.failed ns x)).log m y = builtCount s1.log m y := by
      simp [builtCount, St.emit, List.countP_append]
    have e2 : runCount (s1.emit (.failed ns x)).log m y = runCount s1.log m y := by
      simp [runCount, St.emit, List.countP_append]
    rw [e1, e2]
    refine ⟨?_, (i1 m y).2⟩
    intro hp
    refine (i1 m y).1 ?_
    rw [hbal] at hp
    rw [hr.bal]
    show pending (s.log ++ [.start ns x]) m y ≠ 0
    rw [pending_snoc, pending_start]
    by_cases hm : m = ns ∧ y = x
    · obtain ⟨rfl, rfl⟩ := hm; exact absurd hz hp
    · simpa [hm] using hp
  · intro m y w hw
    simp only [St.emit, List.mem_append, List.mem_singleton, reduceCtorEq, or_false] at hw
    rcases hr.made m y w hw with hw | hw
    · simp only [St.emit, List.mem_append, List.mem_singleton, reduceCtorEq, or_false] at hw
      exact .inl hw
    · exact .inr hw

/-- Namespaces that do not exist have nothing built. -/
def Fresh (s : St) : Prop := ∀ m, s.size ≤ m → ∀ x, s.built m x = none ∧ s.isDef m x = false

theorem Fresh.finish {s : St} (h : Fresh s) {ns : NsId} (hns : ns < s.size) (x : Name) (v : Val) :
    Fresh (s.finish ns x v) := by
  intro m hm y
  obtain ⟨f1, f2, f3, f4⟩ := finish_rest s ns x v
  rw [f1] at hm
  rw [finish_built, f3]
  have : ¬ (m = ns ∧ y = x) := by omega
  simp only [this, if_false]
  exact h m hm y

theorem Fresh.addChild {s : St} (h : Fresh s) (ns : NsId) (a : Name → Bool) (b : Name → NsId → Prog) :
    Fresh (s.addChild ns a b) := by
  intro m hm y
  simp only [St.addChild] at hm ⊢
  have : m ≠ s.size := by omega
  simp only [this, if_false]
  exact h m (by omega) y

/-- The main induction. -/
theorem exec_R : ∀ (fuel : Nat) (s : St) (t : Task) (s' : St) (r : Res), WF s → Fresh s → TaskOk s t →
    exec fuel s t = some (s', r) → R s s' ∧ Fresh s' := by
  intro fuel
  induction fuel with
  | zero => intro s t s' r _ _ _ h; simp [exec] at h
  | succ fuel ih =>
    intro s t s' r hwf hf hok h
    cases t with
    | get ns name recv =>
      simp only [TaskOk] at hok
      simp only [exec] at h
      cases hb : s.built ns name with
      | some v =>
        simp only [hb] at h
        split at h
        · simp only [Option.some.injEq, Prod.mk.injEq] at h
          obtain ⟨rfl, rfl⟩ := h
          exact ⟨.got hwf _ _ _, hf⟩
        · simp only [Option.some.injEq, Prod.mk.injEq] at h
          obtain ⟨rfl, rfl⟩ := h
          exact ⟨.refl hwf, hf⟩
      | none =>
        simp only [hb] at h
        cases hd : s.isDef ns name with
        | true =>
          simp only [hd, if_true] at h
          cases he : exec fuel (s.emit (.start ns name)) (.prog (s.defn ns name ns)) with
          | none => simp [he] at h
          | some sr =>
            obtain ⟨s1, r1⟩ := sr
            obtain ⟨hr, hf1⟩ := ih _ (.prog _) _ _ (hwf.start ns name) hf trivial he
            have hns1 : ns < s1.size := Nat.lt_of_lt_of_le hok hr.size
            simp only [he] at h
            cases r1 with
            | ok v =>
              simp only [] at h
              have hbr := R.bracket hwf hok hd hb hr ⟨_, _, he⟩
              split at h
              · simp only [Option.some.injEq, Prod.mk.injEq] at h
                obtain ⟨rfl, rfl⟩ := h
                exact ⟨hbr.trans (.got hbr.wf _ _ _), hf1.finish hns1 _ _⟩
              · simp only [Option.some.injEq, Prod.mk.injEq] at h
                obtain ⟨rfl, rfl⟩ := h
                exact ⟨hbr, hf1.finish hns1 _ _⟩
            | done =>
              simp only [Option.some.injEq, Prod.mk.injEq] at h
              obtain ⟨rfl, rfl⟩ := h
              exact ⟨R.bracketFailed hwf hb hr, hf1⟩
            | err =>
              simp only [Option.some.injEq, Prod.mk.injEq] at h
              obtain ⟨rfl, rfl⟩ := h
              exact ⟨R.bracketFailed hwf hb hr, hf1⟩
        | false =>
          simp only [hd, Bool.false_eq_true, if_false] at h
          cases hp : s.parent ns with
          | none =>
            simp only [hp, Option.some.injEq, Prod.mk.injEq] at h
            obtain ⟨rfl, rfl⟩ := h
            exact ⟨.refl hwf, hf⟩
          | some p =>
            simp only [hp] at h
            have hpl := hwf.parent ns p hp
            cases he : exec fuel s (.get p name recv) with
            | none => simp [he] at h
            | some sr =>
              obtain ⟨s1, r1⟩ := sr
              obtain ⟨hr, hf1⟩ := ih _ (.get p name recv) _ _ hwf hf (show p < s.size by omega) he
              simp only [he] at h
              cases r1 with
              | ok v =>
                simp only [Option.some.injEq, Prod.mk.injEq] at h
                obtain ⟨rfl, rfl⟩ := h
                exact ⟨hr.trans (.got hr.wf _ _ _), hf1⟩
              | done =>
                simp only [Option.some.injEq, Prod.mk.injEq] at h
                obtain ⟨rfl, rfl⟩ := h
                exact ⟨hr, hf1⟩
              | err =>
                simp only [Option.some.injEq, Prod.mk.injEq] at h
                obtain ⟨rfl, rfl⟩ := h
                exact ⟨hr, hf1⟩
    | prog p =>
      have cont : ∀ (s1 : St) (q : Prog), R s s1 → Fresh s1 →
          exec fuel s1 (.prog q) = some (s', r) → R s s' ∧ Fresh s' := by
        intro s1 q hr hf1 he
        obtain ⟨hr2, hf2⟩ := ih _ (.prog _) _ _ hr.wf hf1 trivial he
        exact ⟨hr.trans hr2, hf2⟩
      cases p with
      | ret v =>
        simp only [exec, Option.some.injEq, Prod.mk.injEq] at h
        obtain ⟨rfl, rfl⟩ := h
        exact ⟨.refl hwf, hf⟩
      | fail =>
        simp only [exec, Option.some.injEq, Prod.mk.injEq] at h
        obtain ⟨rfl, rfl⟩ := h
        exact ⟨.refl hwf, hf⟩
      | new rn k =>
        simp only [exec] at h
        refine cont _ _ ?_ ?_ h
        · exact .silent hwf rfl rfl rfl rfl rfl [] (by simp) (fun _ _ => ⟨rfl, rfl, rfl, rfl⟩)
        · exact hf
      | get ns name recv k =>
        simp only [exec] at h
        by_cases hns : ns < s.size
        · simp only [hns, if_true] at h
          cases he : exec fuel s (.get ns name recv) with
          | none => simp [he] at h
          | some sr =>
            obtain ⟨s1, r1⟩ := sr
            obtain ⟨hr, hf1⟩ := ih _ (.get ns name recv) _ _ hwf hf (show ns < s.size from hns) he
            simp only [he] at h
            cases r1 <;> exact cont _ _ hr hf1 h
        · simp only [hns, if_false, Option.some.injEq, Prod.mk.injEq] at h
          obtain ⟨rfl, rfl⟩ := h
          exact ⟨.refl hwf, hf⟩
      | child ns isDef defn required inst k =>
        simp only [exec] at h
        by_cases hns : ns < s.size
        · simp only [hns, if_true] at h
          split at h
          · have hc : R s (s.addChild ns isDef defn) :=
              R.addChild hwf hns _ _ (by funext x; exact (hf s.size (Nat.le_refl _) x).1)
            cases he : exec fuel (s.addChild ns isDef defn) (.inst s.size inst) with
            | none => simp [he] at h
            | some sr =>
              obtain ⟨s1, r1⟩ := sr
              obtain ⟨hr, hf1⟩ := ih _ (.inst _ _) _ _ hc.wf (hf.addChild _ _ _)
                (show s.size < (s.addChild ns isDef defn).size from Nat.lt_succ_self _) he
              simp only [he] at h
              cases r1 <;> exact cont _ _ (hc.trans hr) hf1 h
          · exact cont _ _ (.refl hwf) hf h
        · simp only [hns, if_false, Option.some.injEq, Prod.mk.injEq] at h
          obtain ⟨rfl, rfl⟩ := h
          exact ⟨.refl hwf, hf⟩
    | inst ns names =>
      cases names with
      | nil =>
        simp only [exec, Option.some.injEq, Prod.mk.injEq] at h
        obtain ⟨rfl, rfl⟩ := h
        exact ⟨.refl hwf, hf⟩
      | cons n names =>
        simp only [TaskOk] at hok
        simp only [exec] at h
        cases he : exec fuel s (.get ns n fun _ => true) with
        | none => simp [he] at h
        | some sr =>
          obtain ⟨s1, r1⟩ := sr
          obtain ⟨hr, hf1⟩ := ih _ (.get _ _ _) _ _ hwf hf (show ns < s.size from hok) he
          simp only [he] at h
          cases r1 with
          | ok v =>
            obtain ⟨hr2, hf2⟩ := ih _ (.inst _ _) _ _ hr.wf hf1
              (show ns < s1.size from Nat.lt_of_lt_of_le hok hr.size) h
            exact ⟨hr.trans hr2, hf2⟩
          | done =>
            simp only [Option.some.injEq, Prod.mk.injEq] at h
            obtain ⟨rfl, rfl⟩ := h
            exact ⟨hr, hf1⟩
          | err =>
            simp only [Option.some.injEq, Prod.mk.injEq] at h
            obtain ⟨rfl, rfl⟩ := h
            exact ⟨hr, hf1⟩

theorem history_R {s s' : St} (h : History s s') (hwf : WF s) (hf : Fresh s) :
    R s s' ∧ Fresh s' := by
  induction h with
  | refl s => exact ⟨.refl hwf, hf⟩
  | step fuel t r hok he _ ih =>
    obtain ⟨hr, hf1⟩ := exec_R _ _ _ _ _ hwf hf hok he
    obtain ⟨hr2, hf2⟩ := ih hr.wf hf1
    exact ⟨hr.trans hr2, hf2⟩

theorem History.trans {s s1 s2 : St} (h : History s s1) (h' : History s1 s2) : History s s2 := by
  induction h with
  | refl => exact h'
  | step fuel t r hok he _ ih => exact .step fuel t r hok he (ih h')

theorem WF.root (a : Name → Bool) (b : Name → NsId → Prog) : WF (St.root a b) :=
  ⟨Nat.one_pos, fun _ _ h => by simp [St.root] at h, fun _ _ _ h => by simp [St.root] at h⟩

theorem Fresh.root (a : Name → Bool) (b : Name → NsId → Prog) : Fresh (St.root a b) := by
  intro m hm x
  simp only [St.root] at hm ⊢
  have : m ≠ 0 := by omega
  simp [this]

theorem Inv.root (a : Name → Bool) (b : Name → NsId → Prog) : Inv (St.root a b) := by
  intro m x
  exact ⟨fun h => absurd (show pending (St.root a b).log m x = 0 from rfl) h, rfl, rfl⟩

/-- Existing namespaces keep their parents and definitions. -/
structure Keep (s s' : St) : Prop where
  size : s.size ≤ s'.size
  parent : ∀ m, m < s.size → s'.parent m = s.parent m
  isDef : ∀ m, m < s.size → s'.isDef m = s.isDef m

theorem R.keep {s s' : St} (h : R s s') : Keep s s' := ⟨h.size, h.parent, h.isDef⟩

theorem Keep.emit (s : St) (e : Event) : Keep s (s.emit e) :=
  ⟨Nat.le_refl _, fun _ _ => rfl, fun _ _ => rfl⟩

theorem Keep.finish (s : St) (ns : NsId) (x : Name) (v : Val) : Keep s (s.finish ns x v) := by
  obtain ⟨a, b, c, -⟩ := finish_rest s ns x v
  exact ⟨by omega, fun _ _ => by rw [b], fun _ _ => by rw [c]⟩

/-- Being the definer is stable. -/
theorem Definer.mono {s s' : St} {x : Name} {ns d : NsId} (hwf : WF s) (hr : Keep s s')
    (hns : ns < s.size) (h : Definer s x ns d) : Definer s' x ns d := by
  induction h with
  | here hd => exact .here (by rw [hr.isDef _ hns]; exact hd)
  | up hd hp _ ih =>
    have := hwf.parent _ _ hp
    exact .up (by rw [hr.isDef _ hns]; exact hd) (by rw [hr.parent _ hns]; exact hp)
      (ih (by omega))

theorem Definer.lt {s : St} {x : Name} {ns d : NsId} (hwf : WF s) (h : Definer s x ns d)
    (hns : ns < s.size) : d < s.size := by
  induction h with
  | here hd => exact hns
  | up hd hp _ ih => have := hwf.parent _ _ hp; exact ih (by omega)

theorem Definer.unique {s : St} {x : Name} {ns d d' : NsId} (h : Definer s x ns d)
    (h' : Definer s x ns d') : d = d' := by
  induction h with
  | here hd =>
    cases h' with
    | here => rfl
    | up hd' => rw [hd] at hd'; exact absurd hd' (by simp)
  | up hd hp _ ih =>
    cases h' with
    | here hd' => rw [hd] at hd'; exact absurd hd' (by simp)
    | up _ hp' h2 =>
      rw [hp] at hp'; injection hp' with e; subst e; exact ih h2

/-- What a successful Get leaves behind. -/
theorem get_ok : ∀ (fuel : Nat) (s : St) (ns : NsId) (x : Name) (recv : Val → Bool) (s' : St)
    (v : Val), WF s → Fresh s → ns < s.size → exec fuel s (.get ns x recv) = some (s', .ok v) →
    recv v = true ∧ ∃ d, Definer s' x ns d ∧ s'.built d x = some v ∧
      ∃ l, s'.log = l ++ [.got ns x v] ∧ .built d x v ∈ l := by
  intro fuel
  induction fuel with
  | zero => intro s ns x recv s' v _ _ _ h; simp [exec] at h
  | succ fuel ih =>
    intro s ns x recv s' v hwf hf hns h
    have hR := exec_R _ _ _ _ _ hwf hf (show TaskOk s (.get ns x recv) from hns) h
    simp only [exec] at h
    cases hb : s.built ns x with
    | some w =>
      simp only [hb] at h
      split at h
      · next hrw =>
        simp only [Option.some.injEq, Prod.mk.injEq, Res.ok.injEq] at h
        obtain ⟨rfl, rfl⟩ := h
        obtain ⟨a, b⟩ := hwf.def_ ns x w hb
        exact ⟨hrw, ns, .here a, hb, s.log, rfl, b⟩
      · simp at h
    | none =>
      simp only [hb] at h
      cases hd : s.isDef ns x with
      | true =>
        simp only [hd, if_true] at h
        cases he : exec fuel (s.emit (.start ns x)) (.prog (s.defn ns x ns)) with
        | none => simp [he] at h
        | some sr =>
          obtain ⟨s1, r1⟩ := sr
          simp only [he] at h
          obtain ⟨hr, hf1⟩ := exec_R _ _ (.prog _) _ _ (hwf.start ns x) hf trivial he
          cases r1 with
          | ok w =>
            simp only [] at h
            split at h
            · next hrw =>
              simp only [Option.some.injEq, Prod.mk.injEq, Res.ok.injEq] at h
              obtain ⟨rfl, rfl⟩ := h
              refine ⟨hrw, ns, .here ?_, ?_, (s1.finish ns x w).log, rfl, ?_⟩
              · show (s1.finish ns x w).isDef ns x = true
                rw [(finish_rest s1 ns x w).2.2.1, hr.isDef _ hns]
                exact hd
              · show (s1.finish ns x w).built ns x = some w
                rw [finish_built]; simp
              · rw [finish_log]
                exact List.mem_append_right _ (by simp [finishEvents])
            · simp at h
          | done => simp at h
          | err => simp at h
      | false =>
        simp only [hd, Bool.false_eq_true, if_false] at h
        cases hp : s.parent ns with
        | none => simp [hp] at h
        | some p =>
          simp only [hp] at h
          have hpl := hwf.parent ns p hp
          cases he : exec fuel s (.get p x recv) with
          | none => simp [he] at h
          | some sr =>
            obtain ⟨s1, r1⟩ := sr
            simp only [he] at h
            cases r1 with
            | ok w =>
              simp only [Option.some.injEq, Prod.mk.injEq, Res.ok.injEq] at h
              obtain ⟨rfl, rfl⟩ := h
              obtain ⟨hr, hf1⟩ := exec_R _ _ _ _ _ hwf hf (show TaskOk s (.get p x recv) from (by
                show p < s.size; omega)) he
              obtain ⟨g0, d, g1, g2, l, g3, g4⟩ := ih s p x recv s1 w hwf hf (by omega) he
              refine ⟨g0, d, .up (p := p) ?_ ?_ ?_, g2, s1.log, rfl, ?_⟩
              · show s1.isDef ns x = false
                rw [hr.isDef _ hns]; exact hd
              · show s1.parent ns = some p
                rw [hr.parent _ hns]; exact hp
              · exact g1.mono hr.wf (Keep.emit _ _) (by have := hr.size; omega)
              · rw [g3]; exact List.mem_append_left _ g4
            | done => simp at h
            | err => simp at h

/-- Events other than `got` do not matter. -/
theorem GotOk.more {s s' : St} (hwf : WF s) (h : GotOk s) (hr : Keep s s') (es : List Event)
    (he : s'.log = s.log ++ es) (hes : ∀ ns x v, .got ns x v ∉ es) : GotOk s' := by
  intro A B ns x v e
  rw [he] at e
  rw [List.append_eq_append_iff] at e
  rcases e with ⟨C, hA, hB⟩ | ⟨C, hs, hB⟩
  · exact absurd (show Event.got ns x v ∈ es by rw [hB]; simp) (hes ns x v)
  · cases C with
    | nil => exact absurd (show Event.got ns x v ∈ es by simp only [List.nil_append] at hB; rw [← hB]; simp) (hes ns x v)
    | cons c C =>
      simp only [List.cons_append, List.cons.injEq] at hB
      obtain ⟨rfl, -⟩ := hB
      obtain ⟨h1, d, h2, h3⟩ := h A C ns x v hs
      exact ⟨Nat.lt_of_lt_of_le h1 hr.size, d, h2.mono hwf hr h1, h3⟩

/-- A `got` event at the end. -/
theorem GotOk.snoc {s s' : St} (hwf : WF s) (h : GotOk s) (hr : Keep s s') {ns : NsId} {x : Name} {v : Val}
    (he : s'.log = s.log ++ [.got ns x v]) (hns : ns < s'.size) {d : NsId} (hd : Definer s' x ns d)
    (hb : .built d x v ∈ s.log) : GotOk s' := by
  intro A B m y w e
  rw [he] at e
  rw [List.append_eq_append_iff] at e
  rcases e with ⟨C, hA, hB⟩ | ⟨C, hs, hB⟩
  · cases C with
    | nil =>
      simp only [List.nil_append, List.cons.injEq, Event.got.injEq] at hB
      obtain ⟨⟨rfl, rfl, rfl⟩, rfl⟩ := hB
      exact ⟨hns, d, hd, by rw [hA]; simpa using hb⟩
    | cons c C => simp at hB
  · cases C with
    | nil =>
      simp only [List.nil_append, List.cons.injEq, Event.got.injEq] at hB
      obtain ⟨⟨rfl, rfl, rfl⟩, rfl⟩ := hB
      exact ⟨hns, d, hd, by rw [hs] at hb; simpa using hb⟩
    | cons c C =>
      simp only [List.cons_append, List.cons.injEq] at hB
      obtain ⟨rfl, -⟩ := hB
      obtain ⟨h1, d', h2, h3⟩ := h A C m y w hs
      exact ⟨Nat.lt_of_lt_of_le h1 hr.size, d', h2.mono hwf hr h1, h3⟩

theorem exec_got : ∀ (fuel : Nat) (s : St) (t : Task) (s' : St) (r : Res), WF s → Fresh s → TaskOk s t →
    exec fuel s t = some (s', r) → GotOk s → GotOk s' := by
  intro fuel
  induction fuel with
  | zero => intro s t s' r _ _ _ h; simp [exec] at h
  | succ fuel ih =>
    intro s t s' r hwf hf hok h hg
    have hR := (exec_R _ _ _ _ _ hwf hf hok h).1
    cases t with
    | get ns name recv =>
      have hok' : ns < s.size := hok
      have hsz : ns < s'.size := Nat.lt_of_lt_of_le hok' hR.size
      have hlast : ∀ (s1 : St) v, r = .ok v → s' = s1.emit (.got ns name v) →
          ∃ d, Definer s' name ns d ∧ .built d name v ∈ s1.log := by
        rintro s1 v rfl e
        obtain ⟨-, d, a, -, l, hl, hb⟩ := get_ok _ _ _ _ _ _ _ hwf hf hok' h
        refine ⟨d, a, ?_⟩
        rw [e] at hl
        rw [(List.append_inj' (show s1.log ++ [_] = l ++ [_] from hl) rfl).1]
        exact hb
      simp only [exec] at h
      cases hb : s.built ns name with
      | some v =>
        simp only [hb] at h
        split at h
        · simp only [Option.some.injEq, Prod.mk.injEq] at h
          obtain ⟨rfl, rfl⟩ := h
          obtain ⟨a, b⟩ := hwf.def_ ns name v hb
          exact hg.snoc hwf (Keep.emit _ _) rfl hok' (.here a) b
        · simp only [Option.some.injEq, Prod.mk.injEq] at h
          obtain ⟨rfl, rfl⟩ := h
          exact hg
      | none =>
        simp only [hb] at h
        cases hd : s.isDef ns name with
        | true =>
          simp only [hd, if_true] at h
          cases he : exec fuel (s.emit (.start ns name)) (.prog (s.defn ns name ns)) with
          | none => simp [he] at h
          | some sr =>
            obtain ⟨s1, r1⟩ := sr
            obtain ⟨hr, hf1⟩ := exec_R _ _ (.prog _) _ _ (hwf.start ns name) hf trivial he
            have hg0 : GotOk (s.emit (.start ns name)) :=
              hg.more hwf (Keep.emit _ _) [.start ns name] rfl (by simp)
            have hg1 := ih _ (.prog _) _ _ (hwf.start ns name) hf trivial he hg0
            simp only [he] at h
            cases r1 with
            | ok v =>
              simp only [] at h
              have hw := (R.bracket hwf hok' hd hb hr ⟨_, _, he⟩).wf
              have hg2 : GotOk (s1.finish ns name v) :=
                hg1.more hr.wf (Keep.finish _ _ _ _) _ (finish_log _ _ _ _) (by
                  intro _ _ _; unfold finishEvents; split <;> simp)
              split at h
              · simp only [Option.some.injEq, Prod.mk.injEq] at h
                obtain ⟨e, e'⟩ := h
                obtain ⟨d, a, b⟩ := hlast (s1.finish ns name v) v e'.symm e.symm
                subst e
                exact hg2.snoc hw (Keep.emit _ _) rfl hsz a b
              · simp only [Option.some.injEq, Prod.mk.injEq] at h
                obtain ⟨rfl, rfl⟩ := h
                exact hg2
            | done =>
              simp only [Option.some.injEq, Prod.mk.injEq] at h
              obtain ⟨rfl, rfl⟩ := h
              exact hg1.more hr.wf (Keep.emit _ _) [.failed ns name] rfl (by simp)
            | err =>
              simp only [Option.some.injEq, Prod.mk.injEq] at h
              obtain ⟨rfl, rfl⟩ := h
              exact hg1.more hr.wf (Keep.emit _ _) [.failed ns name] rfl (by simp)
        | false =>
          simp only [hd, Bool.false_eq_true, if_false] at h
          cases hp : s.parent ns with
          | none =>
            simp only [hp, Option.some.injEq, Prod.mk.injEq] at h
            obtain ⟨rfl, rfl⟩ := h
            exact hg
          | some p =>
            simp only [hp] at h
            have hpl := hwf.parent ns p hp
            have hpo : TaskOk s (.get p name recv) := show p < s.size by omega
            cases he : exec fuel s (.get p name recv) with
            | none => simp [he] at h
            | some sr =>
              obtain ⟨s1, r1⟩ := sr
              obtain ⟨hr, hf1⟩ := exec_R _ _ _ _ _ hwf hf hpo he
              have hg1 := ih _ _ _ _ hwf hf hpo he hg
              simp only [he] at h
              cases r1 with
              | ok v =>
                simp only [Option.some.injEq, Prod.mk.injEq] at h
                obtain ⟨e, e'⟩ := h
                obtain ⟨d, a, b⟩ := hlast s1 v e'.symm e.symm
                subst e
                exact hg1.snoc hr.wf (Keep.emit _ _) rfl hsz a b
              | done =>
                simp only [Option.some.injEq, Prod.mk.injEq] at h
                obtain ⟨rfl, rfl⟩ := h
                exact hg1
              | err =>
                simp only [Option.some.injEq, Prod.mk.injEq] at h
                obtain ⟨rfl, rfl⟩ := h
                exact hg1
    | prog p =>
      have cont : ∀ (s1 : St) (q : Prog), WF s1 → Fresh s1 → GotOk s1 →
          exec fuel s1 (.prog q) = some (s', r) → GotOk s' := by
        intro s1 q hw hf1 hg1 he
        exact ih _ (.prog _) _ _ hw hf1 trivial he hg1
      cases p with
      | ret v =>
        simp only [exec, Option.some.injEq, Prod.mk.injEq] at h
        obtain ⟨rfl, rfl⟩ := h
        exact hg
      | fail =>
        simp only [exec, Option.some.injEq, Prod.mk.injEq] at h
        obtain ⟨rfl, rfl⟩ := h
        exact hg
      | new rn k =>
        simp only [exec] at h
        refine cont _ _ ?_ ?_ ?_ h
        · exact ⟨hwf.pos, hwf.parent, hwf.def_⟩
        · exact hf
        · exact hg.more hwf ⟨Nat.le_refl _, fun _ _ => rfl, fun _ _ => rfl⟩ [] (by simp) (by simp)
      | get ns name recv k =>
        simp only [exec] at h
        by_cases hns : ns < s.size
        · simp only [hns, if_true] at h
          cases he : exec fuel s (.get ns name recv) with
          | none => simp [he] at h
          | some sr =>
            obtain ⟨s1, r1⟩ := sr
            have ho : TaskOk s (.get ns name recv) := hns
            obtain ⟨hr, hf1⟩ := exec_R _ _ _ _ _ hwf hf ho he
            have hg1 := ih _ _ _ _ hwf hf ho he hg
            simp only [he] at h
            cases r1 <;> exact cont _ _ hr.wf hf1 hg1 h
        · simp only [hns, if_false, Option.some.injEq, Prod.mk.injEq] at h
          obtain ⟨rfl, rfl⟩ := h
          exact hg
      | child ns isDef defn required inst k =>
        simp only [exec] at h
        by_cases hns : ns < s.size
        · simp only [hns, if_true] at h
          split at h
          · have hc : R s (s.addChild ns isDef defn) :=
              R.addChild hwf hns _ _ (by funext x; exact (hf s.size (Nat.le_refl _) x).1)
            have hgc : GotOk (s.addChild ns isDef defn) :=
              hg.more hwf hc.keep [] (by simp [St.addChild]) (by simp)
            cases he : exec fuel (s.addChild ns isDef defn) (.inst s.size inst) with
            | none => simp [he] at h
            | some sr =>
              obtain ⟨s1, r1⟩ := sr
              have ho : TaskOk (s.addChild ns isDef defn) (.inst s.size inst) :=
                show s.size < (s.addChild ns isDef defn).size from Nat.lt_succ_self _
              obtain ⟨hr, hf1⟩ := exec_R _ _ _ _ _ hc.wf (hf.addChild _ _ _) ho he
              have hg1 := ih _ _ _ _ hc.wf (hf.addChild _ _ _) ho he hgc
              simp only [he] at h
              cases r1 <;> exact cont _ _ hr.wf hf1 hg1 h
          · exact cont _ _ hwf hf hg h
        · simp only [hns, if_false, Option.some.injEq, Prod.mk.injEq] at h
          obtain ⟨rfl, rfl⟩ := h
          exact hg
    | inst ns names =>
      cases names with
      | nil =>
        simp only [exec, Option.some.injEq, Prod.mk.injEq] at h
        obtain ⟨rfl, rfl⟩ := h
        exact hg
      | cons n names =>
        simp only [exec] at h
        have ho : TaskOk s (.get ns n fun _ => true) := hok
        cases he : exec fuel s (.get ns n fun _ => true) with
        | none => simp [he] at h
        | some sr =>
          obtain ⟨s1, r1⟩ := sr
          obtain ⟨hr, hf1⟩ := exec_R _ _ _ _ _ hwf hf ho he
          have hg1 := ih _ _ _ _ hwf hf ho he hg
          simp only [he] at h
          cases r1 with
          | ok v =>
            exact ih _ (.inst _ _) _ _ hr.wf hf1
              (show ns < s1.size from Nat.lt_of_lt_of_le hok hr.size) h hg1
          | done =>
            simp only [Option.some.injEq, Prod.mk.injEq] at h
            obtain ⟨rfl, rfl⟩ := h
            exact hg1
          | err =>
            simp only [Option.some.injEq, Prod.mk.injEq] at h
            obtain ⟨rfl, rfl⟩ := h
            exact hg1

theorem history_got {s s' : St} (h : History s s') (hwf : WF s) (hf : Fresh s) (hg : GotOk s) :
    GotOk s' := by
  induction h with
  | refl s => exact hg
  | step fuel t r hok he _ ih =>
    obtain ⟨hr, hf1⟩ := exec_R _ _ _ _ _ hwf hf hok he
    exact ih hr.wf hf1 (exec_got _ _ _ _ _ hwf hf hok he hg)

end Verif.RtNs
