import Verif.RtNs.Lemmas
/-
C10 and C12: runtime namespaces build each node once and look names up from the inside
out.
-/
namespace Verif.RtNs

theorem get_not_done : ∀ (f : Nat) (s : St) (m : NsId) (x : Name) (recv : Val → Bool) (s1 : St),
    exec f s (.get m x recv) ≠ some (s1, .done) := by
  intro f
  induction f with
  | zero => intro s m x recv s1 h; simp [exec] at h
  | succ f ihf =>
    intro s m x recv s1 h
    simp only [exec] at h
    split at h
    · split at h <;> simp at h
    · split at h
      · split at h
        · simp at h
        · split at h <;> simp at h
        · simp at h
      · split at h
        · simp at h
        · split at h
          · simp at h
          · simp at h
          · simp at h

/-- C10: in every history that follows no dependency cycle, a build function returns a
node at most once, and its node is run exactly once if it is a Runnable and never
otherwise. -/
theorem C10_built_once {isDef : Name → Bool} {defn : Name → NsId → Prog} {s : St}
    (h : History (St.root isDef defn) s) (hn : NoReentry s.log) (ns : NsId) (x : Name) :
    builtCount s.log ns x ≤ 1 ∧
    (∀ v, .built ns x v ∈ s.log → runCount s.log ns x = if v.isRunnable then 1 else 0) ∧
    (builtCount s.log ns x = 0 → runCount s.log ns x = 0) := by
  obtain ⟨hr, -⟩ := history_R h (WF.root _ _) (Fresh.root _ _)
  obtain ⟨hi, -⟩ := hr.inv (Inv.root _ _) hn
  obtain ⟨-, h2, h3⟩ := hi ns x
  refine ⟨by rw [h2]; split <;> omega, ?_, ?_⟩
  · intro v hv
    cases hb : s.built ns x with
    | none =>
      exfalso
      rw [hb] at h2
      simp only [Option.isSome_none, Bool.false_eq_true, if_false] at h2
      rw [builtCount, List.countP_eq_zero] at h2
      exact h2 _ hv (by simp)
    | some w =>
      have hw := (hr.wf.def_ ns x w hb).2
      have : v = w := by
        rw [hb] at h2
        simp only [Option.isSome_some, if_true] at h2
        rw [builtCount, List.countP_eq_length_filter] at h2
        obtain ⟨e, he⟩ := List.length_eq_one_iff.1 h2
        have m1 : Event.built ns x v ∈ [e] := by rw [← he]; exact List.mem_filter.2 ⟨hv, by simp⟩
        have m2 : Event.built ns x w ∈ [e] := by rw [← he]; exact List.mem_filter.2 ⟨hw, by simp⟩
        simp only [List.mem_singleton] at m1 m2
        rw [← m2] at m1
        injection m1
      rw [h3, hb, this]
  · intro h0
    cases hb : s.built ns x with
    | none => rw [h3, hb]
    | some w => rw [h0, hb] at h2; simp at h2

/-- C10: everyone gets the same instance.  After a successful Get, every later Get of
the same name from the same namespace that succeeds returns the same node and calls no
build function at all. -/
theorem C10_same_instance {isDef : Name → Bool} {defn : Name → NsId → Prog} {s s1 s2 s3 : St}
    (h : History (St.root isDef defn) s) {ns : NsId} (hns : ns < s.size) {x : Name}
    {recv recv' : Val → Bool} {fuel fuel' : Nat} {v : Val} {r : Res}
    (hg : exec fuel s (.get ns x recv) = some (s1, .ok v)) (h2 : History s1 s2)
    (hg' : exec fuel' s2 (.get ns x recv') = some (s3, r)) (hn : NoReentry s3.log) :
    r = (if recv' v then .ok v else .err) ∧ ∀ m y, startCount s3.log m y = startCount s2.log m y := by
  obtain ⟨hr, hf⟩ := history_R h (WF.root _ _) (Fresh.root _ _)
  obtain ⟨hr1, hf1⟩ := exec_R _ _ (.get ns x recv) _ _ hr.wf hf hns hg
  obtain ⟨hr2, hf2⟩ := history_R h2 hr1.wf hf1
  have hns2 : ns < s2.size := Nat.lt_of_lt_of_le hns (Nat.le_trans hr1.size hr2.size)
  obtain ⟨hr3, -⟩ := exec_R _ _ (.get ns x recv') _ _ hr2.wf hf2 hns2 hg'
  obtain ⟨-, d, hd, hb, -⟩ := get_ok _ _ _ _ _ _ _ hr.wf hf hns hg
  have hns1 : ns < s1.size := Nat.lt_of_lt_of_le hns hr1.size
  obtain ⟨e3, he3⟩ := hr3.log
  obtain ⟨e2, he2⟩ := hr2.log
  have hn2 : NoReentry s2.log := by rw [he3] at hn; exact hn.prefix
  have hn1 : NoReentry s1.log := by rw [he2] at hn2; exact hn2.prefix
  have hi1 := (hr.trans hr1).inv (Inv.root _ _) hn1
  have hb2 := (hr2.inv hi1.1 hn2).2 d x v hb
  have hd2 := hd.mono hr1.wf hr2.keep hns1
  clear hg hd hb hn hn2 hn1 hi1 he3 he2 h2 hns hns1 hr1 hf1 hf hr h hr3
  have key : ∀ (fuel' : Nat) (s3 : St) (r : Res) (recv' : Val → Bool) (m : NsId), Definer s2 x m d →
      m < s2.size → exec fuel' s2 (.get m x recv') = some (s3, r) →
      r = (if recv' v then .ok v else .err) ∧ ∀ m y, startCount s3.log m y = startCount s2.log m y := by
    intro fuel' s3 r recv' m hdm
    clear hd2 hg'
    induction hdm generalizing fuel' s3 r with
    | here hd =>
      intro hm h
      cases fuel' with
      | zero => simp [exec] at h
      | succ f =>
        simp only [exec, hb2] at h
        split at h <;> simp only [Option.some.injEq, Prod.mk.injEq] at h <;> obtain ⟨rfl, rfl⟩ := h
        · next hv => exact ⟨by simp [hv], fun m y => by simp [startCount, St.emit, List.countP_append]⟩
        · next hv => exact ⟨by simp [hv], fun _ _ => rfl⟩
    | @up m p d hdf hp _ ih =>
      intro hm h
      have hpl := hr2.wf.parent _ _ hp
      cases fuel' with
      | zero => simp [exec] at h
      | succ f =>
        have hbm : s2.built m x = none := by
          cases hb : s2.built m x with
          | none => rfl
          | some w => rw [(hr2.wf.def_ m x w hb).1] at hdf; simp at hdf
        simp only [exec, hbm, hdf, Bool.false_eq_true, if_false, hp] at h
        cases he : exec f s2 (.get p x recv') with
        | none => simp [he] at h
        | some sr =>
          obtain ⟨s4, r4⟩ := sr
          obtain ⟨h1, h2⟩ := ih hb2 f s4 r4 (by omega) he
          simp only [he] at h
          cases r4 with
          | ok w =>
            simp only [Option.some.injEq, Prod.mk.injEq] at h
            obtain ⟨rfl, rfl⟩ := h
            refine ⟨h1, fun m y => ?_⟩
            rw [← h2]; simp [startCount, St.emit, List.countP_append]
          | done =>
            split at h1 <;> cases h1
          | err =>
            simp only [Option.some.injEq, Prod.mk.injEq] at h
            obtain ⟨rfl, rfl⟩ := h
            exact ⟨h1, h2⟩
  exact key _ _ _ _ _ hd2 hns2 hg'

/-- C10: in every history, whatever Get has returned had been built before, by the
nearest namespace that defines it; in particular a dependency is built before the build
function that asked for it returns. -/
theorem C10_dependency_first {isDef : Name → Bool} {defn : Name → NsId → Prog} {s : St}
    (h : History (St.root isDef defn) s) (A B : List Event) (ns : NsId) (x : Name) (v : Val)
    (hl : s.log = A ++ .got ns x v :: B) : ∃ d, Definer s x ns d ∧ .built d x v ∈ A := by
  have hg : GotOk (St.root isDef defn) := by
    intro A B ns x v e
    simp [St.root] at e
  obtain ⟨-, d, h1, h2⟩ := history_got h (WF.root _ _) (Fresh.root _ _) hg A B ns x v hl
  exact ⟨d, h1, h2⟩

/-- C10: a failure is not remembered: as long as no call has returned a node, every Get
calls the build function. -/
theorem C10_failure_retried {isDef : Name → Bool} {defn : Name → NsId → Prog} {s s' : St}
    (h : History (St.root isDef defn) s) (hn : NoReentry s.log) {ns : NsId}
    {x : Name} (hd : s.isDef ns x = true) (h0 : builtCount s.log ns x = 0) {fuel : Nat}
    {recv : Val → Bool} {r : Res} (hg : exec fuel s (.get ns x recv) = some (s', r)) :
    startCount s.log ns x < startCount s'.log ns x := by
  obtain ⟨hr, hf⟩ := history_R h (WF.root _ _) (Fresh.root _ _)
  obtain ⟨hi, -⟩ := hr.inv (Inv.root _ _) hn
  have hb : s.built ns x = none := by
    have := (hi ns x).2.1
    rw [h0] at this
    cases hb : s.built ns x with
    | none => rfl
    | some w => rw [hb] at this; simp at this
  have hext : ∃ es, s'.log = (s.log ++ [.start ns x]) ++ es := by
    cases fuel with
    | zero => simp [exec] at hg
    | succ fuel =>
      simp only [exec, hb, hd, if_true] at hg
      cases he : exec fuel (s.emit (.start ns x)) (.prog (s.defn ns x ns)) with
      | none => simp [he] at hg
      | some sr =>
        obtain ⟨s1, r1⟩ := sr
        obtain ⟨hr1, -⟩ := exec_R _ _ (.prog _) _ _ (hr.wf.start ns x) hf trivial he
        obtain ⟨es, hes⟩ := hr1.log
        have hes' : s1.log = (s.log ++ [.start ns x]) ++ es := hes
        simp only [he] at hg
        cases r1 with
        | ok v =>
          simp only [] at hg
          split at hg <;> simp only [Option.some.injEq, Prod.mk.injEq] at hg <;> obtain ⟨rfl, rfl⟩ := hg
          · exact ⟨es ++ finishEvents ns x v ++ [.got ns x v], by
              show (s1.finish ns x v).log ++ _ = _
              rw [finish_log, hes']; simp⟩
          · exact ⟨es ++ finishEvents ns x v, by rw [finish_log, hes']; simp⟩
        | done =>
          simp only [Option.some.injEq, Prod.mk.injEq] at hg
          obtain ⟨rfl, rfl⟩ := hg
          exact ⟨es ++ [.failed ns x], by show s1.log ++ _ = _; rw [hes']; simp⟩
        | err =>
          simp only [Option.some.injEq, Prod.mk.injEq] at hg
          obtain ⟨rfl, rfl⟩ := hg
          exact ⟨es ++ [.failed ns x], by show s1.log ++ _ = _; rw [hes']; simp⟩
  obtain ⟨es, hes⟩ := hext
  rw [hes]
  simp only [startCount, List.countP_append, List.countP_cons, List.countP_nil, beq_self_eq_true,
    Bool.and_self, if_true]
  omega

/-- C10: Instantiate.  When the listed nodes were instantiated, each was gotten; when
that failed, the Get of one of them failed. -/
theorem C10_instantiate (ns : NsId) : ∀ (names : List Name) (fuel : Nat) (s s' : St) (r : Res), WF s →
    Fresh s → ns < s.size → exec fuel s (.inst ns names) = some (s', r) →
    (r = .done → ∀ n ∈ names, ∃ v, .got ns n v ∈ s'.log) ∧
    (r ≠ .done → ∃ n ∈ names, ∃ fuel s1, exec fuel s1 (.get ns n fun _ => true) = some (s', .err)) := by
  intro names
  induction names with
  | nil =>
    intro fuel s s' r _ _ _ h
    cases fuel with
    | zero => simp [exec] at h
    | succ f =>
      simp only [exec, Option.some.injEq, Prod.mk.injEq] at h
      obtain ⟨rfl, rfl⟩ := h
      simp
  | cons n names ih =>
    intro fuel s s' r hwf hf hns h
    cases fuel with
    | zero => simp [exec] at h
    | succ f =>
      simp only [exec] at h
      cases he : exec f s (.get ns n fun _ => true) with
      | none => simp [he] at h
      | some sr =>
        obtain ⟨s1, r1⟩ := sr
        obtain ⟨hr, hf1⟩ := exec_R _ _ (.get _ _ _) _ _ hwf hf (show ns < s.size from hns) he
        simp only [he] at h
        cases r1 with
        | ok v =>
          obtain ⟨-, -, -, -, l, hl, -⟩ := get_ok _ _ _ _ _ _ _ hwf hf hns he
          have hns1 := Nat.lt_of_lt_of_le hns hr.size
          obtain ⟨a, b⟩ := ih f s1 s' r hr.wf hf1 hns1 h
          obtain ⟨es, hes⟩ := (exec_R _ _ (.inst _ _) _ _ hr.wf hf1 hns1 h).1.log
          refine ⟨fun hd m hm => ?_, fun hd => ?_⟩
          · rcases List.mem_cons.1 hm with rfl | hm
            · exact ⟨v, by rw [hes, hl]; simp⟩
            · exact a hd m hm
          · obtain ⟨m, hm, rest⟩ := b hd
            exact ⟨m, List.mem_cons_of_mem _ hm, rest⟩
        | done => exact absurd he (get_not_done _ _ _ _ _ _)
        | err =>
          simp only [Option.some.injEq, Prod.mk.injEq] at h
          obtain ⟨rfl, rfl⟩ := h
          exact ⟨fun h => by simp at h, fun _ => ⟨n, by simp, f, s, he⟩⟩

/-- A service with a database and a cache that share a client. -/
def demoDef : Name → Bool := fun n => n = "svc" || n = "cache" || n = "db" || n = "addr"

def demoFn : Name → NsId → Prog := fun n self =>
  if n = "addr" then .ret (.str "localhost:80")
  else if n = "db" then .get self "addr" (fun _ => true) fun
    | some _ => .new true fun o => .ret o
    | none => .fail
  else if n = "cache" then .get self "db" (fun _ => true) fun
    | some _ => .new false fun o => .ret o
    | none => .fail
  else if n = "svc" then .get self "cache" (fun _ => true) fun
    | some _ => .get self "db" (fun _ => true) fun
      | some _ => .new false fun o => .ret o
      | none => .fail
    | none => .fail
  else .fail

example : ∃ s, exec 20 (St.root demoDef demoFn) (.inst 0 ["svc", "db"]) = some (s, .done) ∧
    builtCount s.log 0 "db" = 1 ∧ runCount s.log 0 "db" = 1 ∧ runCount s.log 0 "svc" = 0 ∧
    startCount s.log 0 "addr" = 1 :=
  ⟨_, rfl, by decide, by decide, by decide, by decide⟩

/-- The log of that history follows no cycle. -/
def demoLog : List Event :=
  match exec 20 (St.root demoDef demoFn) (.inst 0 ["svc", "db"]) with
  | some (s, _) => s.log
  | none => []

/-- A checker for `NoReentry`. -/
def noReentryFrom : List Event → List Event → Bool
  | _, [] => true
  | A, e :: l =>
    (match e with
      | .start ns x => pending A ns x == 0
      | _ => true) && noReentryFrom (A ++ [e]) l

theorem noReentryFrom_sound : ∀ (l A : List Event), noReentryFrom A l = true →
    ∀ B C ns x, l = B ++ .start ns x :: C → pending (A ++ B) ns x = 0 := by
  intro l
  induction l with
  | nil => intro A _ B C ns x e; simp at e
  | cons e l ih =>
    intro A h B C ns x he
    simp only [noReentryFrom, Bool.and_eq_true] at h
    cases B with
    | nil =>
      simp only [List.nil_append, List.cons.injEq] at he
      obtain ⟨rfl, -⟩ := he
      simpa using h.1
    | cons b B =>
      simp only [List.cons_append, List.cons.injEq] at he
      obtain ⟨rfl, rfl⟩ := he
      have := ih (A ++ [e]) h.2 B C ns x rfl
      simpa using this

theorem NoReentry.check {l : List Event} (h : noReentryFrom [] l = true) : NoReentry l := by
  intro A B ns x e
  have := noReentryFrom_sound l [] h A B ns x e
  simpa using this

example : NoReentry demoLog ∧ 10 < demoLog.length := ⟨.check (by decide), by decide⟩

/-- C10 fails on dependency cycles: a build function that asks for its own node (and
does not do so for ever) is called again, the first instance is handed out and then
replaced, and both are run. -/
theorem C10_cycle_refuted : ∃ (isDef : Name → Bool) (defn : Name → NsId → Prog) (s : St) (v w : Val),
    exec 10 (St.root isDef defn) (.inst 0 ["a"]) = some (s, .done) ∧ v ≠ w ∧
    .got 0 "a" v ∈ s.log ∧ .got 0 "a" w ∈ s.log ∧ builtCount s.log 0 "a" = 2 ∧
    runCount s.log 0 "a" = 2 :=
  ⟨fun n => n = "a", fun _ self => .new true fun o =>
      if o = .obj 0 true then .get self "a" (fun _ => true) fun _ => .ret o else .ret o,
    _, .obj 0 true, .obj 1 true, rfl, by decide, by decide, by decide, by decide, by decide⟩

theorem Definer.back {s s' : St} {x : Name} {m d : NsId} (hwf : WF s) (hr : Keep s s')
    (h : Definer s' x m d) (hm : m < s.size) : Definer s x m d := by
  induction h with
  | here h => exact .here (by rw [← hr.isDef _ hm]; exact h)
  | up h hp _ ih =>
    rw [hr.parent _ hm] at hp
    have := hwf.parent _ _ hp
    exact .up (by rw [← hr.isDef _ hm]; exact h) hp (ih (by omega))

/-- C12: Get uses the nearest definition.  When it succeeds, the node was built by the
nearest namespace, from the inside out, that defines the name, and it was returned by a
run of that namespace's own build function on that namespace. -/
theorem C12_nearest {isDef : Name → Bool} {defn : Name → NsId → Prog} {s s' : St}
    (h : History (St.root isDef defn) s) {ns : NsId} (hns : ns < s.size) {x : Name}
    {recv : Val → Bool} {fuel : Nat} {v : Val}
    (hg : exec fuel s (.get ns x recv) = some (s', .ok v)) :
    ∃ d, Definer s x ns d ∧ .built d x v ∈ s'.log ∧ Made s d x v := by
  obtain ⟨hr, hf⟩ := history_R h (WF.root _ _) (Fresh.root _ _)
  obtain ⟨hr1, hf1⟩ := exec_R _ _ (.get ns x recv) _ _ hr.wf hf hns hg
  obtain ⟨-, d, hd, -, l, hl, hb⟩ := get_ok _ _ _ _ _ _ _ hr.wf hf hns hg
  have hin : .built d x v ∈ s'.log := by rw [hl]; exact List.mem_append_left _ hb
  have hds := hd.back hr.wf hr1.keep hns
  refine ⟨d, hds, hin, ?_⟩
  rcases (hr.trans hr1).made d x v hin with h | ⟨-, f, a, b, h⟩
  · simp [St.root] at h
  · exact ⟨f, a, b, by rw [← hr1.defn d (hds.lt hr.wf hns)]; exact h⟩

/-- C12: Get on a namespace and Get on the nearest namespace that defines the name
succeed and fail together, and return the same node. -/
theorem C12_like_definer {isDef : Name → Bool} {defn : Name → NsId → Prog} {s : St}
    (h : History (St.root isDef defn) s) {ns d : NsId} {x : Name}
    (hd : Definer s x ns d) {recv : Val → Bool} {fuel : Nat} {s' : St} {r : Res}
    (hg : exec fuel s (.get ns x recv) = some (s', r)) :
    ∃ fuel' s'', fuel' ≤ fuel ∧ exec fuel' s (.get d x recv) = some (s'', r) ∧
      s''.built = s'.built := by
  obtain ⟨hr, hf⟩ := history_R h (WF.root _ _) (Fresh.root _ _)
  induction hd generalizing fuel s' r with
  | here _ => exact ⟨fuel, s', Nat.le_refl _, hg, rfl⟩
  | @up m p d hdf hp _ ih =>
    cases fuel with
    | zero => simp [exec] at hg
    | succ f =>
      have hbm : s.built m x = none := by
        cases hb : s.built m x with
        | none => rfl
        | some w => rw [(hr.wf.def_ m x w hb).1] at hdf; simp at hdf
      simp only [exec, hbm, hdf, Bool.false_eq_true, if_false, hp] at hg
      cases he : exec f s (.get p x recv) with
      | none => simp [he] at hg
      | some sr =>
        obtain ⟨s1, r1⟩ := sr
        obtain ⟨f', s2, h1, h2, h3⟩ := ih he
        simp only [he] at hg
        cases r1 with
        | ok v =>
          simp only [Option.some.injEq, Prod.mk.injEq] at hg
          obtain ⟨rfl, rfl⟩ := hg
          exact ⟨f', s2, by omega, h2, h3⟩
        | done =>
          exact absurd he (get_not_done _ _ _ _ _ _)
        | err =>
          simp only [Option.some.injEq, Prod.mk.injEq] at hg
          obtain ⟨rfl, rfl⟩ := hg
          exact ⟨f', s2, by omega, h2, h3⟩

/-- C12: a name that neither the namespace nor any of its ancestors defines is an error,
and asking for it changes nothing. -/
theorem C12_unknown {isDef : Name → Bool} {defn : Name → NsId → Prog} {s : St}
    (h : History (St.root isDef defn) s) {ns : NsId} {x : Name}
    (hd : ∀ d, ¬ Definer s x ns d) (recv : Val → Bool) :
    (∀ fuel r, exec fuel s (.get ns x recv) = some r → r = (s, .err)) ∧
    exec (ns + 2) s (.get ns x recv) = some (s, .err) := by
  obtain ⟨hr, hf⟩ := history_R h (WF.root _ _) (Fresh.root _ _)
  have key : ∀ n ns, ns ≤ n → (∀ d, ¬ Definer s x ns d) →
      (∀ fuel r, exec fuel s (.get ns x recv) = some r → r = (s, .err)) ∧
      ∀ k, exec (ns + 2 + k) s (.get ns x recv) = some (s, .err) := by
    intro n
    induction n using Nat.strongRecOn with
    | _ n ih =>
      intro ns hle hd
      have hdf : s.isDef ns x = false := by
        cases hb : s.isDef ns x with
        | false => rfl
        | true => exact absurd (.here hb) (hd ns)
      have hbm : s.built ns x = none := by
        cases hb : s.built ns x with
        | none => rfl
        | some w => rw [(hr.wf.def_ ns x w hb).1] at hdf; simp at hdf
      cases hp : s.parent ns with
      | none =>
        constructor
        · intro fuel r hg
          cases fuel with
          | zero => simp [exec] at hg
          | succ f =>
            simp only [exec, hbm, hdf, Bool.false_eq_true, if_false, hp, Option.some.injEq] at hg
            exact hg.symm
        · intro k
          rw [show ns + 2 + k = (ns + 1 + k) + 1 by omega]
          simp only [exec, hbm, hdf, Bool.false_eq_true, if_false, hp]
      | some p =>
        have hpl := hr.wf.parent ns p hp
        obtain ⟨i1, i2⟩ := ih p (by omega) p (Nat.le_refl _) (fun d hdp => hd d (.up hdf hp hdp))
        constructor
        · intro fuel r hg
          cases fuel with
          | zero => simp [exec] at hg
          | succ f =>
            simp only [exec, hbm, hdf, Bool.false_eq_true, if_false, hp] at hg
            cases he : exec f s (.get p x recv) with
            | none => simp [he] at hg
            | some sr =>
              rw [i1 _ _ he] at he
              simp only [he, Option.some.injEq] at hg
              exact hg.symm
        · intro k
          rw [show ns + 2 + k = (ns + 1 + k) + 1 by omega]
          simp only [exec, hbm, hdf, Bool.false_eq_true, if_false, hp]
          rw [show ns + 1 + k = p + 2 + (ns - p - 1 + k) by omega, i2]
  exact ⟨(key ns ns (Nat.le_refl _) hd).1, (key ns ns (Nat.le_refl _) hd).2 0⟩

/-- C12: nodes are shared.  If the nearest definition of a name is the same for two
namespaces, a successful Get on the one and a later successful Get on the other return
the same node. -/
theorem C12_shared {isDef : Name → Bool} {defn : Name → NsId → Prog} {s s1 s2 s3 : St}
    (h : History (St.root isDef defn) s) {m n d : NsId} {x : Name} (hm : m < s.size)
    (hdm : Definer s x m d) {recv recv' : Val → Bool} {fuel fuel' : Nat} {v w : Val}
    (hg : exec fuel s (.get m x recv) = some (s1, .ok v)) (h2 : History s1 s2) (hn2 : n < s2.size)
    (hdn : Definer s2 x n d)
    (hg' : exec fuel' s2 (.get n x recv') = some (s3, .ok w)) (hn : NoReentry s3.log) : v = w := by
  obtain ⟨hr, hf⟩ := history_R h (WF.root _ _) (Fresh.root _ _)
  obtain ⟨hr1, hf1⟩ := exec_R _ _ (.get m x recv) _ _ hr.wf hf hm hg
  obtain ⟨hr2, hf2⟩ := history_R h2 hr1.wf hf1
  obtain ⟨hr3, -⟩ := exec_R _ _ (.get n x recv') _ _ hr2.wf hf2 hn2 hg'
  obtain ⟨-, d1, g1, g2, -⟩ := get_ok _ _ _ _ _ _ _ hr.wf hf hm hg
  obtain ⟨-, d2, k1, k2, -⟩ := get_ok _ _ _ _ _ _ _ hr2.wf hf2 hn2 hg'
  have e1 : d1 = d := g1.unique (hdm.mono hr.wf hr1.keep hm)
  have e2 : d2 = d := k1.unique (hdn.mono hr2.wf hr3.keep hn2)
  subst e1
  subst e2
  obtain ⟨e3, he3⟩ := hr3.log
  obtain ⟨e2, he2⟩ := hr2.log
  have hn2 : NoReentry s2.log := by rw [he3] at hn; exact hn.prefix
  have hn1 : NoReentry s1.log := by rw [he2] at hn2; exact hn2.prefix
  have hi1 := (hr.trans hr1).inv (Inv.root _ _) hn1
  have := ((hr2.trans hr3).inv hi1.1 hn).2 _ _ _ g2
  rw [this] at k2
  injection k2

/-- C12: the check that BuildWithParent makes with the parent agrees with Get: a name
passes exactly when the parent or one of its ancestors defines it. -/
theorem C12_has {isDef : Name → Bool} {defn : Name → NsId → Prog} {s : St}
    (h : History (St.root isDef defn) s) (ns : NsId) (x : Name) :
    s.has (ns + 1) ns x = true ↔ ∃ d, Definer s x ns d := by
  obtain ⟨hr, hf⟩ := history_R h (WF.root _ _) (Fresh.root _ _)
  have key : ∀ n ns, ns ≤ n → ∀ k, s.has (ns + 1 + k) ns x = true ↔ ∃ d, Definer s x ns d := by
    intro n
    induction n using Nat.strongRecOn with
    | _ n ih =>
      intro ns hle k
      rw [show ns + 1 + k = (ns + k) + 1 by omega]
      cases hdf : s.isDef ns x with
      | true =>
        simp only [St.has, hdf, if_true, ite_self, true_iff]
        exact ⟨ns, .here hdf⟩
      | false =>
        have hbm : s.built ns x = none := by
          cases hb : s.built ns x with
          | none => rfl
          | some w => rw [(hr.wf.def_ ns x w hb).1] at hdf; simp at hdf
        simp only [St.has, hdf, hbm, Option.isSome_none, Bool.false_eq_true, if_false]
        cases hp : s.parent ns with
        | none =>
          simp only [Bool.false_eq_true, false_iff]
          rintro ⟨d, hd⟩
          cases hd with
          | here h => rw [hdf] at h; simp at h
          | up _ hp' => rw [hp] at hp'; simp at hp'
        | some p =>
          have hpl := hr.wf.parent ns p hp
          simp only []
          rw [show ns + k = p + 1 + (ns - p - 1 + k) by omega, ih p (by omega) p (Nat.le_refl _)]
          constructor
          · rintro ⟨d, hd⟩; exact ⟨d, .up hdf hp hd⟩
          · rintro ⟨d, hd⟩
            cases hd with
            | here h => rw [hdf] at h; simp at h
            | up _ hp' hd =>
              rw [hp] at hp'; injection hp' with e; subst e
              exact ⟨d, hd⟩
  exact key ns ns (Nat.le_refl _) 0

/-- C12: a child namespace.  BuildWithParent fails, without making a namespace, exactly
when a required name is defined neither by the child nor by the parent or its ancestors;
otherwise the child uses its own definitions first and the parent's for all other names,
in every later state. -/
theorem C12_child {isDef : Name → Bool} {defn : Name → NsId → Prog} {s s1 s2 : St}
    (h : History (St.root isDef defn) s) {ns : NsId} (hns : ns < s.size) {cDef : Name → Bool}
    {cFn : Name → NsId → Prog} {req inst : List Name} {k : Option NsId → Prog} {fuel : Nat} {r : Res}
    (hg : exec fuel s (.prog (.child ns cDef cFn req inst k)) = some (s1, r)) (h2 : History s1 s2) :
    (∀ x ∈ req, cDef x = true ∨ ∃ d, Definer s x ns d) ∧
      (∀ x, cDef x = true → Definer s2 x s.size s.size ∧ s2.defn s.size x = cFn x) ∧
      (∀ x d, cDef x = false → (Definer s2 x s.size d ↔ Definer s x ns d)) ∨
    (∃ x ∈ req, cDef x = false ∧ ∀ d, ¬ Definer s x ns d) ∧
      ∃ fuel', exec fuel' s (.prog (k none)) = some (s1, r) := by
  obtain ⟨hr, hf⟩ := history_R h (WF.root _ _) (Fresh.root _ _)
  have hR := exec_R _ _ (.prog _) _ _ hr.wf hf trivial hg
  have hR2 := history_R h2 hR.1.wf hR.2
  cases fuel with
  | zero => simp [exec] at hg
  | succ fuel =>
    simp only [exec, hns, if_true] at hg
    by_cases hall : (req.all fun n => cDef n || s.has (ns + 1) ns n) = true
    · left
      simp only [hall, if_true] at hg
      have hreq : ∀ x ∈ req, cDef x = true ∨ ∃ d, Definer s x ns d := by
        intro x hx
        have := List.all_eq_true.1 hall x hx
        rw [Bool.or_eq_true, C12_has h] at this
        exact this
      have hc : R s (s.addChild ns cDef cFn) :=
        R.addChild hr.wf hns _ _ (by funext x; exact (hf s.size (Nat.le_refl _) x).1)
      have hlt : s.size < (s.addChild ns cDef cFn).size := Nat.lt_succ_self _
      have hk : R (s.addChild ns cDef cFn) s2 := by
        cases he : exec fuel (s.addChild ns cDef cFn) (.inst s.size inst) with
        | none => simp [he] at hg
        | some sr =>
          obtain ⟨s3, r3⟩ := sr
          obtain ⟨hr3, hf3⟩ := exec_R _ _ (.inst _ _) _ _ hc.wf (hf.addChild _ _ _) hlt he
          simp only [he] at hg
          have : R s3 s1 := by
            cases r3 <;> exact (exec_R _ _ (.prog _) _ _ hr3.wf hf3 trivial hg).1
          exact (hr3.trans this).trans hR2.1
      have hd1 : s2.isDef s.size = cDef := by
        rw [hk.isDef _ hlt]; simp [St.addChild]
      have hp1 : s2.parent s.size = some ns := by
        rw [hk.parent _ hlt]; simp [St.addChild]
      refine ⟨hreq, fun x hx => ⟨.here (by rw [hd1]; exact hx), by
        rw [hk.defn _ hlt]; simp [St.addChild]⟩, fun x d hx => ⟨?_, ?_⟩⟩
      · intro hd
        cases hd with
        | here h => rw [hd1, hx] at h; simp at h
        | up _ hp hd =>
          rw [hp1] at hp; injection hp with e; subst e
          exact hd.back hr.wf (hR.1.trans hR2.1).keep hns
      · intro hd
        exact .up (by rw [hd1]; exact hx) hp1 (hd.mono hr.wf (hR.1.trans hR2.1).keep hns)
    · right
      simp only [hall, Bool.false_eq_true, if_false] at hg
      refine ⟨?_, fuel, hg⟩
      rw [List.all_eq_true] at hall
      simp only [Classical.not_forall] at hall
      obtain ⟨x, hx, hnot⟩ := hall
      rw [Bool.or_eq_true, C12_has h] at hnot
      simp only [not_or, Bool.not_eq_true, not_exists] at hnot
      exact ⟨x, hx, hnot.1, hnot.2⟩

/-- Two clients of a pool: each has its own client object and both share the parent's
connection. -/
def poolProg : Prog :=
  .child 0 (fun n => n = "client") (fun _ self => .get self "conn" (fun _ => true) fun
      | some _ => .new false fun o => .ret o
      | none => .fail) ["conn"] ["client"] fun
    | some _ => .child 0 (fun n => n = "client") (fun _ self => .get self "conn" (fun _ => true) fun
          | some _ => .new false fun o => .ret o
          | none => .fail) ["conn"] ["client"] fun
        | some _ => .ret (.str "ok")
        | none => .fail
    | none => .fail

example : ∃ s, exec 20 (St.root (fun n => n = "conn") fun _ _ => .new true fun o => .ret o)
      (.prog poolProg) = some (s, .ok (.str "ok")) ∧
    .got 1 "conn" (.obj 0 true) ∈ s.log ∧ .got 2 "conn" (.obj 0 true) ∈ s.log ∧
    .built 1 "client" (.obj 1 false) ∈ s.log ∧ .built 2 "client" (.obj 2 false) ∈ s.log ∧
    runCount s.log 0 "conn" = 1 ∧ noReentryFrom [] s.log = true :=
  ⟨_, rfl, by decide, by decide, by decide, by decide, by decide, by decide⟩

end Verif.RtNs
