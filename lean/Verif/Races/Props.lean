import Verif.Races.Spec
/-
C115: concurrent calls of the in-memory backends.
-/
namespace Verif.Races

section
variable {K V : Type} [DecidableEq K]

theorem effect_does (op : Op K V) (v : K → Option V) : Does op v (op.effect v).1 (op.effect v).2 := by
  cases op with
  | put k x => exact ⟨by simp [Op.effect], fun j h => by simp [Op.effect, h], rfl⟩
  | delete k => exact ⟨by simp [Op.effect], fun j h => by simp [Op.effect, h], rfl⟩
  | get k => exact ⟨rfl, rfl⟩

/-- The phase of a goroutine, seen from outside. -/
def Seen (s : Sys K V) (i : Nat) : Phase V → Prop
  | .done r => (i, r) ∈ s.log ∧ s.lock ≠ some i
  | .written => (i, none) ∈ s.log ∧ s.lock = some i
  | .locked => i ∉ s.log.map (·.1) ∧ s.lock = some i
  | .writing => i ∉ s.log.map (·.1) ∧ s.lock = some i
  | _ => i ∉ s.log.map (·.1) ∧ s.lock ≠ some i

/-- Writers lock, readers read. -/
def Fits (op : Op K V) : Phase V → Prop
  | .locked => op.isWrite = true
  | .writing => op.isWrite = true
  | .written => op.isWrite = true
  | .reading => op.isWrite = false
  | _ => True

structure Inv (ops : List (Op K V)) (values : K → Option V) (s : Sys K V) : Prop where
  calls : s.threads.map (·.op) = ops
  order : OneByOne ops values s.log s.values
  seen : ∀ (i : Nat) (t : Thread K V), s.threads[i]? = some t → Seen s i t.phase
  kinds : ∀ (i : Nat) (t : Thread K V), s.threads[i]? = some t → Fits t.op t.phase
  locked : ∀ i, s.lock = some i → i < s.threads.length

theorem init_inv (values : K → Option V) (ops : List (Op K V)) : Inv ops values (Sys.init values ops) := by
  refine ⟨by simp [Sys.init, Function.comp_def], .nil, ?_, ?_, nofun⟩
  · intro i t h
    simp only [Sys.init, List.getElem?_map, Option.map_eq_some_iff] at h
    obtain ⟨op, -, rfl⟩ := h
    simp [Seen, Sys.init]
  · intro i t h
    simp only [Sys.init, List.getElem?_map, Option.map_eq_some_iff] at h
    obtain ⟨op, -, rfl⟩ := h
    trivial

theorem op_at {ops : List (Op K V)} {values : K → Option V} {s : Sys K V} (I : Inv ops values s) {i : Nat} {t : Thread K V}
    (h : s.threads[i]? = some t) : ops[i]? = some t.op := by
  rw [← I.calls, List.getElem?_map, h]
  rfl

theorem get_goto {ts : List (Thread K V)} {i j : Nat} {t' u : Thread K V} (hu : (ts.set i t')[j]? = some u) :
    (j = i ∧ u = t') ∨ (j ≠ i ∧ ts[j]? = some u) := by
  rw [List.getElem?_set] at hu
  split at hu
  · next e =>
    split at hu
    · injection hu with hu
      exact .inl ⟨e.symm, hu.symm⟩
    · cases hu
  · next e => exact .inr ⟨fun e' => e e'.symm, hu⟩

/-- A goroutine moves on, and the others see nothing of it. -/
theorem goto_inv {ops : List (Op K V)} {values values' : K → Option V} {s : Sys K V} (I : Inv ops values s) {i : Nat} {t : Thread K V}
    (ht : s.threads[i]? = some t) {p : Phase V} {lock : Option Nat} {log : List (Nat × Option V)}
    (ho : OneByOne ops values log values')
    (hi : Seen (⟨values', lock, s.threads.set i ⟨t.op, p⟩, s.raced, log⟩ : Sys K V) i p)
    (hk : Fits t.op p)
    (hlog : ∀ j r, j ≠ i → ((j, r) ∈ log ↔ (j, r) ∈ s.log)) (hlock : ∀ j, j ≠ i → (lock = some j ↔ s.lock = some j)) :
    Inv ops values ⟨values', lock, s.threads.set i ⟨t.op, p⟩, s.raced, log⟩ := by
  have hmem : ∀ j, j ≠ i → (j ∈ log.map (·.1) ↔ j ∈ s.log.map (·.1)) := by
    intro j hj
    simp only [List.mem_map]
    constructor
    · rintro ⟨⟨a, r⟩, h, rfl⟩
      exact ⟨(a, r), (hlog a r hj).1 h, rfl⟩
    · rintro ⟨⟨a, r⟩, h, rfl⟩
      exact ⟨(a, r), (hlog a r hj).2 h, rfl⟩
  refine ⟨?_, ho, ?_, ?_, ?_⟩
  · rw [← I.calls, List.map_set]
    show (s.threads.map (·.op)).set i t.op = s.threads.map (·.op)
    refine List.ext_getElem? fun j => ?_
    rw [List.getElem?_set]
    split
    · next e =>
      subst e
      simp only [List.length_map, List.getElem?_map]
      split
      · simp [ht]
      · next h => rw [List.getElem?_eq_none (by omega)]; rfl
    · rfl
  · intro j u hu
    rcases get_goto hu with ⟨rfl, rfl⟩ | ⟨hj, hu⟩
    · exact hi
    · have := I.seen j u hu
      have h1 := hmem j hj
      have h2 := hlock j hj
      have h3 := fun r => hlog j r hj
      cases hp : u.phase <;> rw [hp] at this <;> simp only [Seen, ne_eq] at this ⊢ <;> simp only [h1, h2, h3] <;> exact this
  · intro j u hu
    rcases get_goto hu with ⟨rfl, rfl⟩ | ⟨hj, hu⟩
    · exact hk
    · exact I.kinds j u hu
  · intro j hj
    simp only [List.length_set]
    by_cases e : j = i
    · subst e
      exact (List.getElem?_eq_some_iff.1 ht).1
    · exact I.locked j ((hlock j e).1 hj)

theorem log_push {log : List (Nat × Option V)} {i : Nat} {r' : Option V} : ∀ j r, j ≠ i → ((j, r) ∈ log ++ [(i, r')] ↔ (j, r) ∈ log) := by
  intro j r h
  simp [h]

/-- What a step can be. -/
theorem step_inv {ops : List (Op K V)} {values : K → Option V} {s : Sys K V} (I : Inv ops values s) (i : Nat) :
    (s.step i).raced = true ∨ Inv ops values (s.step i) := by
  unfold Sys.step
  cases ht : s.threads[i]? with
  | none => exact .inr I
  | some t =>
    obtain ⟨op, ph⟩ := t
    have hseen := I.seen i _ ht
    have hkind := I.kinds i _ ht
    have hop := op_at I ht
    have key : ∀ op : Op K V, op.isWrite = true → ∀ ph, s.threads[i]? = some ⟨op, ph⟩ → Seen s i ph → ops[i]? = some op →
        ((match ph with
          | .start => if s.lock.isNone then { s.goto i ⟨op, ph⟩ .locked with lock := some i } else s
          | .locked =>
            if s.threads.any fun u => u.phase.isWriting || u.phase.isReading then { s with raced := true } else s.goto i ⟨op, ph⟩ .writing
          | .writing => { s.goto i ⟨op, ph⟩ .written with values := (op.effect s.values).1, log := s.log ++ [(i, none)] }
          | .written => { s.goto i ⟨op, ph⟩ (.done none) with lock := none }
          | _ => s).raced = true) ∨
        Inv ops values (match ph with
          | .start => if s.lock.isNone then { s.goto i ⟨op, ph⟩ .locked with lock := some i } else s
          | .locked =>
            if s.threads.any fun u => u.phase.isWriting || u.phase.isReading then { s with raced := true } else s.goto i ⟨op, ph⟩ .writing
          | .writing => { s.goto i ⟨op, ph⟩ .written with values := (op.effect s.values).1, log := s.log ++ [(i, none)] }
          | .written => { s.goto i ⟨op, ph⟩ (.done none) with lock := none }
          | _ => s) := by
      intro op hw ph ht hseen hop
      cases ph with
      | start =>
        simp only
        split
        · next hl =>
          have hl : s.lock = none := by simpa using hl
          refine .inr (goto_inv I ht I.order ⟨hseen.1, rfl⟩ hw (fun _ _ _ => Iff.rfl) ?_)
          intro j hj
          rw [hl]
          simp [Ne.symm hj]
        · exact .inr I
      | locked =>
        simp only
        split
        · exact .inl rfl
        · exact .inr (goto_inv I ht I.order hseen hw (fun _ _ _ => Iff.rfl) fun _ _ => Iff.rfl)
      | writing =>
        refine .inr (goto_inv I ht (.snoc I.order hop hseen.1 ?_) ⟨by simp, hseen.2⟩ hw log_push fun _ _ => Iff.rfl)
        have := effect_does op s.values
        cases op with
        | get => cases hw
        | put => exact this
        | delete => exact this
      | written =>
        refine .inr (goto_inv I ht I.order ⟨hseen.1, nofun⟩ trivial (fun _ _ _ => Iff.rfl) ?_)
        intro j hj
        simp [hseen.2, Ne.symm hj]
      | reading => exact .inr I
      | done r => exact .inr I
    cases op with
    | put k v => cases ph <;> exact key _ rfl _ ht hseen hop
    | delete k => cases ph <;> exact key _ rfl _ ht hseen hop
    | get k =>
      cases ph with
      | start =>
        simp only
        split
        · exact .inl rfl
        · exact .inr (goto_inv I ht I.order hseen rfl (fun _ _ _ => Iff.rfl) fun _ _ => Iff.rfl)
      | reading =>
        exact .inr (goto_inv I ht (.snoc I.order hop hseen.1 (effect_does (.get k) s.values)) ⟨by simp, hseen.2⟩ trivial log_push
          fun _ _ => Iff.rfl)
      | locked => exact .inr I
      | writing => exact .inr I
      | written => exact .inr I
      | done => exact .inr I

theorem step_raced {s : Sys K V} (i : Nat) (h : s.raced = true) : (s.step i).raced = true := by
  unfold Sys.step
  repeat' split
  all_goals first | exact h | rfl

theorem run_raced {s : Sys K V} (h : s.raced = true) : ∀ sched : List Nat, (s.run sched).raced = true
  | [] => h
  | i :: sched => run_raced (step_raced i h) sched

theorem run_inv {ops : List (Op K V)} {values : K → Option V} {s : Sys K V} (I : Inv ops values s) :
    ∀ sched : List Nat, (s.run sched).raced = false → Inv ops values (s.run sched)
  | [], _ => I
  | i :: sched, h => by
    rcases step_inv I i with hr | I'
    · have := run_raced hr sched
      rw [show (s.step i).run sched = s.run (i :: sched) from rfl, h] at this
      cases this
    · exact run_inv I' sched h

theorem step_log (s : Sys K V) (i : Nat) : ∃ l, (s.step i).log = s.log ++ l := by
  unfold Sys.step
  repeat' split
  all_goals first | exact ⟨_, rfl⟩ | exact ⟨[], (List.append_nil _).symm⟩

theorem run_log (s : Sys K V) : ∀ sched : List Nat, ∃ l, (s.run sched).log = s.log ++ l
  | [] => ⟨[], by simp [Sys.run]⟩
  | i :: sched => by
    obtain ⟨l, h⟩ := step_log s i
    obtain ⟨l', h'⟩ := run_log (s.step i) sched
    exact ⟨l ++ l', by rw [show s.run (i :: sched) = (s.step i).run sched from rfl, h', h, List.append_assoc]⟩

theorem run_append (s : Sys K V) (a b : List Nat) : s.run (a ++ b) = (s.run a).run b := by
  unfold Sys.run
  rw [List.foldl_append]

/-- C115: in every schedule in which the map is not read while it is written to, concurrent calls of the cache return what they would return
one after the other in some order, and leave the same contents; and a call that was finished before another one began comes first in this
order.
Missing from the full property: that there is no other schedule (`C115_get_refuted`). -/
theorem C115_cache_partial (values : K → Option V) (ops : List (Op K V)) (sched : List Nat)
    (hr : ((Sys.init values ops).run sched).raced = false) :
    ∃ order, OneByOne ops values order ((Sys.init values ops).run sched).values ∧
      (∀ i r, ((Sys.init values ops).run sched).Finished i r → (i, r) ∈ order) ∧
      ∀ before after, sched = before ++ after → ∃ pre post, order = pre ++ post ∧
        (∀ i r, ((Sys.init values ops).run before).Finished i r → (i, r) ∈ pre) ∧
        ∀ i, ((Sys.init values ops).run before).Waiting i → i ∉ pre.map (·.1) := by
  have I := run_inv (init_inv values ops) sched hr
  refine ⟨_, I.order, ?_, ?_⟩
  · rintro i r ⟨t, ht, hp⟩
    have := I.seen i t ht
    rw [hp] at this
    exact this.1
  · intro before after e
    subst e
    rw [run_append] at hr ⊢
    have hr' : ((Sys.init values ops).run before).raced = false := by
      cases h : ((Sys.init values ops).run before).raced with
      | false => rfl
      | true => rw [run_raced h] at hr; cases hr
    have I' := run_inv (init_inv values ops) before hr'
    obtain ⟨l, hl⟩ := run_log ((Sys.init values ops).run before) after
    refine ⟨_, l, hl, ?_, ?_⟩
    · rintro i r ⟨t, ht, hp⟩
      have := I'.seen i t ht
      rw [hp] at this
      exact this.1
    · rintro i ⟨t, ht, hp⟩
      have := I'.seen i t ht
      rw [hp] at this
      exact this.1

/-! Calls of Put and Delete only -/

theorem isWriting_inv {p : Phase V} (h : p.isWriting = true) : p = .writing := by cases p <;> simp [Phase.isWriting] at h; rfl
theorem isReading_inv {p : Phase V} (h : p.isReading = true) : p = .reading := by cases p <;> simp [Phase.isReading] at h; rfl

theorem step_safe {ops : List (Op K V)} {values : K → Option V} {s : Sys K V} (I : Inv ops values s) (hr : s.raced = false)
    (hw : ∀ op ∈ ops, op.isWrite = true) (i : Nat) : (s.step i).raced = false := by
  have hw' : ∀ (j : Nat) (t : Thread K V), s.threads[j]? = some t → t.op.isWrite = true := fun j t h => hw _ (List.mem_of_getElem? (op_at I h))
  have hlock : s.threads[i]?.map (·.phase) = some .locked → (s.threads.any fun u => u.phase.isWriting || u.phase.isReading) = false := by
    intro h
    obtain ⟨t, ht, hp⟩ := Option.map_eq_some_iff.1 h
    have hl := I.seen i t ht
    rw [hp] at hl
    rw [Bool.eq_false_iff]
    intro ha
    obtain ⟨u, hu, hb⟩ := List.any_eq_true.1 ha
    obtain ⟨j, hj, e⟩ := List.mem_iff_getElem.1 hu
    have hj : s.threads[j]? = some u := by rw [List.getElem?_eq_getElem hj, e]
    rcases (Bool.or_eq_true _ _).mp hb with h | h
    · have hp' := isWriting_inv h
      have := I.seen j u hj
      rw [hp'] at this
      have e : j = i := by
        have h1 := this.2
        have h2 := hl.2
        rw [h2] at h1
        exact (Option.some.inj h1).symm
      subst e
      rw [ht] at hj
      injection hj with hj
      rw [← hj, hp] at hp'
      cases hp'
    · have hp' := isReading_inv h
      have := I.kinds j u hj
      rw [hp'] at this
      exact absurd (hw' j u hj) (by rw [show u.op.isWrite = false from this]; simp)
  unfold Sys.step
  cases ht : s.threads[i]? with
  | none => exact hr
  | some t =>
    obtain ⟨op, ph⟩ := t
    have hwi := hw' i _ ht
    rw [ht] at hlock
    cases op with
    | get k => cases hwi
    | put k v =>
      cases ph <;> simp only [Sys.goto]
      · split <;> exact hr
      · rw [if_neg (by rw [hlock rfl]; simp)]; exact hr
      all_goals exact hr
    | delete k =>
      cases ph <;> simp only [Sys.goto]
      · split <;> exact hr
      · rw [if_neg (by rw [hlock rfl]; simp)]; exact hr
      all_goals exact hr

theorem run_safe {ops : List (Op K V)} {values : K → Option V} (hw : ∀ op ∈ ops, op.isWrite = true) :
    ∀ (sched : List Nat) (s : Sys K V), Inv ops values s → s.raced = false → (s.run sched).raced = false
  | [], _, _, h => h
  | i :: sched, s, I, h => by
    have h' := step_safe I h hw i
    rcases step_inv I i with hr | I'
    · rw [h'] at hr; cases hr
    · exact run_safe hw sched _ I' h'

/-- C115: Put and Delete never race, whatever the schedule. -/
theorem C115_writers_never_race (values : K → Option V) (ops : List (Op K V)) (hw : ∀ op ∈ ops, op.isWrite = true) (sched : List Nat) :
    ((Sys.init values ops).run sched).raced = false := run_safe hw sched _ (init_inv values ops) rfl

/-- Steps that are left. -/
def Phase.left : Phase V → Nat
  | .start => 4
  | .locked => 3
  | .writing => 2
  | .written => 1
  | .reading => 1
  | .done _ => 0

def Sys.left (s : Sys K V) : Nat := (s.threads.map fun t => t.phase.left).sum

theorem sum_set (f : Thread K V → Nat) : ∀ (l : List (Thread K V)) (i : Nat) (t t' : Thread K V), l[i]? = some t →
    ((l.set i t').map f).sum + f t = (l.map f).sum + f t'
  | [], _, _, _, h => by simp at h
  | x :: l, 0, t, t', h => by
    simp at h
    subst h
    simp only [List.set_cons_zero, List.map_cons, List.sum_cons]
    omega
  | x :: l, i + 1, t, t', h => by
    have := sum_set f l i t t' (by simpa using h)
    simp only [List.set_cons_succ, List.map_cons, List.sum_cons]
    omega

theorem goto_left {s : Sys K V} {i : Nat} {t : Thread K V} {p : Phase V} (ht : s.threads[i]? = some t) (hp : p.left < t.phase.left) :
    (s.goto i t p).left < s.left := by
  have := sum_set (fun t => t.phase.left) s.threads i t { t with phase := p } ht
  simp only [Sys.goto, Sys.left] at this ⊢
  omega

/-- Someone can go on. -/
theorem progress {ops : List (Op K V)} {values : K → Option V} {s : Sys K V} (I : Inv ops values s) (hr : s.raced = false)
    (hw : ∀ op ∈ ops, op.isWrite = true) {i : Nat} {t : Thread K V} (ht : s.threads[i]? = some t) (hn : ∀ r, t.phase ≠ .done r) :
    ∃ j, (s.step j).left < s.left := by
  have hw' : ∀ (j : Nat) (t : Thread K V), s.threads[j]? = some t → t.op.isWrite = true := fun j t h => hw _ (List.mem_of_getElem? (op_at I h))
  have moves : ∀ j u, s.threads[j]? = some u → (∀ r, u.phase ≠ .done r) → u.phase ≠ .reading → (u.phase = .start → s.lock = none) →
      (s.step j).left < s.left := by
    intro j u hu hnd hnr hst
    have hsafe := step_safe I hr hw j
    have hwj := hw' j u hu
    obtain ⟨op, ph⟩ := u
    unfold Sys.step at hsafe ⊢
    rw [hu] at hsafe ⊢
    cases op with
    | get => cases hwj
    | put k v =>
      cases ph with
      | start =>
        simp only [hst rfl, Option.isNone_none, if_true]
        exact goto_left (p := .locked) hu (by simp [Phase.left])
      | locked =>
        simp only at hsafe ⊢
        split
        · next h => rw [if_pos h] at hsafe; cases hsafe
        · exact goto_left hu (by simp [Phase.left])
      | writing => exact goto_left (p := .written) hu (by simp [Phase.left])
      | written => exact goto_left (p := .done none) hu (by simp [Phase.left])
      | reading => exact absurd rfl hnr
      | done r => exact absurd rfl (hnd r)
    | delete k =>
      cases ph with
      | start =>
        simp only [hst rfl, Option.isNone_none, if_true]
        exact goto_left (p := .locked) hu (by simp [Phase.left])
      | locked =>
        simp only at hsafe ⊢
        split
        · next h => rw [if_pos h] at hsafe; cases hsafe
        · exact goto_left hu (by simp [Phase.left])
      | writing => exact goto_left (p := .written) hu (by simp [Phase.left])
      | written => exact goto_left (p := .done none) hu (by simp [Phase.left])
      | reading => exact absurd rfl hnr
      | done r => exact absurd rfl (hnd r)
  cases hl : s.lock with
  | none =>
    refine ⟨i, moves i t ht hn ?_ fun _ => hl⟩
    intro h
    have := I.kinds i t ht
    rw [h] at this
    exact absurd (hw' i t ht) (by rw [show t.op.isWrite = false from this]; simp)
  | some j =>
    have hj := I.locked j hl
    have hu := List.getElem?_eq_getElem hj
    refine ⟨j, moves j _ hu ?_ ?_ ?_⟩
    · intro r h
      have := I.seen j _ hu
      rw [h] at this
      exact this.2 hl
    · intro h
      have := I.seen j _ hu
      rw [h] at this
      exact this.2 hl
    · intro h
      have := I.seen j _ hu
      rw [h] at this
      exact absurd hl this.2

/-- C115: calls of Put and Delete do not block each other for ever: from wherever a schedule has got to, all calls can be finished. -/
theorem C115_writers_finish (values : K → Option V) (ops : List (Op K V)) (hw : ∀ op ∈ ops, op.isWrite = true) (sched : List Nat) :
    ∃ more, ∀ i, i < ops.length → ∃ r, ((Sys.init values ops).run (sched ++ more)).Finished i r := by
  have key : ∀ (n : Nat) (s : Sys K V), s.left ≤ n → Inv ops values s → s.raced = false →
      ∃ more, ∀ i, i < ops.length → ∃ r, (s.run more).Finished i r := by
    intro n
    induction n with
    | zero =>
      intro s hs I hr
      refine ⟨[], fun i hi => ?_⟩
      have hlen : i < s.threads.length := by
        have := congrArg List.length I.calls
        simp at this
        omega
      have hu := List.getElem?_eq_getElem hlen
      cases hp : s.threads[i].phase with
      | done r => exact ⟨r, _, hu, hp⟩
      | _ =>
        have : ∀ (l : List (Thread K V)) (t : Thread K V), t ∈ l → t.phase.left ≤ (l.map fun t => t.phase.left).sum := by
          intro l t
          induction l with
          | nil => intro h; cases h
          | cons x l ih =>
            intro h
            rcases List.mem_cons.1 h with rfl | h
            · simp
            · have := ih h
              simp only [List.map_cons, List.sum_cons]
              omega
        have := this s.threads _ (List.getElem_mem hlen)
        rw [hp] at this
        have := Nat.le_trans this hs
        simp [Phase.left] at this
    | succ n ih =>
      intro s hs I hr
      by_cases hall : ∀ i, i < ops.length → ∃ r, s.Finished i r
      · exact ⟨[], hall⟩
      · obtain ⟨i, hi⟩ := Classical.not_forall.1 hall
        obtain ⟨hi, hno⟩ := Classical.not_imp.1 hi
        have hlen : i < s.threads.length := by
          have := congrArg List.length I.calls
          simp at this
          omega
        have hu := List.getElem?_eq_getElem hlen
        obtain ⟨j, hj⟩ := progress I hr hw hu fun r h => hno ⟨r, _, hu, h⟩
        have hr' := step_safe I hr hw j
        rcases step_inv I j with h | I'
        · rw [hr'] at h; cases h
        · obtain ⟨more, h⟩ := ih (s.step j) (by omega) I' hr'
          exact ⟨j :: more, h⟩
  have hr := C115_writers_never_race values ops hw sched
  obtain ⟨more, h⟩ := key _ _ (Nat.le_refl _) (run_inv (init_inv values ops) sched hr) hr
  exact ⟨more, by rw [run_append]; exact h⟩

/-- C115: calls of Get alone never race either. -/
theorem C115_readers_never_race (values : K → Option V) (ops : List (Op K V)) (hg : ∀ op ∈ ops, op.isWrite = false) (sched : List Nat) :
    ((Sys.init values ops).run sched).raced = false := by
  have key : ∀ (sched : List Nat) (s : Sys K V), Inv ops values s → s.raced = false → (s.run sched).raced = false := by
    intro sched
    induction sched with
    | nil => intro s _ h; exact h
    | cons i sched ih =>
      intro s I hr
      have hg' : ∀ (j : Nat) (t : Thread K V), s.threads[j]? = some t → t.op.isWrite = false :=
        fun j t h => hg _ (List.mem_of_getElem? (op_at I h))
      have hno : (s.threads.any fun u => u.phase.isWriting) = false := by
        rw [Bool.eq_false_iff]
        intro ha
        obtain ⟨u, hu, hb⟩ := List.any_eq_true.1 ha
        obtain ⟨j, hj, e⟩ := List.mem_iff_getElem.1 hu
        have hj : s.threads[j]? = some u := by rw [List.getElem?_eq_getElem hj, e]
        have := I.kinds j u hj
        rw [isWriting_inv hb] at this
        have h' := hg' j u hj
        rw [show u.op.isWrite = true from this] at h'
        cases h'
      have h' : (s.step i).raced = false := by
        unfold Sys.step
        cases ht : s.threads[i]? with
        | none => exact hr
        | some t =>
          obtain ⟨op, ph⟩ := t
          have := hg' i _ ht
          cases op with
          | put => cases this
          | delete => cases this
          | get k =>
            cases ph <;> simp only [Sys.goto]
            · rw [if_neg (by rw [hno]; simp)]; exact hr
            all_goals exact hr
      rcases step_inv I i with h | I'
      · rw [h'] at h; cases h
      · exact ih _ I' h'
  exact key sched _ (init_inv values ops) rfl

/-- C115: Get takes no lock.  Whatever the keys are, a Get that comes while a Put or Delete is in progress reads the map while it is written
to, and the program is stopped. -/
theorem C115_get_refuted (values : K → Option V) (op : Op K V) (hw : op.isWrite = true) (k : K) :
    ((Sys.init values [op, .get k]).run [0, 0, 1]).raced = true ∧ ((Sys.init values [op, .get k]).run [0, 0]).raced = false := by
  cases op with
  | get => cases hw
  | put k' v =>
    constructor <;>
    simp [Sys.init, Sys.run, Sys.step, Sys.goto, Phase.isWriting, Phase.isReading]
  | delete k' =>
    constructor <;>
    simp [Sys.init, Sys.run, Sys.step, Sys.goto, Phase.isWriting, Phase.isReading]

end

/-! ### Collections -/

section
variable {D : Type}

/-- C115: two concurrent InsertOne calls on a collection can both return without error, and one of the documents is lost. -/
theorem C115_insert_refuted (items : List D) (a b : D) :
    (Coll.init items [a, b]).run [0, 1, 0, 1] = ⟨items ++ [b], [.done a, .done b]⟩ := rfl

/-- The documents that are in a collection or about to be put there. -/
def Insert.doc : Insert D → D
  | .start d => d
  | .read d _ => d
  | .done d => d

/-- C115: inserts that do not overlap lose nothing: a schedule that finishes one call after the other. -/
theorem C115_insert_partial (items docs : List D) (order : List Nat) (ho : order.Nodup) (hd : ∀ i ∈ order, i < docs.length) :
    ((Coll.init items docs).run (order.flatMap fun i => [i, i])).items = items ++ order.filterMap fun i => docs[i]? := by
  have key : ∀ (order : List Nat) (s : Coll D), order.Nodup → (∀ i ∈ order, ∃ d, docs[i]? = some d ∧ s.threads[i]? = some (.start d)) →
      (s.run (order.flatMap fun i => [i, i])).items = s.items ++ order.filterMap fun i => docs[i]? := by
    intro order
    induction order with
    | nil => intro s _ _; simp [Coll.run]
    | cons i order ih =>
      intro s hn hs
      obtain ⟨d, hd, ht⟩ := hs i List.mem_cons_self
      have hlen := (List.getElem?_eq_some_iff.1 ht).1
      have e : s.run ((i :: order).flatMap fun i => [i, i]) = ((s.step i).step i).run (order.flatMap fun i => [i, i]) := rfl
      have e1 : s.step i = { s with threads := s.threads.set i (.read d s.items) } := by simp [Coll.step, ht]
      have e2 : (s.step i).step i = ⟨s.items ++ [d], s.threads.set i (.done d)⟩ := by
        rw [e1]
        simp [Coll.step, hlen]
      rw [e, e2, ih _ (List.nodup_cons.1 hn).2]
      · simp [hd]
      · intro j hj
        have hne : i ≠ j := fun e => (List.nodup_cons.1 hn).1 (e ▸ hj)
        obtain ⟨d', h1, h2⟩ := hs j (List.mem_cons_of_mem _ hj)
        exact ⟨d', h1, by simp [hne, h2]⟩
  refine key order (Coll.init items docs) ho ?_
  intro i hi
  have := List.getElem?_eq_getElem (hd i hi)
  exact ⟨_, this, by simp [Coll.init, this]⟩

/-- C115: in every schedule, a collection holds its old documents first, and no document that was neither there nor inserted. -/
theorem C115_insert_invents_nothing (items docs : List D) (sched : List Nat) :
    ∃ new, ((Coll.init items docs).run sched).items = items ++ new ∧ ∀ d ∈ new, d ∈ docs := by
  have key : ∀ (sched : List Nat) (s : Coll D), (∃ new, s.items = items ++ new ∧ ∀ d ∈ new, d ∈ docs) →
      (∀ t ∈ s.threads, match t with
        | .start d => d ∈ docs
        | .read d l => d ∈ docs ∧ ∃ new, l = items ++ new ∧ ∀ d ∈ new, d ∈ docs
        | .done _ => True) →
      ∃ new, (s.run sched).items = items ++ new ∧ ∀ d ∈ new, d ∈ docs := by
    intro sched
    induction sched with
    | nil => intro s h _; exact h
    | cons i sched ih =>
      intro s h ht
      show ∃ new, ((s.step i).run sched).items = _ ∧ _
      cases hi : s.threads[i]? with
      | none => have : s.step i = s := by simp [Coll.step, hi]
                rw [this]; exact ih s h ht
      | some t =>
        have hti := ht t (List.mem_of_getElem? hi)
        cases t with
        | start d =>
          have : s.step i = { s with threads := s.threads.set i (.read d s.items) } := by simp [Coll.step, hi]
          rw [this]
          refine ih _ h ?_
          intro u hu
          rcases List.mem_or_eq_of_mem_set hu with hu | rfl
          · exact ht u hu
          · exact ⟨hti, h⟩
        | read d l =>
          have : s.step i = ⟨l ++ [d], s.threads.set i (.done d)⟩ := by simp [Coll.step, hi]
          rw [this]
          obtain ⟨hd, new, rfl, hnew⟩ := hti
          refine ih _ ⟨new ++ [d], by simp, ?_⟩ ?_
          · intro x hx
            rcases List.mem_append.1 hx with hx | hx
            · exact hnew x hx
            · simp at hx; subst hx; exact hd
          · intro u hu
            rcases List.mem_or_eq_of_mem_set hu with hu | rfl
            · exact ht u hu
            · trivial
        | done d => have : s.step i = s := by simp [Coll.step, hi]
                    rw [this]; exact ih s h ht
  refine key sched _ ⟨[], by simp [Coll.init], nofun⟩ ?_
  intro t h
  simp only [Coll.init, List.mem_map] at h
  obtain ⟨d, hd, rfl⟩ := h
  exact hd

end

/-- C115: two concurrent calls of GetCollection for a new collection can return different collections, and only the second is in the database:
what is inserted into the first is not found by anyone else. -/
theorem C115_get_collection_refuted : (Db.init 2).run [0, 1, 0, 1] = ⟨some 1, 2, [.done 0, .done 1]⟩ := by decide

/-- C115: once a collection is in the database, every later call gets it, whatever the schedule. -/
theorem C115_get_collection_partial (c made n : Nat) (sched : List Nat) :
    let s := (⟨some c, made, List.replicate n .start⟩ : Db).run sched
    s.entry = some c ∧ ∀ c', .done c' ∈ s.threads → c' = c := by
  have key : ∀ (sched : List Nat) (s : Db), s.entry = some c → (∀ t ∈ s.threads, t = .start ∨ t = .done c) →
      (s.run sched).entry = some c ∧ ∀ c', .done c' ∈ (s.run sched).threads → c' = c := by
    intro sched
    induction sched with
    | nil =>
      intro s h ht
      refine ⟨h, fun c' hc => ?_⟩
      rcases ht _ hc with h | h
      · cases h
      · injection h
    | cons i sched ih =>
      intro s h ht
      show ((s.step i).run sched).entry = _ ∧ _
      have : s.step i = s ∨ s.step i = { s with threads := s.threads.set i (.done c) } := by
        unfold Db.step
        cases hi : s.threads[i]? with
        | none => exact .inl rfl
        | some t =>
          rcases ht t (List.mem_of_getElem? hi) with rfl | rfl
          · simp [h]
          · exact .inl rfl
      rcases this with e | e
      · rw [show s.run (i :: sched) = (s.step i).run sched from rfl, e]
        exact ih s h ht
      · rw [show s.run (i :: sched) = (s.step i).run sched from rfl, e]
        refine ih _ h ?_
        intro u hu
        rcases List.mem_or_eq_of_mem_set hu with hu | rfl
        · exact ht u hu
        · exact .inr rfl
  refine key sched _ rfl ?_
  intro t ht
  exact .inl (List.mem_replicate.1 ht).2

/-! ### Concrete cases -/

/-- A schedule without race, with a read after two writes that wait for each other. -/
example : ((Sys.init (fun _ : Nat => (none : Option Nat)) [.put 1 5, .put 1 6, .get 1]).run [0, 1, 0, 0, 0, 1, 1, 1, 1, 2, 2]).raced = false ∧
    ((Sys.init (fun _ : Nat => (none : Option Nat)) [.put 1 5, .put 1 6, .get 1]).run [0, 1, 0, 0, 0, 1, 1, 1, 1, 2, 2]).log =
      [(0, none), (1, none), (2, some 6)] := by decide +kernel

example : ∀ op ∈ ([.get 1, .get 2] : List (Op Nat Nat)), op.isWrite = false := by decide +kernel

example : ∀ op ∈ ([.put 1 5, .delete 1] : List (Op Nat Nat)), op.isWrite = true := by decide +kernel

end Verif.Races
