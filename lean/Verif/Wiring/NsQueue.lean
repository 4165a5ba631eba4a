import Verif.Wiring.NsProps
/-
C18: the application's queue of deferred functions.
-/
namespace Verif.Wiring.Ns
variable {T : Type}

/-! ### Occurring before -/

theorem before_append (l es : List Event) (a b : Event) :
    Before (l ++ es) a b ↔ Before l a b ∨ (a ∈ l ∧ b ∈ es) ∨ Before es a b := by
  constructor
  · rintro ⟨A, B, h, hb⟩
    rcases List.append_eq_append_iff.1 h with ⟨C, h1, h2⟩ | ⟨C, h1, h2⟩
    · exact Or.inr (Or.inr ⟨C, B, h2, hb⟩)
    · cases C with
      | nil =>
        refine Or.inr (Or.inr ⟨[], B, ?_, hb⟩)
        simpa using h2.symm
      | cons c C =>
        simp only [List.cons_append, List.cons.injEq] at h2
        obtain ⟨rfl, h2⟩ := h2
        subst h2
        rcases List.mem_append.1 hb with hb | hb
        · exact Or.inl ⟨A, C, h1, hb⟩
        · exact Or.inr (Or.inl ⟨by rw [h1]; simp, hb⟩)
  · rintro (⟨A, B, h, hb⟩ | ⟨ha, hb⟩ | ⟨A, B, h, hb⟩)
    · exact ⟨A, B ++ es, by rw [h]; simp, List.mem_append_left _ hb⟩
    · obtain ⟨A, B, h⟩ := List.append_of_mem ha
      exact ⟨A, B ++ es, by rw [h]; simp, List.mem_append_right _ hb⟩
    · exact ⟨l ++ A, B, by rw [h]; simp, hb⟩

theorem before_append_of_not_mem {l es : List Event} {a b : Event} (h : b ∉ es) :
    Before (l ++ es) a b ↔ Before l a b := by
  rw [before_append]
  constructor
  · rintro (h1 | ⟨-, h1⟩ | ⟨A, B, h1, h2⟩)
    · exact h1
    · exact absurd h1 h
    · exact absurd (by rw [h1]; exact List.mem_append_right _ (List.mem_cons_of_mem _ h2)) h
  · exact Or.inl

theorem ranTickets_append (a b : List Event) : ranTickets (a ++ b) = ranTickets a ++ ranTickets b :=
  List.filterMap_append

theorem defTickets_append (a b : List Event) : defTickets (a ++ b) = defTickets a ++ defTickets b :=
  List.filterMap_append

theorem mem_ranTickets {l : List Event} {t : Nat} : t ∈ ranTickets l ↔ .ran t ∈ l := by
  unfold ranTickets
  rw [List.mem_filterMap]
  constructor
  · rintro ⟨e, he, h⟩
    cases e <;> simp at h
    subst h; exact he
  · intro h
    exact ⟨_, h, rfl⟩

theorem mem_defTickets {l : List Event} {t : Nat} : t ∈ defTickets l ↔ ∃ f, .deferred t f ∈ l := by
  unfold defTickets
  rw [List.mem_filterMap]
  constructor
  · rintro ⟨e, he, h⟩
    cases e <;> simp at h
    subst h; exact ⟨_, he⟩
  · rintro ⟨f, h⟩
    exact ⟨_, h, rfl⟩

theorem before_ran {l : List Event} {a b : Nat} (h : [a, b].Sublist (ranTickets l)) :
    Before l (.ran a) (.ran b) := by
  induction l with
  | nil => simp [ranTickets] at h
  | cons e l ih =>
    have step : [a, b].Sublist (ranTickets l) → Before (e :: l) (.ran a) (.ran b) := by
      intro h
      obtain ⟨A, B, h1, h2⟩ := ih h
      exact ⟨e :: A, B, by rw [h1]; rfl, h2⟩
    cases e with
    | ran t =>
      have : ranTickets (.ran t :: l) = t :: ranTickets l := rfl
      rw [this] at h
      cases h with
      | cons _ h => exact step h
      | cons_cons _ h =>
        refine ⟨[], l, rfl, mem_ranTickets.1 (h.subset (by simp))⟩
    | _ => exact step h

theorem before_def_lt {l : List Event} {t1 t2 : Nat} {f1 f2 : Bool}
    (hs : (defTickets l).Pairwise (· < ·)) (h : Before l (.deferred t1 f1) (.deferred t2 f2)) :
    t1 < t2 := by
  obtain ⟨A, B, rfl, hb⟩ := h
  rw [defTickets_append] at hs
  have := (List.pairwise_append.1 hs).2.1
  have e : defTickets (.deferred t1 f1 :: B) = t1 :: defTickets B := rfl
  rw [e] at this
  exact (List.pairwise_cons.1 this).1 t2 (mem_defTickets.2 ⟨_, hb⟩)

/-! ### The invariant of the queue -/

/-- The order of execution as far as it is known: what ran, then what waits. -/
def order (s : St T) : List Nat := ranTickets s.log ++ s.deferred.map (·.1)

structure QInv (s : St T) : Prop where
  tickets : defTickets s.log = List.range s.nextTicket
  perm : (order s).Perm (List.range s.nextTicket)
  back : ∀ t1 t2, .deferred t1 false ∈ s.log → .deferred t2 false ∈ s.log → t1 < t2 →
    [t1, t2].Sublist (order s)
  front : ∀ t t' f, Before s.log (.deferred t' f) (.deferred t true) →
    ¬ Before s.log (.ran t') (.deferred t true) → [t, t'].Sublist (order s)
  after : ∀ t, .ran t ∈ s.log → ∃ f, Before s.log (.deferred t f) (.ran t)

theorem QInv.init : QInv (St.init : St T) := by
  refine ⟨rfl, ?_, ?_, ?_, ?_⟩
  · simp [order, ranTickets, St.init]
  · simp [St.init]
  · rintro t t' f ⟨A, B, h, -⟩; simp [St.init] at h
  · simp [St.init]

/-- Events that concern the queue. -/
def queueEvent : Event → Bool
  | .ran _ => true
  | .deferred _ _ => true
  | _ => false

theorem ranTickets_silent {es : List Event} (h : ∀ e ∈ es, queueEvent e = false) :
    ranTickets es = [] := by
  unfold ranTickets
  rw [List.filterMap_eq_nil_iff]
  intro e he
  have := h e he
  cases e <;> simp [queueEvent] at this ⊢

theorem defTickets_silent {es : List Event} (h : ∀ e ∈ es, queueEvent e = false) :
    defTickets es = [] := by
  unfold defTickets
  rw [List.filterMap_eq_nil_iff]
  intro e he
  have := h e he
  cases e <;> simp [queueEvent] at this ⊢

theorem QInv.frame {s s' : St T} (h : QInv s) (es : List Event) (hl : s'.log = s.log ++ es)
    (hd : s'.deferred = s.deferred) (ht : s'.nextTicket = s.nextTicket)
    (hes : ∀ e ∈ es, queueEvent e = false) : QInv s' := by
  have ho : order s' = order s := by
    unfold order
    rw [hl, hd, ranTickets_append, ranTickets_silent hes, List.append_nil]
  have hnd : ∀ t f, Event.deferred t f ∉ es := fun t f hm => by simpa [queueEvent] using hes _ hm
  have hnr : ∀ t, Event.ran t ∉ es := fun t hm => by simpa [queueEvent] using hes _ hm
  refine ⟨?_, ?_, ?_, ?_, ?_⟩
  · rw [hl, ht, defTickets_append, defTickets_silent hes, List.append_nil]; exact h.tickets
  · rw [ho, ht]; exact h.perm
  · intro t1 t2 h1 h2 hlt
    rw [hl, List.mem_append] at h1 h2
    rw [ho]
    exact h.back t1 t2 (h1.resolve_right (hnd _ _)) (h2.resolve_right (hnd _ _)) hlt
  · intro t t' f h1 h2
    rw [hl, before_append_of_not_mem (hnd _ _)] at h1 h2
    rw [ho]
    exact h.front t t' f h1 h2
  · intro t hr
    rw [hl, List.mem_append] at hr
    obtain ⟨f, hf⟩ := h.after t (hr.resolve_right (hnr _))
    exact ⟨f, by rw [hl, before_append]; exact Or.inl hf⟩

theorem QInv.lt {s : St T} (h : QInv s) {t : Nat} {f : Bool} (hm : .deferred t f ∈ s.log) :
    t < s.nextTicket := by
  have := mem_defTickets.2 ⟨f, hm⟩
  rw [h.tickets] at this
  exact List.mem_range.1 this

theorem QInv.defer {s : St T} (h : QInv s) (front : Bool) (f : Prog T) :
    QInv (s.defer front f) := by
  have hfresh : ∀ g, Event.deferred s.nextTicket g ∉ s.log := fun g hm =>
    Nat.lt_irrefl _ (h.lt hm)
  have ho : order (s.defer front f) =
      if front then ranTickets s.log ++ s.nextTicket :: s.deferred.map (·.1)
      else order s ++ [s.nextTicket] := by
    unfold order St.defer
    cases front <;> simp [ranTickets_append, ranTickets]
  have hsub : (order s).Sublist (order (s.defer front f)) := by
    rw [ho]
    cases front
    · simp
    · simp only [if_true]
      unfold order
      exact List.Sublist.append (List.Sublist.refl _) (List.sublist_cons_self _ _)
  refine ⟨?_, ?_, ?_, ?_, ?_⟩
  · show defTickets (s.log ++ [.deferred s.nextTicket front]) = List.range (s.nextTicket + 1)
    rw [defTickets_append, h.tickets, List.range_succ]
    rfl
  · show (order (s.defer front f)).Perm (List.range (s.nextTicket + 1))
    rw [ho, List.range_succ]
    have hp := h.perm
    cases front
    · exact hp.append_right _
    · simp only [if_true]
      refine List.perm_middle.trans ?_
      exact (List.Perm.cons _ hp).trans (List.perm_append_singleton _ _).symm
  · intro t1 t2 h1 h2 hlt
    have h1' : t1 < s.nextTicket ∧ .deferred t1 false ∈ s.log ∨ t1 = s.nextTicket := by
      rcases List.mem_append.1 h1 with h1 | h1
      · exact Or.inl ⟨h.lt h1, h1⟩
      · simp only [List.mem_singleton, Event.deferred.injEq] at h1; exact Or.inr h1.1
    rcases List.mem_append.1 h2 with h2 | h2
    · have := h.lt h2
      rcases h1' with ⟨-, h1'⟩ | h1'
      · exact (h.back t1 t2 h1' h2 hlt).trans hsub
      · omega
    · simp only [List.mem_singleton, Event.deferred.injEq] at h2
      obtain ⟨rfl, hf⟩ := h2
      rcases h1' with ⟨h1', -⟩ | h1'
      · rw [ho, ← hf]
        simp only [Bool.false_eq_true, if_false]
        have hmem : t1 ∈ order s := h.perm.mem_iff.2 (List.mem_range.2 h1')
        exact List.Sublist.append (List.singleton_sublist.2 hmem) (List.Sublist.refl [s.nextTicket])
      · omega
  · intro t t' g h1 h2
    have hlog : (s.defer front f).log = s.log ++ [.deferred s.nextTicket front] := rfl
    rw [hlog] at h1 h2
    by_cases hb : Event.deferred t true ∈ [Event.deferred s.nextTicket front]
    · simp only [List.mem_singleton, Event.deferred.injEq] at hb
      obtain ⟨rfl, rfl⟩ := hb
      rw [before_append] at h1 h2
      have hin : .deferred t' g ∈ s.log := by
        rcases h1 with ⟨A, B, e, hb⟩ | ⟨h1, -⟩ | ⟨A, B, e, hb⟩
        · exact absurd (by rw [e]; exact List.mem_append_right _ (List.mem_cons_of_mem _ hb))
            (hfresh true)
        · exact h1
        · have : B = [] := by
            have := congrArg List.length e
            simp at this
            exact List.length_eq_zero_iff.1 (by omega)
          subst this
          simp at hb
      have hnr : .ran t' ∉ s.log := fun hr => h2 (Or.inr (Or.inl ⟨hr, by simp⟩))
      have hmem : t' ∈ order s := h.perm.mem_iff.2 (List.mem_range.2 (h.lt hin))
      have hq : t' ∈ s.deferred.map (·.1) := by
        rcases List.mem_append.1 hmem with hm | hm
        · exact absurd (mem_ranTickets.1 hm) hnr
        · exact hm
      rw [ho]
      simp only [if_true]
      exact ((List.singleton_sublist.2 hq).cons_cons s.nextTicket).trans
        (List.sublist_append_right _ _)
    · rw [before_append_of_not_mem hb] at h1 h2
      exact (h.front t t' g h1 h2).trans hsub
  · intro t hr
    have hlog : (s.defer front f).log = s.log ++ [.deferred s.nextTicket front] := rfl
    rw [hlog] at hr ⊢
    rcases List.mem_append.1 hr with hr | hr
    · obtain ⟨g, hg⟩ := h.after t hr
      exact ⟨g, by rw [before_append]; exact Or.inl hg⟩
    · simp at hr

theorem QInv.start {s : St T} (h : QInv s) {t : Nat} {f : Prog T} {rest : List (Nat × Prog T)}
    (hd : s.deferred = (t, f) :: rest) :
    QInv ({ s with deferred := rest }.emit (.ran t)) := by
  have ho : order ({ s with deferred := rest }.emit (.ran t)) = order s := by
    unfold order St.emit
    rw [hd]
    simp [ranTickets_append, ranTickets]
  have hn : ∀ t' g, Event.deferred t' g ∉ [Event.ran t] := by simp
  refine ⟨?_, ?_, ?_, ?_, ?_⟩
  · show defTickets (s.log ++ [.ran t]) = List.range s.nextTicket
    rw [defTickets_append, h.tickets]
    simp [defTickets]
  · rw [ho]; exact h.perm
  · intro t1 t2 h1 h2 hlt
    rw [ho]
    exact h.back t1 t2 ((List.mem_append.1 h1).resolve_right (hn _ _))
      ((List.mem_append.1 h2).resolve_right (hn _ _)) hlt
  · intro t1 t' g h1 h2
    rw [ho]
    have hlog : ({ s with deferred := rest }.emit (.ran t)).log = s.log ++ [.ran t] := rfl
    rw [hlog, before_append_of_not_mem (hn _ _)] at h1 h2
    exact h.front t1 t' g h1 h2
  · intro t' hr
    have hlog : ({ s with deferred := rest }.emit (.ran t)).log = s.log ++ [.ran t] := rfl
    rw [hlog] at hr ⊢
    rcases List.mem_append.1 hr with hr | hr
    · obtain ⟨g, hg⟩ := h.after t' hr
      exact ⟨g, by rw [before_append]; exact Or.inl hg⟩
    · simp only [List.mem_singleton, Event.ran.injEq] at hr
      subst hr
      have hmem : t' ∈ order s := by unfold order; rw [hd]; simp
      have := h.perm.mem_iff.1 hmem
      rw [← h.tickets] at this
      obtain ⟨g, hg⟩ := mem_defTickets.1 this
      exact ⟨g, by rw [before_append]; exact Or.inr (Or.inl ⟨hg, by simp⟩)⟩

theorem QInv.afterParent {s : St T} (h : QInv s) (ns : NsId) (x : Name) (e p : Bool) (n : Node) :
    QInv (s.afterParent ns x e p n) := by
  unfold St.afterParent
  by_cases ha : s.added ns n.name
  · simp only [ha, if_true]
    exact h.frame [] (by simp [St.setSeen]) rfl rfl (by simp)
  · simp only [ha, if_false, Bool.false_eq_true]
    by_cases hb : (!n.isMeta && e && !p) = true
    · simp only [hb, if_true]
      exact h.frame [.addEdge ns x n] rfl rfl rfl (by simp [queueEvent])
    · simp only [hb, if_false, Bool.false_eq_true]
      exact h.frame [.hidden ns x n e] rfl rfl rfl (by simp [queueEvent])

theorem QInv.afterBuild {s : St T} (h : QInv s) (ns : NsId) (x : Name) (p : Bool) (n : Node) :
    QInv (s.afterBuild ns x p n) := by
  unfold St.afterBuild
  by_cases ha : (s.emit (.built ns x n)).added ns n.name
  · simp only [ha, if_true]
    exact h.frame [.built ns x n] rfl rfl rfl (by simp [queueEvent])
  · simp only [ha, if_false, Bool.false_eq_true]
    cases p
    · exact h.frame [.built ns x n, .addNode ns x n] (by simp [St.setSeen, St.setAdded, St.emit])
        rfl rfl (by simp [queueEvent])
    · exact h.frame [.built ns x n, .hidden ns x n true]
        (by simp [St.setSeen, St.setAdded, St.emit]) rfl rfl (by simp [queueEvent])

theorem QInv.exec {look : Lookup T} {fuel : Nat} {s : St T} {p : Prog T} {s' : St T} {r : Res}
    (h : QInv s) (hpo : ParOk s) (he : exec look fuel s (.prog p) = some (s', r)) :
    QInv s' ∧ ParOk s' := by
  obtain ⟨a, b, -⟩ := exec_preserves look QInv
    (fun _ _ _ _ h => h.frame [] (by simp [St.setSeen]) rfl rfl (by simp))
    (fun _ _ _ _ _ _ _ _ h => h.afterParent _ _ _ _ _)
    (fun _ _ _ _ _ _ _ _ h => h.afterBuild _ _ _ _)
    (fun _ _ _ _ _ h => h.frame [] (by simp [St.addChild]) rfl rfl (by simp))
    (fun _ h => h.frame [] (by simp) rfl rfl (by simp))
    (fun _ _ _ h => h.frame [] (by simp) rfl rfl (by simp))
    (fun _ _ _ h => h.defer _ _) fuel s (.prog p) s' r h hpo (by simp) he
  exact ⟨a, b⟩

theorem QInv.queueNodes {s : St T} (h : QInv s) (hpo : ParOk s) (nodes : List Name) :
    QInv (s.queueNodes nodes) ∧ ParOk (s.queueNodes nodes) := by
  induction nodes generalizing s with
  | nil => exact ⟨h, hpo⟩
  | cons n nodes ih => exact ih (h.defer _ _) hpo

theorem QInv.runQueue {look : Lookup T} {fuel : Nat} {s s' : St T} {e : Ending} (h : QInv s)
    (hpo : ParOk s) (hr : runQueue look fuel s = some (s', e)) :
    QInv s' ∧ (e = .success → s'.deferred = []) := by
  induction fuel generalizing s with
  | zero => simp [Ns.runQueue] at hr
  | succ fuel ih =>
    rw [Ns.runQueue] at hr
    cases hd : s.deferred with
    | nil =>
      simp only [hd, Option.some.injEq, Prod.mk.injEq] at hr
      obtain ⟨rfl, rfl⟩ := hr
      exact ⟨h, fun _ => hd⟩
    | cons tf rest =>
      obtain ⟨t, f⟩ := tf
      simp only [hd] at hr
      cases he : Ns.exec look fuel ({ s with deferred := rest }.emit (.ran t)) (.prog f) with
      | none => simp [he] at hr
      | some sr =>
        obtain ⟨s1, r1⟩ := sr
        obtain ⟨a, b⟩ := (h.start hd).exec (by exact hpo) he
        simp only [he] at hr
        cases r1 with
        | ok n => exact ih a b hr
        | err =>
          simp only [Option.some.injEq, Prod.mk.injEq] at hr
          obtain ⟨rfl, rfl⟩ := hr
          exact ⟨a, by simp⟩
        | panic =>
          simp only [Option.some.injEq, Prod.mk.injEq] at hr
          obtain ⟨rfl, rfl⟩ := hr
          exact ⟨a, by simp⟩

theorem QInv.build {look : Lookup T} {fuel : Nat} {nodes : List Name} {s : St T} {e : Ending}
    (hr : buildApplication look fuel nodes = some (s, e)) :
    QInv s ∧ (e = .success → s.deferred = []) := by
  obtain ⟨a, b⟩ := QInv.init.queueNodes (T := T) ParOk.init nodes
  exact a.runQueue b hr

/-! ### C18 -/

/-- C18: in every compilation, successful or not, each deferred function is started at
most once and only after it was deferred; if the compilation succeeds every function
that was ever deferred, by whatever function, was run exactly once. -/
theorem C18_each_once (look : Lookup T) (fuel : Nat) (nodes : List Name) (s : St T) (e : Ending)
    (hr : buildApplication look fuel nodes = some (s, e)) (t : Nat) :
    (ranTickets s.log).count t ≤ 1 ∧
    (.ran t ∈ s.log → ∃ f, Before s.log (.deferred t f) (.ran t)) ∧
    (e = .success → ∀ f, .deferred t f ∈ s.log → (ranTickets s.log).count t = 1) := by
  obtain ⟨q, hs⟩ := QInv.build hr
  have hnd : (order s).Nodup := q.perm.nodup_iff.2 List.nodup_range
  refine ⟨?_, q.after t, ?_⟩
  · exact List.nodup_iff_count.1 (List.nodup_append.1 hnd).1 t
  · intro he f hd
    have hlt := q.lt hd
    have : ranTickets s.log = order s := by unfold order; rw [hs he]; simp
    rw [this, q.perm.count_eq, List.nodup_range.count]
    simp [hlt]

/-- C18: functions deferred to the back of the queue run in the order in which they
were deferred. -/
theorem C18_back_in_order (look : Lookup T) (fuel : Nat) (nodes : List Name) (s : St T) (e : Ending)
    (hr : buildApplication look fuel nodes = some (s, e)) (t1 t2 : Nat)
    (hb : Before s.log (.deferred t1 false) (.deferred t2 false)) (h2 : .ran t2 ∈ s.log) :
    Before s.log (.ran t1) (.ran t2) := by
  obtain ⟨q, -⟩ := QInv.build hr
  have hlt : t1 < t2 := before_def_lt (by rw [q.tickets]; exact List.pairwise_lt_range) hb
  obtain ⟨A, B, hl, hm⟩ := hb
  have hsub := q.back t1 t2 (by rw [hl]; simp)
    (by rw [hl]; exact List.mem_append_right _ (List.mem_cons_of_mem _ hm)) hlt
  exact before_ran (sublist_front hsub (q.perm.nodup_iff.2 List.nodup_range) (mem_ranTickets.2 h2))
where
  sublist_front {a b : Nat} {l r : List Nat} (h : [a, b].Sublist (l ++ r)) (hn : (l ++ r).Nodup)
      (hb : b ∈ l) : [a, b].Sublist l := by
    obtain ⟨x, y, e, h1, h2⟩ := List.sublist_append_iff.1 h
    have hd := (List.nodup_append.1 hn).2.2
    match x, y, e with
    | [], _, e =>
      simp only [List.nil_append] at e
      rw [← e] at h2
      exact absurd rfl (hd b hb b (h2.subset (by simp)))
    | [_], y, e =>
      simp only [List.cons_append, List.nil_append, List.cons.injEq] at e
      rw [← e.2] at h2
      exact absurd rfl (hd b hb b (h2.subset (by simp)))
    | [_, _], y, e =>
      simp only [List.cons_append, List.nil_append, List.cons.injEq] at e
      rw [e.1, e.2.1]
      exact h1
    | _ :: _ :: _ :: _, y, e => simp at e

/-- C18: a function deferred to the front runs before everything that was waiting when
it was deferred. -/
theorem C18_front_first (look : Lookup T) (fuel : Nat) (nodes : List Name) (s : St T) (e : Ending)
    (hr : buildApplication look fuel nodes = some (s, e)) (t t' : Nat) (f : Bool)
    (hb : Before s.log (.deferred t' f) (.deferred t true))
    (hw : ¬ Before s.log (.ran t') (.deferred t true)) (h' : .ran t' ∈ s.log) :
    Before s.log (.ran t) (.ran t') := by
  obtain ⟨q, -⟩ := QInv.build hr
  exact before_ran (C18_back_in_order.sublist_front (q.front t t' f hb hw)
    (q.perm.nodup_iff.2 List.nodup_range) (mem_ranTickets.2 h'))

/-! ### Fuel does not matter -/

theorem exec_mono (look : Lookup T) : ∀ (fuel : Nat) (s : St T) (t : Task T) (x : St T × Res),
    exec look fuel s t = some x → exec look (fuel + 1) s t = some x := by
  intro fuel
  induction fuel with
  | zero => intro s t x h; simp [exec] at h
  | succ fuel ih =>
    intro s t x h
    cases t with
    | get ns edge name =>
      rw [exec] at h ⊢
      cases hs : s.seen ns name with
      | some v => cases v <;> (simp only [hs] at h ⊢; exact h)
      | none =>
        simp only [hs] at h ⊢
        cases hl : look name with
        | none => simp only [hl] at h ⊢; exact h
        | some dd =>
          obtain ⟨dn, d⟩ := dd
          simp only [hl] at h ⊢
          cases hb : d.build with
          | none => simp only [hb] at h ⊢; exact h
          | some build =>
            simp only [hb] at h ⊢
            by_cases hdn : dn = name
            · subst hdn
              simp only [ne_eq, not_true, if_false] at h ⊢
              by_cases hacc : s.accepts ns d.nodeType = true
              · simp only [hacc, if_true] at h ⊢
                cases he : exec look fuel s (.prog (build ns)) with
                | none => simp [he] at h
                | some y => rw [ih _ _ _ he]; rw [he] at h; exact h
              · simp only [hacc, if_false, Bool.false_eq_true] at h ⊢
                cases hp : s.parent ns with
                | none => simp only [hp] at h ⊢; exact h
                | some p =>
                  simp only [hp] at h ⊢
                  cases he : exec look fuel s (.get p edge dn) with
                  | none => simp [he] at h
                  | some y => rw [ih _ _ _ he]; rw [he] at h; exact h
            · simp only [ne_eq, hdn, not_false_eq_true, if_true] at h ⊢
              cases he : exec look fuel s (.get ns edge dn) with
              | none => simp [he] at h
              | some y => rw [ih _ _ _ he]; rw [he] at h; exact h
    | prog p =>
      cases p with
      | ret n => simpa only [exec] using h
      | fail => simpa only [exec] using h
      | new name b k => rw [exec] at h ⊢; exact ih _ _ _ h
      | load uid k => rw [exec] at h ⊢; exact ih _ _ _ h
      | store uid v k => rw [exec] at h ⊢; exact ih _ _ _ h
      | child ns name k => rw [exec] at h ⊢; exact ih _ _ _ h
      | defer ns front f k => rw [exec] at h ⊢; exact ih _ _ _ h
      | derive ns name acc k =>
        rw [exec] at h ⊢
        by_cases hns : ns < s.size
        · simp only [hns, if_true] at h ⊢
          cases hc : s.children ns name with
          | some c => simp only [hc] at h ⊢; exact ih _ _ _ h
          | none => simp only [hc] at h ⊢; exact ih _ _ _ h
        · simp only [hns, if_false] at h ⊢; exact h
      | get ns edge name k =>
        rw [exec] at h ⊢
        by_cases hns : ns < s.size
        · simp only [hns, if_true] at h ⊢
          cases he : exec look fuel s (.get ns edge name) with
          | none => simp [he] at h
          | some y =>
            rw [ih _ _ _ he]
            obtain ⟨s1, r1⟩ := y
            simp only [he] at h ⊢
            cases r1 with
            | ok n => exact ih _ _ _ h
            | err => exact ih _ _ _ h
            | panic => exact h
        · simp only [hns, if_false] at h ⊢; exact h

theorem exec_mono_le (look : Lookup T) {f f' : Nat} {s : St T} {t : Task T} {x : St T × Res}
    (hle : f ≤ f') (h : exec look f s t = some x) : exec look f' s t = some x := by
  induction hle with
  | refl => exact h
  | step _ ih => exact exec_mono look _ _ _ _ ih

theorem runQueue_mono (look : Lookup T) : ∀ (fuel : Nat) (s : St T) (x : St T × Ending),
    runQueue look fuel s = some x → runQueue look (fuel + 1) s = some x := by
  intro fuel
  induction fuel with
  | zero => intro s x h; simp [runQueue] at h
  | succ fuel ih =>
    intro s x h
    rw [runQueue] at h ⊢
    cases hd : s.deferred with
    | nil => simp only [hd] at h ⊢; exact h
    | cons tf rest =>
      obtain ⟨t, f⟩ := tf
      simp only [hd] at h ⊢
      cases he : exec look fuel ({ s with deferred := rest }.emit (.ran t)) (.prog f) with
      | none => simp [he] at h
      | some sr =>
        obtain ⟨s1, r1⟩ := sr
        rw [exec_mono look _ _ _ _ he]
        simp only [he] at h ⊢
        cases r1 with
        | ok n => exact ih _ _ h
        | err => exact h
        | panic => exact h

theorem runQueue_mono_le (look : Lookup T) {f f' : Nat} {s : St T} {x : St T × Ending}
    (hle : f ≤ f') (h : runQueue look f s = some x) : runQueue look f' s = some x := by
  induction hle with
  | refl => exact h
  | step _ ih => exact runQueue_mono look _ _ _ ih

theorem runQueue_rounds (look : Lookup T) {s s1 : St T} (h : Rounds look s s1) {f : Nat}
    {x : St T × Ending} (hr : runQueue look f s1 = some x) :
    ∃ f', runQueue look f' s = some x := by
  induction h with
  | refl => exact ⟨f, hr⟩
  | @round s s1 s2 t g rest fuel n hd he _ ih =>
    obtain ⟨f', hf'⟩ := ih hr
    refine ⟨max fuel f' + 1, ?_⟩
    rw [runQueue]
    simp only [hd, exec_mono_le look (Nat.le_max_left fuel f') he]
    exact runQueue_mono_le look (Nat.le_max_right fuel f') hf'

/-- C18: the compilation succeeds exactly when round after round succeeds until no
function is left, and fails exactly when, after some successful rounds, a deferred
function returns an error: no function is started after that. -/
theorem C18_result (look : Lookup T) (s s' : St T) :
    ((∃ fuel, runQueue look fuel s = some (s', .success)) ↔
      Rounds look s s' ∧ s'.deferred = []) ∧
    ((∃ fuel, runQueue look fuel s = some (s', .failed)) ↔
      ∃ s1 t f rest fuel, Rounds look s s1 ∧ s1.deferred = (t, f) :: rest ∧
        exec look fuel ({ s1 with deferred := rest }.emit (.ran t)) (.prog f) = some (s', .err)) := by
  constructor
  · constructor
    · rintro ⟨fuel, h⟩
      induction fuel generalizing s with
      | zero => simp [runQueue] at h
      | succ fuel ih =>
        rw [runQueue] at h
        cases hd : s.deferred with
        | nil =>
          simp only [hd, Option.some.injEq, Prod.mk.injEq, and_true] at h
          subst h; exact ⟨.refl _, hd⟩
        | cons tf rest =>
          obtain ⟨t, f⟩ := tf
          simp only [hd] at h
          cases he : exec look fuel ({ s with deferred := rest }.emit (.ran t)) (.prog f) with
          | none => simp [he] at h
          | some sr =>
            obtain ⟨s1, r1⟩ := sr
            simp only [he] at h
            cases r1 with
            | ok n =>
              obtain ⟨a, b⟩ := ih _ h
              exact ⟨.round hd he a, b⟩
            | err => simp at h
            | panic => simp at h
    · rintro ⟨h, hd⟩
      exact runQueue_rounds look h (f := 1) (by simp [runQueue, hd])
  · constructor
    · rintro ⟨fuel, h⟩
      induction fuel generalizing s with
      | zero => simp [runQueue] at h
      | succ fuel ih =>
        rw [runQueue] at h
        cases hd : s.deferred with
        | nil => simp [hd] at h
        | cons tf rest =>
          obtain ⟨t, f⟩ := tf
          simp only [hd] at h
          cases he : exec look fuel ({ s with deferred := rest }.emit (.ran t)) (.prog f) with
          | none => simp [he] at h
          | some sr =>
            obtain ⟨s1, r1⟩ := sr
            simp only [he] at h
            cases r1 with
            | ok n =>
              obtain ⟨s2, t2, f2, rest2, fuel2, a, b, c⟩ := ih _ h
              exact ⟨s2, t2, f2, rest2, fuel2, .round hd he a, b, c⟩
            | err =>
              simp only [Option.some.injEq, Prod.mk.injEq, and_true] at h
              subst h
              exact ⟨s, t, f, rest, fuel, .refl _, hd, he⟩
            | panic => simp at h
    · rintro ⟨s1, t, f, rest, fuel, h, hd, he⟩
      exact runQueue_rounds look h (f := fuel + 1) (by simp [runQueue, hd, he])

/-! ### The requested nodes -/

/-- The function queued for a requested node. -/
def getNode (n : Name) : Prog T :=
  .get 0 true n fun r => match r with
    | some node => .ret node
    | none => .fail

theorem queueNodes_eq (nodes : List Name) : ∀ s : St T,
    (s.queueNodes nodes).log = s.log ++
      (List.range nodes.length).map (fun i => .deferred (s.nextTicket + i) true) ∧
    (∀ f ∈ nodes.map (getNode (T := T)), f ∈ (s.queueNodes nodes).deferred.map (·.2)) ∧
    (∀ f ∈ s.deferred, f ∈ (s.queueNodes nodes).deferred) := by
  induction nodes with
  | nil => intro s; simp [St.queueNodes]
  | cons n nodes ih =>
    intro s
    obtain ⟨h1, h2, h3⟩ := ih (s.defer true (getNode n))
    have e : s.queueNodes (n :: nodes) = (s.defer true (getNode n)).queueNodes nodes := rfl
    rw [e]
    refine ⟨?_, ?_, ?_⟩
    · rw [h1]
      simp only [St.defer, List.append_assoc, List.length_cons, List.range_succ_eq_map,
        List.map_cons, List.map_map, Nat.add_zero]
      congr 1
      simp only [List.singleton_append, List.cons.injEq, true_and]
      apply List.map_congr_left
      intro i _
      simp only [Function.comp]
      congr 1
      omega
    · intro f hf
      rcases List.mem_cons.1 hf with rfl | hf
      · exact List.mem_map.2 ⟨(s.nextTicket, getNode n), h3 _ (by simp [St.defer]), rfl⟩
      · exact h2 f hf
    · intro f hf
      exact h3 f (by simp only [St.defer, if_true]; exact List.mem_cons_of_mem _ hf)

/-- The log only grows. -/
theorem exec_log (look : Lookup T) {fuel : Nat} {s : St T} {p : Prog T} {s' : St T} {r : Res}
    (hpo : ParOk s) (he : exec look fuel s (.prog p) = some (s', r)) :
    s.log <+: s'.log ∧ ParOk s' := by
  obtain ⟨a, b, -⟩ := exec_preserves look (fun s' => s.log <+: s'.log)
    (fun _ _ _ _ h => h)
    (fun t ns x e d n _ _ h => by
      unfold St.afterParent
      simp only [St.setSeen]
      split
      · exact h
      · split <;> exact h.trans (List.prefix_append _ _))
    (fun t ns x d n _ _ _ h => by
      unfold St.afterBuild
      simp only [St.setSeen]
      split
      · exact h.trans (List.prefix_append _ _)
      · split <;>
          exact (h.trans (List.prefix_append _ _)).trans (List.prefix_append _ _))
    (fun _ _ _ _ _ h => h) (fun _ h => h) (fun _ _ _ h => h)
    (fun _ _ _ h => h.trans (List.prefix_append _ _))
    fuel s (.prog p) s' r (List.prefix_refl _) hpo (by simp) he
  exact ⟨a, b⟩

theorem runQueue_log (look : Lookup T) {fuel : Nat} {s s' : St T} {e : Ending} (hpo : ParOk s)
    (hr : runQueue look fuel s = some (s', e)) : s.log <+: s'.log := by
  induction fuel generalizing s with
  | zero => simp [runQueue] at hr
  | succ fuel ih =>
    rw [runQueue] at hr
    cases hd : s.deferred with
    | nil =>
      simp only [hd, Option.some.injEq, Prod.mk.injEq] at hr
      rw [hr.1]; exact List.prefix_refl _
    | cons tf rest =>
      obtain ⟨t, f⟩ := tf
      simp only [hd] at hr
      cases he : exec look fuel ({ s with deferred := rest }.emit (.ran t)) (.prog f) with
      | none => simp [he] at hr
      | some sr =>
        obtain ⟨s1, r1⟩ := sr
        obtain ⟨a, b⟩ := exec_log look (by exact hpo) he
        have a' : s.log <+: s1.log := (List.prefix_append _ _).trans a
        simp only [he] at hr
        cases r1 with
        | ok n => exact a'.trans (ih b hr)
        | err =>
          simp only [Option.some.injEq, Prod.mk.injEq] at hr
          rw [← hr.1]; exact a'
        | panic =>
          simp only [Option.some.injEq, Prod.mk.injEq] at hr
          rw [← hr.1]; exact a'

/-- C18: the requested nodes get the first tickets and are taken up in reverse order:
the last one requested first. -/
theorem C18_nodes_reversed (look : Lookup T) (fuel : Nat) (nodes : List Name) (s : St T) (e : Ending)
    (hr : buildApplication look fuel nodes = some (s, e)) (i j : Nat) (hij : i < j)
    (hj : j < nodes.length) (hi : .ran i ∈ s.log) : Before s.log (.ran j) (.ran i) := by
  have hpo := (QInv.init.queueNodes (T := T) ParOk.init nodes).2
  obtain ⟨es, hes⟩ := runQueue_log look hpo hr
  rw [(queueNodes_eq nodes St.init).1] at hes
  have h0 : (St.init : St T).nextTicket = 0 := rfl
  have h1 : (St.init : St T).log = [] := rfl
  rw [h0, h1, List.nil_append] at hes
  simp only [Nat.zero_add] at hes
  obtain ⟨q, -⟩ := QInv.build hr
  -- the events before the deferral of j
  have hsplit : s.log = (List.range j).map (fun i => .deferred i true) ++
      (.deferred j true :: ((List.range (nodes.length - j - 1)).map
        (fun i => .deferred (j + 1 + i) true) ++ es)) := by
    rw [← hes]
    have : nodes.length = j + (1 + (nodes.length - j - 1)) := by omega
    conv => lhs; rw [this]
    rw [List.range_add, List.range_add]
    simp [List.map_append, Function.comp, Nat.add_assoc, Nat.add_comm, Nat.add_left_comm]
  have hbef : Before s.log (.deferred i true) (.deferred j true) := by
    rw [hsplit, before_append]
    refine Or.inr (Or.inl ⟨?_, by simp⟩)
    exact List.mem_map.2 ⟨i, List.mem_range.2 hij, rfl⟩
  have hnot : ¬ Before s.log (.ran i) (.deferred j true) := by
    rw [hsplit, before_append]
    rintro (⟨A, B, h, -⟩ | ⟨h, -⟩ | ⟨A, B, h, hB⟩)
    · have : Event.ran i ∈ (List.range j).map (fun i => Event.deferred i true) := by rw [h]; simp
      simp at this
    · simp at h
    · -- a second deferral of j
      cases A with
      | nil => simp at h
      | cons a A =>
        simp only [List.cons_append, List.cons.injEq] at h
        have hmem : Event.deferred j true ∈ (List.range (nodes.length - j - 1)).map
            (fun i => Event.deferred (j + 1 + i) true) ++ es := by
          rw [h.2]; exact List.mem_append_right _ (List.mem_cons_of_mem _ hB)
        have hpw : (defTickets s.log).Pairwise (· < ·) := by
          rw [q.tickets]; exact List.pairwise_lt_range
        have := before_def_lt hpw (t1 := j) (t2 := j) (f1 := true) (f2 := true)
          ⟨_, _, hsplit, hmem⟩
        omega
  exact C18_front_first look fuel nodes s e hr j i true hbef hnot hi

/-- C18: if the compilation succeeds, every requested node exists: the application's
Get of it returns a node and changes nothing. -/
theorem C18_nodes_built (look : Lookup T) (rank : Name → Nat) (hac : Acyclic look rank)
    (fuel : Nat) (nodes : List Name) (s : St T)
    (hr : buildApplication look fuel nodes = some (s, .success)) (name : Name) (hn : name ∈ nodes) :
    ∃ n, ∀ f e, exec look (f + 1) s (.get 0 e name) = some (s, .ok n) := by
  suffices h : ∃ n, s.seen 0 name = some (some n) by
    obtain ⟨n, h⟩ := h
    exact ⟨n, fun f e => by rw [exec]; simp [h]⟩
  have start : WF ((St.init : St T).queueNodes nodes) := by
    suffices h : ∀ s : St T, WF s → WF (s.queueNodes nodes) from h _ WF.init
    intro s
    clear hr hn
    induction nodes generalizing s with
    | nil => exact fun h => h
    | cons n nodes ih =>
      intro h
      exact ih (s.defer true (getNode n)) ⟨h.parent, h.unseen, h.root, h.all, h.pos⟩
  have hin : getNode name ∈ (St.init.queueNodes nodes).deferred.map (·.2) :=
    (queueNodes_eq nodes (St.init : St T)).2.1 _ (List.mem_map.2 ⟨name, hn, rfl⟩)
  unfold buildApplication at hr
  generalize St.init.queueNodes nodes = s0 at *
  clear hn
  -- either already built, or still queued
  have hor : (∃ n, s0.seen 0 name = some (some n)) ∨ getNode name ∈ s0.deferred.map (·.2) :=
    Or.inr hin
  clear hin
  induction fuel generalizing s0 with
  | zero => simp [runQueue] at hr
  | succ fuel ih =>
    rw [runQueue] at hr
    cases hd : s0.deferred with
    | nil =>
      simp only [hd, Option.some.injEq, Prod.mk.injEq, and_true] at hr
      subst hr
      rcases hor with h | h
      · exact h
      · simp [hd] at h
    | cons tf rest =>
      obtain ⟨t, f⟩ := tf
      simp only [hd] at hr
      cases he : exec look fuel ({ s0 with deferred := rest }.emit (.ran t)) (.prog f) with
      | none => simp [he] at hr
      | some sr =>
        obtain ⟨s1, r1⟩ := sr
        simp only [he] at hr
        cases r1 with
        | err => simp at hr
        | panic => simp at hr
        | ok n =>
          have w1 : WF ({ s0 with deferred := rest }.emit (.ran t)) :=
            ⟨start.parent, start.unseen, start.root, start.all, start.pos⟩
          have hx := (exec_ext look rank hac fuel _ _ s1 _ w1 (by simp) he).1
          refine ih s1 hr hx.wf ?_
          rcases hor with ⟨n0, h⟩ | h
          · exact Or.inl ⟨n0, hx.mono _ _ _ h⟩
          · rw [hd] at h
            simp only [List.map_cons, List.mem_cons] at h
            rcases h with h | h
            · -- this is the function that just ran
              subst h
              left
              cases fuel with
              | zero => simp [exec] at he
              | succ fuel =>
                unfold getNode at he
                rw [exec] at he
                have hpos : 0 < ({ s0 with deferred := rest }.emit (.ran t)).size := w1.pos
                simp only [hpos, if_true] at he
                cases hg : exec look fuel ({ s0 with deferred := rest }.emit (.ran t))
                    (.get 0 true name) with
                | none => simp [hg] at he
                | some sr2 =>
                  obtain ⟨s2, r2⟩ := sr2
                  obtain ⟨hx2, hres⟩ := exec_ext look rank hac fuel _ _ s2 r2 w1 (by
                    intro _ _ _ h; injection h with a; subst a; exact hpos) hg
                  simp only [hg] at he
                  cases r2 with
                  | ok n2 =>
                    have hs2 := hres 0 true name n2 rfl rfl
                    have hx3 := (exec_ext look rank hac fuel _ _ s1 _ hx2.wf (by simp) he).1
                    exact ⟨n2, hx3.mono _ _ _ hs2⟩
                  | err =>
                    simp only [] at he
                    cases fuel with
                    | zero => simp [exec] at he
                    | succ fuel => simp [exec] at he
                  | panic => simp at he
            · right
              -- the queue still holds it
              have hkeep := (exec_preserves look (fun s => ∀ f ∈ rest, f ∈ s.deferred)
                (fun _ _ _ _ h => h)
                (fun t ns x e d n _ _ h => by
                  unfold St.afterParent; simp only [St.setSeen]
                  split
                  · exact h
                  · split <;> exact h)
                (fun t ns x d n _ _ _ h => by
                  unfold St.afterBuild; simp only [St.setSeen]
                  split
                  · exact h
                  · split <;> exact h)
                (fun _ _ _ _ _ h => h) (fun _ h => h) (fun _ _ _ h => h)
                (fun s front f h => by
                  intro g hg
                  simp only [St.defer]
                  cases front
                  · simp [h g hg]
                  · simp [h g hg])
                fuel _ (.prog f) s1 _ (fun _ h => h)
                (fun m p hp => Nat.lt_trans (w1.parent m p hp).1 (w1.parent m p hp).2)
                (by simp) he).1
              obtain ⟨tf', hm, hf⟩ := List.mem_map.1 h
              exact List.mem_map.2 ⟨tf', hkeep tf' hm, hf⟩

/-- A compilation in which a build function defers work to the back and to the front. -/
def deferring : Lookup Unit := fun x =>
  if x = "a" then some ("a", ⟨(), false, some fun ns =>
    .defer ns false (.get ns true "b" fun | some n => .ret n | none => .fail) <|
    .defer ns false (.new "x" false fun n => .ret n) <|
    .defer ns true (.new "y" false fun n => .ret n) <|
    .new "a" false fun n => .ret n⟩)
  else if x = "b" then some ("b", ⟨(), false, some fun _ => .new "b" false fun n => .ret n⟩)
  else none

example : ∃ s, buildApplication deferring 30 ["a", "b"] = some (s, .success) ∧
    ranTickets s.log = [1, 0, 4, 2, 3] ∧
    Event.deferred 2 false ∈ s.log ∧ Event.deferred 3 false ∈ s.log ∧
    Event.deferred 4 true ∈ s.log :=
  ⟨_, rfl, by decide, by decide, by decide, by decide⟩

/-- A failing function stops the compilation. -/
example : ∃ s, buildApplication deferring 30 ["missing", "a"] = some (s, .failed) ∧
    ranTickets s.log = [1, 4, 0] := ⟨_, rfl, by decide⟩

end Verif.Wiring.Ns
