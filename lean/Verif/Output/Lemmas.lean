import Verif.Output.Spec
import Verif.Strings.Props
/-
Lemmas for C135: a compilation is a sequence of jobs at places that have no path in common.
-/
namespace Verif.Output
open Verif.Strings (cleanName)

structure Job where
  place : Place
  gen : Gen

def runJobs : List Job → FS → Option FS
  | [], fs => some fs
  | j :: js, fs =>
    match enter j.place fs j.gen with
    | none => none
    | some fs' => runJobs js fs'

theorem runJobs_append : ∀ (a b : List Job) (fs : FS), runJobs (a ++ b) fs = (runJobs a fs).bind (runJobs b)
  | [], _, _ => rfl
  | j :: js, b, fs => by
    simp only [List.cons_append, runJobs]
    cases enter j.place fs j.gen with
    | none => rfl
    | some fs' => exact runJobs_append js b fs'

/-- The jobs of the builders. -/
def bjobs : List Builder → List Part → List Job
  | [], _ => []
  | b :: bs, parts =>
    (if ofKind b.kind parts = [] then [] else [⟨b.place, b.build (ofKind b.kind parts)⟩]) ++
      bjobs bs (parts.filter fun p => p.kind != b.kind)

/-- The jobs of the nodes that generate themselves. -/
def pjobs (parts : List Part) : List Job := parts.filterMap fun p => p.gen.map fun g => ⟨placeOf p.name, g⟩

theorem own_cons (b : Builder) (bs : List Builder) (parts : List Part) :
    own bs (parts.filter fun p => p.kind != b.kind) = own (b :: bs) parts := by
  simp only [own, List.filter_filter]
  apply List.filter_congr
  intro p _
  simp only [List.all_cons]
  rw [Bool.and_comm]
  congr 1
  simp only [bne]
  by_cases h : p.kind = b.kind
  · simp [h]
  · rw [beq_false_of_ne h, beq_false_of_ne (Ne.symm h)]

theorem runBuilders_eq : ∀ (order : List Builder) (parts : List Part) (fs : FS),
    runBuilders order parts fs = (runJobs (bjobs order parts) fs).map fun fs' => (own order parts, fs')
  | [], parts, fs => by
    have e : parts.filter (fun _ => true) = parts := List.filter_eq_self.2 fun _ _ => rfl
    simp [runBuilders, bjobs, runJobs, own, e]
  | b :: bs, parts, fs => by
    have ih := runBuilders_eq bs (parts.filter fun p => p.kind != b.kind)
    have e : parts.filter (fun p => p.kind == b.kind) = ofKind b.kind parts := rfl
    simp only [runBuilders, runBuilder, e, bjobs]
    by_cases h : ofKind b.kind parts = []
    · simp [h, ih, own_cons]
    · have h' : (ofKind b.kind parts).isEmpty = false := by
        cases hh : ofKind b.kind parts with
        | nil => exact absurd hh h
        | cons => rfl
      simp only [h', if_neg h, Bool.false_eq_true, if_false, List.cons_append, List.nil_append, runJobs]
      cases enter b.place fs (b.build (ofKind b.kind parts)) with
      | none => rfl
      | some fs' => simp only [Option.map_some, ih, own_cons]

theorem runParts_eq : ∀ (parts : List Part) (fs : FS),
    runParts parts fs = (runJobs (pjobs parts) fs).map fun fs' => (parts.filter (·.gen.isNone), fs')
  | [], _ => rfl
  | p :: ps, fs => by
    have ih := runParts_eq ps
    simp only [runParts, pjobs, List.filterMap_cons]
    cases hg : p.gen with
    | none =>
      simp only [Option.map_none, ih, Option.map_map, List.filter_cons, hg, Option.isNone_none, if_true]
      rfl
    | some g =>
      simp only [Option.map_some, runJobs]
      cases enter (placeOf p.name) fs g with
      | none => rfl
      | some fs' => simp only [ih, List.filter_cons, hg, Option.isNone_some, Bool.false_eq_true, if_false]; rfl

theorem buildAll_iff {order : List Builder} {parts : List Part} {fs : FS} :
    buildAll false order parts = some fs ↔
      runJobs (bjobs order parts ++ pjobs (own order parts)) FS.empty = some fs ∧
      ∀ p ∈ own order parts, p.gen ≠ none := by
  simp only [buildAll, Bool.false_eq_true, if_false, runBuilders_eq, runJobs_append]
  cases runJobs (bjobs order parts) FS.empty with
  | none => simp
  | some fs1 =>
    simp only [Option.map_some, Option.bind_some, runParts_eq]
    cases runJobs (pjobs (own order parts)) fs1 with
    | none => simp
    | some fs2 =>
      simp only [Option.map_some, List.isEmpty_iff, List.filter_eq_nil_iff, Option.isNone_iff_eq_none]
      split
      · rename_i h
        exact ⟨fun e => ⟨e, h⟩, fun e => e.1⟩
      · rename_i h
        exact ⟨nofun, fun e => absurd e.2 h⟩

/-- Two places have no path in common. -/
def Apart (a b : Place) : Prop := ∀ p, a.has p = true → b.has p = false

theorem view_empty {pl : Place} {fs : FS} (h : ∀ p, pl.has p = true → fs p = none) : pl.view fs = FS.empty := by
  funext q
  cases pl with
  | root => exact h q rfl
  | dir d =>
    simp only [Place.view]
    split
    · rfl
    · exact h (d :: q) (by simp [Place.has])
  | dots =>
    simp only [Place.view]
    split
    · exact h q ‹_›
    · rfl
  | nowhere => rfl

theorem enter_empty {pl : Place} {fs : FS} (g : Gen) (h : ∀ p, pl.has p = true → fs p = none) :
    enter pl fs g = (g FS.empty).map (pl.put fs) := by
  have e := view_empty h
  cases pl with
  | dir d =>
    have := h [d] (by simp [Place.has])
    simp only [enter, this, Option.isSome_none, Bool.false_eq_true, if_false, e]
  | root => simp only [enter, e]
  | dots => simp only [enter, e]
  | nowhere => simp only [enter, e]

theorem runJobs_iff : ∀ (js : List Job) (fs0 fs : FS), js.Pairwise (fun a b => Apart a.place b.place) →
    (∀ j ∈ js, ∀ p, j.place.has p = true → fs0 p = none) →
    (runJobs js fs0 = some fs ↔
      (∀ j ∈ js, ∃ out, j.gen FS.empty = some out ∧ ∀ p, j.place.has p = true → fs p = j.place.file out p) ∧
      ∀ p, (∀ j ∈ js, j.place.has p = false) → fs p = fs0 p)
  | [], fs0, fs, _, _ => by
    simp only [runJobs, Option.some.injEq]
    constructor
    · rintro rfl
      exact ⟨nofun, fun _ _ => rfl⟩
    · rintro ⟨-, h⟩
      funext p
      exact (h p (fun j hj => by cases hj)).symm
  | j :: js, fs0, fs, hd, h0 => by
    obtain ⟨hd1, hd2⟩ := List.pairwise_cons.1 hd
    simp only [runJobs, enter_empty j.gen (h0 j List.mem_cons_self)]
    cases hg : j.gen FS.empty with
    | none =>
      simp only [Option.map_none]
      constructor
      · intro h; cases h
      · rintro ⟨h, -⟩
        obtain ⟨out, ho, -⟩ := h j List.mem_cons_self
        rw [hg] at ho
        cases ho
    | some out =>
      simp only [Option.map_some]
      have hput : ∀ j' ∈ js, ∀ p, j'.place.has p = true → j.place.put fs0 out p = none := by
        intro j' hj' p hp
        have hn : j.place.has p = false := by
          cases hh : j.place.has p with
          | false => rfl
          | true => rw [hd1 j' hj' p hh] at hp; cases hp
        simp only [Place.put, hn, Bool.false_eq_true, if_false]
        exact h0 j' (List.mem_cons_of_mem _ hj') p hp
      rw [runJobs_iff js (j.place.put fs0 out) fs hd2 hput]
      constructor
      · rintro ⟨h1, h2⟩
        refine ⟨fun j' hj' => ?_, fun p hp => ?_⟩
        · rcases List.mem_cons.1 hj' with rfl | hj'
          · refine ⟨out, hg, fun p hp => ?_⟩
            rw [h2 p (fun k hk => hd1 k hk p hp)]
            simp [Place.put, hp]
          · exact h1 j' hj'
        · rw [h2 p (fun k hk => hp k (List.mem_cons_of_mem _ hk))]
          simp [Place.put, hp j List.mem_cons_self]
      · rintro ⟨h1, h2⟩
        refine ⟨fun j' hj' => h1 j' (List.mem_cons_of_mem _ hj'), fun p hp => ?_⟩
        simp only [Place.put]
        split
        · rename_i hh
          obtain ⟨out', ho', h'⟩ := h1 j List.mem_cons_self
          rw [hg] at ho'
          obtain rfl := Option.some.inj ho'
          exact h' p hh
        · rename_i hh
          refine h2 p fun k hk => ?_
          rcases List.mem_cons.1 hk with rfl | hk
          · simpa using hh
          · exact hp k hk

theorem ofKind_filter {k k' : Kind} (parts : List Part) (h : k ≠ k') :
    ofKind k (parts.filter fun p => p.kind != k') = ofKind k parts := by
  simp only [ofKind, List.filter_filter]
  apply List.filter_congr
  intro p _
  by_cases hk : p.kind = k
  · simp [hk, h]
  · simp [hk]

theorem mem_bjobs : ∀ {order : List Builder} {parts : List Part}, (order.map (·.kind)).Nodup → ∀ {j : Job},
    (j ∈ bjobs order parts ↔ ∃ b ∈ order, ofKind b.kind parts ≠ [] ∧ j = ⟨b.place, b.build (ofKind b.kind parts)⟩)
  | [], parts, _, j => by simp [bjobs]
  | b :: bs, parts, hn, j => by
    simp only [List.map_cons, List.nodup_cons, List.mem_map, not_exists, not_and] at hn
    have hne : ∀ b' ∈ bs, b'.kind ≠ b.kind := fun b' h' => hn.1 b' h'
    simp only [bjobs, List.mem_append, mem_bjobs hn.2]
    constructor
    · rintro (h | ⟨b', hb', h1, h2⟩)
      · split at h
        · cases h
        · exact ⟨b, List.mem_cons_self, ‹_›, List.mem_singleton.1 h⟩
      · rw [ofKind_filter _ (hne b' hb')] at h1 h2
        exact ⟨b', List.mem_cons_of_mem _ hb', h1, h2⟩
    · rintro ⟨b', hb', h1, h2⟩
      rcases List.mem_cons.1 hb' with rfl | hb'
      · left
        rw [if_neg h1, h2]
        exact List.mem_singleton_self _
      · right
        refine ⟨b', hb', ?_⟩
        rw [ofKind_filter _ (hne b' hb')]
        exact ⟨h1, h2⟩

theorem bjobs_pairwise {R : Place → Place → Prop} : ∀ {order : List Builder} (parts : List Part),
    (order.map (·.kind)).Nodup → order.Pairwise (fun a b => R a.place b.place) →
    (bjobs order parts).Pairwise fun a b => R a.place b.place
  | [], _, _, _ => List.Pairwise.nil
  | b :: bs, parts, hn, hp => by
    simp only [List.map_cons, List.nodup_cons] at hn
    obtain ⟨hp1, hp2⟩ := List.pairwise_cons.1 hp
    have ih := bjobs_pairwise (R := R) (parts.filter fun p => p.kind != b.kind) hn.2 hp2
    simp only [bjobs]
    split
    · exact ih
    · refine List.pairwise_cons.2 ⟨fun j hj => ?_, ih⟩
      obtain ⟨b', hb', -, rfl⟩ := (mem_bjobs hn.2).1 hj
      exact hp1 b' hb'

theorem clean_no_dot (s : Str) : (cleanName s).head? ≠ some '.' := by
  intro h
  have hm : '.' ∈ cleanName s := List.mem_of_mem_head? h
  rcases Strings.C23_identifier_or_space s '.' hm with h | h
  · rcases h with h | h
    · revert h
      decide +kernel
    · revert h
      decide
  · revert h
    decide

theorem apart_dirs {a b : Str} (h : a ≠ b) : Apart (.dir a) (.dir b) := by
  intro p hp
  simp only [Place.has, beq_iff_eq] at hp ⊢
  rw [hp]
  simpa using h

theorem isDots_iff (p : List Str) : isDots p = true ↔ ∃ c : Str, c.head? = some '.' ∧ p = [c] := by
  match p with
  | [] => simp [isDots]
  | [c] => simp [isDots]
  | _ :: _ :: _ => simp [isDots]

theorem apart_dir_dots {a : Str} (h : a.head? ≠ some '.') : Apart (.dir a) .dots := by
  intro p hp
  simp only [Place.has, beq_iff_eq] at hp
  cases hd : Place.dots.has p with
  | false => rfl
  | true =>
    obtain ⟨c, hc, rfl⟩ := (isDots_iff p).1 hd
    simp only [List.head?_cons, Option.some.injEq] at hp
    exact absurd (hp ▸ hc) h

theorem Apart.symm {a b : Place} (h : Apart a b) : Apart b a := by
  intro p hp
  cases ha : a.has p with
  | false => rfl
  | true => rw [h p ha] at hp; cases hp

theorem apart_nowhere (a : Place) : Apart a .nowhere := fun _ _ => rfl

end Verif.Output
