import Verif.Output.Lemmas
/-
C135: what is in the output directory of a compilation.
-/
namespace Verif.Output
open Verif.Strings (cleanName)

theorem places_apart {order : List Builder} (hr : Registered order) :
    order.Pairwise fun a b => Apart a.place b.place := by
  have hn := hr.once
  rw [List.Nodup, List.pairwise_map] at hn
  refine List.Pairwise.imp_of_mem ?_ hn
  intro a b ha hb hne
  have key : ∀ b ∈ order, b.place = .nowhere ∨ (b.kind = .config ∧ b.place = .dots) ∨
      (b.kind = .container ∧ b.place = .dir "docker".toList) ∨ (b.kind = .process ∧ b.place = .dir "linux".toList) ∨
      (b.kind = .golang ∧ b.place = .dir "golang".toList) := by
    intro b hb
    cases hk : b.kind with
    | config => rcases hr.config b hb hk with h | h <;> simp [h]
    | metadata => simp [hr.metadata b hb hk]
    | container => simp [hr.container b hb hk]
    | process => simp [hr.process b hb hk]
    | golang => simp [hr.golang b hb hk]
    | other => exact absurd hk (hr.other b hb)
  rcases key a ha with h1 | ⟨k1, h1⟩ | ⟨k1, h1⟩ | ⟨k1, h1⟩ | ⟨k1, h1⟩ <;>
  rcases key b hb with h2 | ⟨k2, h2⟩ | ⟨k2, h2⟩ | ⟨k2, h2⟩ | ⟨k2, h2⟩ <;>
  rw [h1, h2] <;>
  first
    | exact apart_nowhere _
    | exact (apart_nowhere _).symm
    | exact absurd (k1.trans k2.symm) hne
    | exact apart_dirs (by decide)
    | exact apart_dir_dots (by decide)
    | exact (apart_dir_dots (by decide)).symm

theorem file_nil {d c : Str} {out : FS} : (Place.dir d).file out [c] = none := by simp [Place.file]

theorem file_cons {d c : Str} {out : FS} {q : List Str} (hq : q ≠ []) : (Place.dir d).file out (c :: q) = out q := by
  simp [Place.file, hq]

theorem placeOf_dir {name : Str} (h : cleanName name ≠ []) : placeOf name = .dir (cleanName name) := if_neg h

theorem mem_pjobs {parts : List Part} {j : Job} :
    j ∈ pjobs parts ↔ ∃ p ∈ parts, ∃ g, p.gen = some g ∧ j = ⟨placeOf p.name, g⟩ := by
  simp only [pjobs, List.mem_filterMap, Option.map_eq_some_iff]
  constructor
  · rintro ⟨p, hp, g, hg, rfl⟩
    exact ⟨p, hp, g, hg, rfl⟩
  · rintro ⟨p, hp, g, hg, rfl⟩
    exact ⟨p, hp, g, hg, rfl⟩

theorem builder_place {order : List Builder} (hr : Registered order) {b : Builder} (hb : b ∈ order) :
    b.place = .nowhere ∨ b.place = .dots ∨ ∃ d ∈ ["docker".toList, "linux".toList, "golang".toList],
      b.place = .dir d := by
  cases hk : b.kind with
  | config => rcases hr.config b hb hk with h | h <;> simp [h]
  | metadata => simp [hr.metadata b hb hk]
  | container => simp [hr.container b hb hk]
  | process => simp [hr.process b hb hk]
  | golang => simp [hr.golang b hb hk]
  | other => exact absurd hk (hr.other b hb)

theorem jobs_apart {order : List Builder} {parts : List Part} (hr : Registered order)
    (hd : DistinctNames order parts) :
    (bjobs order parts ++ pjobs (own order parts)).Pairwise fun a b => Apart a.place b.place := by
  refine List.pairwise_append.2 ⟨bjobs_pairwise parts hr.once (places_apart hr), ?_, ?_⟩
  · have h1 := hd.distinct
    have h2 := hd.nonempty
    rw [List.Nodup, List.pairwise_map] at h1
    generalize own order parts = ps at h1 h2
    induction ps with
    | nil => exact List.Pairwise.nil
    | cons p ps ih =>
      obtain ⟨h11, h12⟩ := List.pairwise_cons.1 h1
      have ih := ih h12 fun q hq => h2 q (List.mem_cons_of_mem _ hq)
      simp only [pjobs, List.filterMap_cons]
      cases hg : p.gen with
      | none => exact ih
      | some g =>
        refine List.pairwise_cons.2 ⟨fun j hj => ?_, ih⟩
        obtain ⟨q, hq, g', -, rfl⟩ := mem_pjobs.1 hj
        show Apart (placeOf p.name) (placeOf q.name)
        rw [placeOf_dir (h2 p List.mem_cons_self), placeOf_dir (h2 q (List.mem_cons_of_mem _ hq))]
        exact apart_dirs (h11 q hq)
  · intro a ha c hc
    obtain ⟨b, hb, -, rfl⟩ := (mem_bjobs hr.once).1 ha
    obtain ⟨p, hp, g, -, rfl⟩ := mem_pjobs.1 hc
    show Apart b.place (placeOf p.name)
    rw [placeOf_dir (hd.nonempty p hp)]
    obtain ⟨f1, f2, f3⟩ := hd.free p hp
    rcases builder_place hr hb with h | h | ⟨d, hdm, h⟩ <;> rw [h]
    · exact (apart_nowhere _).symm
    · exact (apart_dir_dots (clean_no_dot _)).symm
    · simp only [List.mem_cons, List.not_mem_nil, or_false] at hdm
      rcases hdm with rfl | rfl | rfl
      · exact apart_dirs (Ne.symm f1)
      · exact apart_dirs (Ne.symm f2)
      · exact apart_dirs (Ne.symm f3)

/-- **C135** (the output).  For every set of registered builders, in whatever order Go runs them, and every application whose nodes
have names that differ: compilation into a new directory succeeds with these files if and only if they are the expected
output.  Each part has a directory of its own with what it would generate alone, and there is nothing else.
Missing for the full property: names that are equal after cleaning, are empty, or are `docker`, `linux` or `golang`, for which it is
false (see the refutations below). -/
theorem C135_output_partial {order : List Builder} {parts : List Part} (hr : Registered order)
    (hd : DistinctNames order parts) (fs : FS) :
    buildAll false order parts = some fs ↔ Expected order parts fs := by
  rw [buildAll_iff, runJobs_iff _ FS.empty _ (jobs_apart hr hd) (fun _ _ _ _ => rfl)]
  have nodir : ∀ d : Str, d ∈ ["docker".toList, "linux".toList, "golang".toList] → d.head? ≠ some '.' := by decide
  constructor
  · rintro ⟨⟨h1, h2⟩, h3⟩
    have hb : ∀ b ∈ order, ofKind b.kind parts ≠ [] → ∃ out, b.build (ofKind b.kind parts) FS.empty = some out ∧
        ∀ p, b.place.has p = true → fs p = b.place.file out p := by
      intro b hb hne
      exact h1 ⟨b.place, b.build (ofKind b.kind parts)⟩
        (List.mem_append.2 (Or.inl ((mem_bjobs hr.once).2 ⟨b, hb, hne, rfl⟩)))
    have hp : ∀ p ∈ own order parts, ∃ g out, p.gen = some g ∧ g FS.empty = some out ∧
        ∀ q, fs (cleanName p.name :: q) = if q = [] then none else out q := by
      intro p hp
      cases hg : p.gen with
      | none => exact absurd hg (h3 p hp)
      | some g =>
        obtain ⟨out, ho, h⟩ := h1 ⟨placeOf p.name, g⟩
          (List.mem_append.2 (Or.inr (mem_pjobs.2 ⟨p, hp, g, hg, rfl⟩)))
        refine ⟨g, out, rfl, ho, fun q => ?_⟩
        have := h (cleanName p.name :: q)
        simp only [placeOf_dir (hd.nonempty p hp), Place.has, Place.file, List.head?_cons, beq_self_eq_true,
          List.tail_cons, true_implies] at this
        exact this
    refine ⟨fun p hp' => ?_, fun b hb' hne d hpl => ?_, fun b hb' hne hpl => ?_, fun b hb' hne _ => ?_, fun path hpath => ?_⟩
    · obtain ⟨g, out, hg, ho, h⟩ := hp p hp'
      exact ⟨g, out, hg, ho, fun q hq => by rw [h q, if_neg hq]⟩
    · obtain ⟨out, ho, h⟩ := hb b hb' hne
      refine ⟨out, ho, fun q hq => ?_⟩
      rw [h (d :: q) (by simp [hpl, Place.has]), hpl]
      simp [Place.file, hq]
    · obtain ⟨out, ho, h⟩ := hb b hb' hne
      refine ⟨out, ho, fun c hc => ?_⟩
      rw [h [c] (by rw [hpl]; exact (isDots_iff _).2 ⟨c, hc, rfl⟩), hpl]
      rfl
    · obtain ⟨out, ho, -⟩ := hb b hb' hne
      exact ⟨out, ho⟩
    · by_cases hcov : ∀ j ∈ bjobs order parts ++ pjobs (own order parts), j.place.has path = false
      · exact absurd (h2 path hcov) hpath
      · obtain ⟨j, hcov⟩ := Classical.not_forall.1 hcov
        obtain ⟨hj, hhas⟩ := Classical.not_imp.1 hcov
        rw [Bool.not_eq_false] at hhas
        rcases List.mem_append.1 hj with hj | hj
        · obtain ⟨b, hbm, hne, rfl⟩ := (mem_bjobs hr.once).1 hj
          obtain ⟨out, -, hval⟩ := hb b hbm hne
          have hv := hval path hhas
          rcases builder_place hr hbm with h | h | ⟨d, -, h⟩
          · rw [h] at hhas; cases hhas
          · rw [h] at hhas
            obtain ⟨c, hc, rfl⟩ := (isDots_iff _).1 hhas
            exact Or.inr (Or.inr ⟨b, hbm, hne, h, c, hc, rfl⟩)
          · simp only [h, Place.has, beq_iff_eq] at hhas
            cases path with
            | nil => cases hhas
            | cons c q =>
              simp only [List.head?_cons, Option.some.injEq] at hhas
              subst hhas
              refine Or.inr (Or.inl ⟨b, hbm, hne, c, q, h, ?_, rfl⟩)
              rintro rfl
              rw [h] at hv
              exact hpath hv
        · obtain ⟨p, hpm, g, -, rfl⟩ := mem_pjobs.1 hj
          simp only [placeOf_dir (hd.nonempty p hpm), Place.has, beq_iff_eq] at hhas
          cases path with
          | nil => cases hhas
          | cons c q =>
            simp only [List.head?_cons, Option.some.injEq] at hhas
            subst hhas
            refine Or.inl ⟨p, hpm, q, ?_, rfl⟩
            rintro rfl
            obtain ⟨_, _, _, _, h⟩ := hp p hpm
            exact hpath (by rw [h]; rfl)
  · intro he
    -- a name of a directory is not the name of a file
    have hnone : ∀ d : Str, d.head? ≠ some '.' → fs [d] = none := by
      intro d hdot
      cases hf : fs [d] with
      | none => rfl
      | some x =>
        rcases he.nothingElse [d] (by rw [hf]; simp) with ⟨p, -, q, hq, e⟩ | ⟨b, -, -, d', q, -, hq, e⟩ |
          ⟨b, -, -, -, c, hc, e⟩
        · exact absurd (List.cons.inj e).2.symm hq
        · exact absurd (List.cons.inj e).2.symm hq
        · obtain rfl := (List.cons.inj e).1
          exact absurd hc hdot
    refine ⟨⟨fun j hj => ?_, fun path hcov => ?_⟩, fun p hp hg => ?_⟩
    · rcases List.mem_append.1 hj with hj | hj
      · obtain ⟨b, hbm, hne, rfl⟩ := (mem_bjobs hr.once).1 hj
        show ∃ out, b.build (ofKind b.kind parts) FS.empty = some out ∧
          ∀ p, b.place.has p = true → fs p = b.place.file out p
        rcases builder_place hr hbm with h | h | ⟨d, hdm, h⟩
        · obtain ⟨out, ho⟩ := he.quiet b hbm hne h
          refine ⟨out, ho, fun p hp => ?_⟩
          rw [h] at hp
          cases hp
        · obtain ⟨out, ho, hv⟩ := he.dots b hbm hne h
          refine ⟨out, ho, fun p hp => ?_⟩
          rw [h] at hp ⊢
          obtain ⟨c, hc, rfl⟩ := (isDots_iff _).1 hp
          exact hv c hc
        · obtain ⟨out, ho, hv⟩ := he.directory b hbm hne d h
          refine ⟨out, ho, fun p hp => ?_⟩
          rw [h] at hp ⊢
          cases p with
          | nil => cases hp
          | cons c q =>
            simp only [Place.has, List.head?_cons, beq_iff_eq, Option.some.injEq] at hp
            subst hp
            by_cases hq : q = []
            · subst hq
              rw [file_nil]
              exact hnone c (nodir c hdm)
            · rw [file_cons hq]
              exact hv q hq
      · obtain ⟨p, hpm, g, hg, rfl⟩ := mem_pjobs.1 hj
        obtain ⟨g', out, hg', ho, hv⟩ := he.part p hpm
        rw [hg] at hg'
        obtain rfl := Option.some.inj hg'
        refine ⟨out, ho, fun path hp => ?_⟩
        simp only [placeOf_dir (hd.nonempty p hpm)] at hp ⊢
        cases path with
        | nil => cases hp
        | cons c q =>
          simp only [Place.has, List.head?_cons, beq_iff_eq, Option.some.injEq] at hp
          subst hp
          by_cases hq : q = []
          · subst hq
            rw [file_nil]
            exact hnone _ (clean_no_dot _)
          · rw [file_cons hq]
            exact hv q hq
    · cases hf : fs path with
      | none => rfl
      | some x =>
        exfalso
        rcases he.nothingElse path (by rw [hf]; simp) with ⟨p, hp, q, hq, rfl⟩ | ⟨b, hb, hne, d, q, hpl, hq, rfl⟩ |
          ⟨b, hb, hne, hpl, c, hc, rfl⟩
        · obtain ⟨g, out, hg, -, -⟩ := he.part p hp
          have := hcov _ (List.mem_append.2 (Or.inr (mem_pjobs.2 ⟨p, hp, g, hg, rfl⟩)))
          simp [placeOf_dir (hd.nonempty p hp), Place.has] at this
        · have := hcov _ (List.mem_append.2 (Or.inl ((mem_bjobs hr.once).2 ⟨b, hb, hne, rfl⟩)))
          simp [hpl, Place.has] at this
        · have := hcov _ (List.mem_append.2 (Or.inl ((mem_bjobs hr.once).2 ⟨b, hb, hne, rfl⟩)))
          simp only [hpl, Place.has, (isDots_iff _).2 ⟨c, hc, rfl⟩] at this
          cases this
    · obtain ⟨g, _, hg', _⟩ := he.part p hp
      rw [hg] at hg'
      cases hg'

/-- **C135** (repeatable).  The order in which Go runs the registered builders does not matter: neither for whether compilation succeeds,
nor for the output. -/
theorem C135_order_partial {order order' : List Builder} {parts : List Part} (hr : Registered order)
    (hd : DistinctNames order parts) (hperm : order.Perm order') :
    buildAll false order parts = buildAll false order' parts := by
  have hmem : ∀ b, b ∈ order ↔ b ∈ order' := fun b => hperm.mem_iff
  have hr' : Registered order' :=
    ⟨(hperm.map _).nodup_iff.1 hr.once, fun b hb => hr.config b ((hmem b).2 hb), fun b hb => hr.metadata b ((hmem b).2 hb),
      fun b hb => hr.container b ((hmem b).2 hb), fun b hb => hr.process b ((hmem b).2 hb),
      fun b hb => hr.golang b ((hmem b).2 hb), fun b hb => hr.other b ((hmem b).2 hb)⟩
  have hown : own order parts = own order' parts := by
    simp only [own]
    apply List.filter_congr
    intro p _
    rw [Bool.eq_iff_iff, List.all_eq_true, List.all_eq_true]
    exact ⟨fun h b hb => h b ((hmem b).2 hb), fun h b hb => h b ((hmem b).1 hb)⟩
  have hd' : DistinctNames order' parts := ⟨hown ▸ hd.distinct, hown ▸ hd.nonempty, hown ▸ hd.free⟩
  have he : ∀ fs, Expected order parts fs ↔ Expected order' parts fs := by
    intro fs
    constructor
    · intro h
      exact ⟨hown ▸ h.part, fun b hb => h.directory b ((hmem b).2 hb), fun b hb => h.dots b ((hmem b).2 hb),
        fun b hb => h.quiet b ((hmem b).2 hb), fun p hp => by
          rcases h.nothingElse p hp with h | ⟨b, hb, h⟩ | ⟨b, hb, h⟩
          · exact Or.inl (hown ▸ h)
          · exact Or.inr (Or.inl ⟨b, (hmem b).1 hb, h⟩)
          · exact Or.inr (Or.inr ⟨b, (hmem b).1 hb, h⟩)⟩
    · intro h
      exact ⟨hown ▸ h.part, fun b hb => h.directory b ((hmem b).1 hb), fun b hb => h.dots b ((hmem b).1 hb),
        fun b hb => h.quiet b ((hmem b).1 hb), fun p hp => by
          rcases h.nothingElse p hp with h | ⟨b, hb, h⟩ | ⟨b, hb, h⟩
          · exact Or.inl (hown ▸ h)
          · exact Or.inr (Or.inl ⟨b, (hmem b).2 hb, h⟩)
          · exact Or.inr (Or.inr ⟨b, (hmem b).2 hb, h⟩)⟩
  apply Option.ext
  intro fs
  rw [C135_output_partial hr hd, C135_output_partial hr' hd', he]

/-- **C135** (no overwriting).  Compilation never changes a directory that is there already. -/
theorem C135_new_directory (order : List Builder) (parts : List Part) : buildAll true order parts = none := rfl

theorem clean_proc_ne (name : Str) : cleanName (name ++ ".proc".toList) ≠ [] := by
  have h : ∀ b s, (Strings.collapse b (s ++ ".proc".toList)).getLast? = some 'c' := by
    intro b s
    induction s generalizing b with
    | nil => cases b <;> decide
    | cons c s ih =>
      simp only [List.cons_append, Strings.collapse]
      split
      · rw [List.getLast?_cons, ih]; rfl
      · split
        · exact ih _
        · rw [List.getLast?_cons, ih]; rfl
  have h2 : ∀ s : Str, s.getLast? = some 'c' → Strings.stripDigits s ≠ [] := by
    intro s
    induction s with
    | nil => intro h; cases h
    | cons c s ih =>
      intro hl
      simp only [Strings.stripDigits]
      split
      · rename_i hc
        cases s with
        | nil =>
          obtain rfl : c = 'c' := by simpa using hl
          revert hc
          decide
        | cons d s => exact ih (by simpa [List.getLast?_cons_cons] using hl)
      · simp
  exact h2 _ (h _ _)

/-- **C135** (workload generators).  If compilation succeeds, the directory of a workload generator holds the files of its
process in the directory `P`, where `P` is the process's name, its executable `P/P/P`, and nothing else. -/
theorem C135_workload_partial {order : List Builder} {parts : List Part} (hr : Registered order)
    (hd : DistinctNames order parts) {fs : FS} (hb : buildAll false order parts = some fs) {w : Part}
    (hw : w ∈ own order parts) {proc : Gen} {goBuild : FS → Option Str}
    (hg : w.gen = some (workload w.name proc goBuild)) :
    ∃ out bin, proc FS.empty = some out ∧ goBuild (fun q => if q = [] then none else out q) = some bin ∧
      ∀ q, q ≠ [] → fs (cleanName w.name :: q) =
        let P := cleanName (w.name ++ ".proc".toList)
        if q = [P, P, P] then some bin
        else if q.head? = some P ∧ q.tail ≠ [] then out q.tail
        else none := by
  obtain ⟨g, o, h1, h2, h3⟩ := ((C135_output_partial hr hd fs).1 hb).part w hw
  rw [hg] at h1
  obtain rfl := Option.some.inj h1
  have hpl : placeOf (w.name ++ ".proc".toList) = .dir (cleanName (w.name ++ ".proc".toList)) :=
    placeOf_dir (clean_proc_ne _)
  generalize hP : cleanName (w.name ++ ".proc".toList) = P at *
  simp only [workload, hP, hpl] at h2
  rw [enter_empty (fs := FS.empty) proc (fun _ _ => rfl)] at h2
  cases hpe : proc FS.empty with
  | none => simp [hpe] at h2
  | some out =>
    simp only [hpe, Option.map_some] at h2
    have hv : (Place.dir P).view ((Place.dir P).put FS.empty out) = fun q => if q = [] then none else out q := by
      funext q
      simp only [Place.view, Place.put, Place.has, Place.file, List.head?_cons, beq_self_eq_true, if_true, List.tail_cons]
      by_cases hq : q = []
      · simp [hq]
      · simp [hq]
    rw [hv] at h2
    cases hgb : goBuild (fun q => if q = [] then none else out q) with
    | none => simp [hgb] at h2
    | some bin =>
      simp only [hgb, Option.some.injEq] at h2
      refine ⟨out, bin, rfl, hgb, fun q hq => ?_⟩
      rw [h3 q hq, ← h2]
      show (if q = [P, P, P] then some bin else (Place.dir P).put FS.empty out q) =
        if q = [P, P, P] then some bin else if q.head? = some P ∧ q.tail ≠ [] then out q.tail else none
      by_cases hq3 : q = [P, P, P]
      · rw [if_pos hq3, if_pos hq3]
      · rw [if_neg hq3, if_neg hq3]
        simp only [Place.put, Place.has, Place.file, beq_iff_eq, FS.empty]
        by_cases h : q.head? = some P
        · by_cases ht : q.tail = []
          · simp [h, ht]
          · simp [h, ht]
        · simp [h]

end Verif.Output
