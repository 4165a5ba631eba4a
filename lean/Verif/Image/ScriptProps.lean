import Verif.Image.Scripts
/-
C124: the build scripts of a workspace.
-/
namespace Verif.Image.Scripts

/-- The path of a script that is in a directory of the workspace: the directory, which may be the workspace itself, and the
file, both without `..`. -/
structure Inside (workspace : List Str) (cwd : List Str) (p : FilePath) (dir : List Str) (file : Str) : Prop where
  path : (if p.absolute then p.elems else cwd ++ p.elems) = workspace ++ dir ++ [file]
  plain : "..".toList ∉ dir ∧ file ≠ "..".toList

private theorem strip_prefix (a t : List Str) : strip a (a ++ t) = ([], t) := by
  induction a with
  | nil => cases t <;> rfl
  | cons x a ih => simp only [List.cons_append, strip, if_true]; exact ih

private theorem add_inside {ws cwd : List Str} {p : FilePath} {d : List Str} {f : Str} (h : Inside ws cwd p d f) (l : List Script) :
    add cwd ⟨true, ws⟩ l p = some (put ⟨ws ++ d ++ [f], d, f⟩ l) := by
  have ha : abs cwd p = ws ++ d ++ [f] := h.path
  unfold add
  simp only [ha, rel]
  rw [if_neg (by simp)]
  rw [List.append_assoc, strip_prefix]
  simp

/-- Scripts with different paths, each in its place. -/
private structure Good (ws : List Str) (cwd : List Str) (ps : List FilePath) (l : List Script) : Prop where
  nodup : (l.map (·.host)).Nodup
  form : ∀ s ∈ l, s.host = ws ++ s.dir ++ [s.file] ∧ up ∉ s.dir
  mem : ∀ d f, (⟨ws ++ d ++ [f], d, f⟩ : Script) ∈ l ↔ ∃ p ∈ ps, Inside ws cwd p d f

private theorem insert_perm (s : Script) (l : List Script) : (insert s l).Perm (s :: l) := by
  induction l with
  | nil => exact .refl _
  | cons x l ih =>
    rw [insert]
    split
    · exact .refl _
    · exact (ih.cons x).trans (.swap s x l)

private theorem mem_put (s : Script) (l : List Script) (t : Script) : t ∈ put s l ↔ t = s ∨ t ∈ l ∧ t.host ≠ s.host := by
  unfold put
  rw [(insert_perm _ _).mem_iff, List.mem_cons, List.mem_filter]
  simp

private theorem put_nodup (s : Script) (l : List Script) (h : (l.map (·.host)).Nodup) : ((put s l).map (·.host)).Nodup := by
  unfold put
  rw [((insert_perm _ _).map _).nodup_iff, List.map_cons, List.nodup_cons]
  refine ⟨?_, ?_⟩
  · intro hm
    obtain ⟨t, ht, he⟩ := List.mem_map.1 hm
    rw [List.mem_filter] at ht
    simp only [decide_eq_true_eq] at ht
    exact ht.2 he
  · exact (List.filter_sublist.map _).nodup h

private theorem split_eq {ws d d' : List Str} {f f' : Str} (h : ws ++ d ++ [f] = ws ++ d' ++ [f']) : d = d' ∧ f = f' := by
  rw [List.append_assoc, List.append_assoc] at h
  have := List.append_cancel_left h
  have h1 := List.append_inj' this rfl
  exact ⟨h1.1, (List.cons.inj h1.2).1⟩

private theorem good_add {ws cwd : List Str} {done : List FilePath} {l : List Script} (h : Good ws cwd done l) {p : FilePath} {d : List Str} {f : Str}
    (hp : Inside ws cwd p d f) : Good ws cwd (done ++ [p]) (put ⟨ws ++ d ++ [f], d, f⟩ l) := by
  have hu : ∀ d' f', Inside ws cwd p d' f' → d' = d ∧ f' = f := fun d' f' h' => split_eq (h'.path.symm.trans hp.path)
  refine ⟨put_nodup _ _ h.nodup, ?_, ?_⟩
  · intro s hs
    rcases (mem_put _ _ _).1 hs with rfl | ⟨hs, -⟩
    · exact ⟨rfl, hp.plain.1⟩
    · exact h.form s hs
  · intro d' f'
    rw [mem_put]
    constructor
    · rintro (he | ⟨hm, -⟩)
      · obtain ⟨-, rfl, rfl⟩ := Script.mk.inj he
        exact ⟨p, by simp, hp⟩
      · obtain ⟨q, hq, hi⟩ := (h.mem d' f').1 hm
        exact ⟨q, by simp [hq], hi⟩
    · rintro ⟨q, hq, hi⟩
      by_cases he : ws ++ d' ++ [f'] = ws ++ d ++ [f]
      · obtain ⟨rfl, rfl⟩ := split_eq he
        exact .inl rfl
      · right
        refine ⟨(h.mem d' f').2 ?_, he⟩
        rcases List.mem_append.1 hq with hq | hq
        · exact ⟨q, hq, hi⟩
        · simp only [List.mem_singleton] at hq; subst hq
          obtain ⟨rfl, rfl⟩ := hu _ _ hi
          exact absurd rfl he

private theorem addAll_good {ws cwd : List Str} (ps : List FilePath) : ∀ (done : List FilePath) (l : List Script), Good ws cwd done l →
    (∀ p ∈ ps, ∃ d f, Inside ws cwd p d f) → ∃ l', addAll cwd ⟨true, ws⟩ l ps = some l' ∧ Good ws cwd (done ++ ps) l' := by
  induction ps with
  | nil => intro done l h _; exact ⟨l, rfl, by simpa using h⟩
  | cons p ps ih =>
    intro done l h hin
    obtain ⟨d, f, hp⟩ := hin p (by simp)
    obtain ⟨l', h1, h2⟩ := ih (done ++ [p]) _ (good_add h hp) fun q hq => hin q (by simp [hq])
    refine ⟨l', by rw [addAll, add_inside hp]; exact h1, by simpa using h2⟩

private theorem resolve_plain (d : List Str) : ∀ c, up ∉ d → resolve c d = c ++ d := by
  induction d with
  | nil => intro c _; simp [resolve]
  | cons e d ih =>
    intro c h
    simp only [List.mem_cons, not_or] at h
    rw [resolve, if_neg (Ne.symm h.1), ih _ h.2]
    simp

private theorem run_good (isDir : List Str → Bool) (succeeds : List Str → Str → Bool) (start : List Str) (l : List Script) :
    (∀ s ∈ l, up ∉ s.dir ∧ isDir (start ++ s.dir) = true) → ∀ sh : Shell, sh.cwd = start →
    (l.foldl (one isDir succeeds) sh).cwd = start ∧
    (l.foldl (one isDir succeeds) sh).ran = sh.ran ++ l.map (fun s => (start ++ s.dir, s.file)) ∧
    ((l.foldl (one isDir succeeds) sh).ok = true ∨ l = []) := by
  induction l with
  | nil => intro _ sh h; simp [h]
  | cons s l ih =>
    intro hall sh hsh
    obtain ⟨h1, h2⟩ := hall s (by simp)
    have e : one isDir succeeds sh s = ⟨start, some (start ++ s.dir), sh.ran ++ [(start ++ s.dir, s.file)], true⟩ := by
      unfold one cd
      simp only
      rw [hsh, resolve_plain _ _ h1, if_pos h2]
      rfl
    rw [List.foldl_cons, e]
    obtain ⟨i1, i2, i3⟩ := ih (fun t ht => hall t (by simp [ht])) ⟨start, some (start ++ s.dir), sh.ran ++ [(start ++ s.dir, s.file)], true⟩ rfl
    refine ⟨i1, by rw [i2]; simp, ?_⟩
    rcases i3 with i3 | i3
    · exact .inl i3
    · subst i3; exact .inl rfl

/-- C124: the build scripts that processes add, all in directories of the workspace, are each run exactly once by the
workspace's `build.sh`, in the script's own directory; and `build.sh` ends in the directory in which it was started. -/
theorem C124_scripts_run_once (ws cwd : List Str) (ps : List FilePath) (hin : ∀ p ∈ ps, ∃ d f, Inside ws cwd p d f) :
    ∃ scripts, addAll cwd ⟨true, ws⟩ [] ps = some scripts ∧
      ∀ (isDir : List Str → Bool) (succeeds : List Str → Str → Bool) (start : List Str),
        (∀ p ∈ ps, ∀ d f, Inside ws cwd p d f → isDir (start ++ d) = true) →
        (buildSh isDir succeeds start scripts).ran.Nodup ∧ (buildSh isDir succeeds start scripts).cwd = start ∧
        ∀ d f, (start ++ d, f) ∈ (buildSh isDir succeeds start scripts).ran ↔ ∃ p ∈ ps, Inside ws cwd p d f := by
  obtain ⟨l, h1, h2⟩ := addAll_good (ws := ws) (cwd := cwd) ps [] [] ⟨by simp, by simp, by simp⟩ hin
  rw [List.nil_append] at h2
  refine ⟨l, h1, fun isDir succeeds start hd => ?_⟩
  have hself : ∀ s ∈ l, (⟨ws ++ s.dir ++ [s.file], s.dir, s.file⟩ : Script) = s := by
    intro s hs
    obtain ⟨e, -⟩ := h2.form s hs
    cases s; simp only at e; rw [e]
  have hall : ∀ s ∈ l, up ∉ s.dir ∧ isDir (start ++ s.dir) = true := by
    intro s hs
    refine ⟨(h2.form s hs).2, ?_⟩
    obtain ⟨p, hp, hi⟩ := (h2.mem s.dir s.file).1 (by rw [hself s hs]; exact hs)
    exact hd p hp _ _ hi
  obtain ⟨r1, r2, -⟩ := run_good isDir succeeds start l hall ⟨start, none, [], true⟩ rfl
  have er : (buildSh isDir succeeds start l).ran = l.map (fun s => (start ++ s.dir, s.file)) := by
    show (l.foldl (one isDir succeeds) ⟨start, none, [], true⟩).ran = _
    rw [r2]; simp
  refine ⟨?_, r1, ?_⟩
  · rw [er, List.nodup_iff_pairwise_ne, List.pairwise_map]
    have hn := h2.nodup
    rw [List.nodup_iff_pairwise_ne, List.pairwise_map] at hn
    refine hn.imp_of_mem ?_
    intro s t hs ht hne he
    apply hne
    rw [(h2.form s hs).1, (h2.form t ht).1]
    rw [List.append_cancel_left (Prod.mk.inj he).1, (Prod.mk.inj he).2]
  · intro d f
    rw [er, List.mem_map, ← h2.mem]
    constructor
    · rintro ⟨s, hs, he⟩
      have e1 := List.append_cancel_left (Prod.mk.inj he).1
      have e2 := (Prod.mk.inj he).2
      rw [← e1, ← e2, hself s hs]; exact hs
    · intro hs; exact ⟨_, hs, rfl⟩

/-- C124, disagreement: when a build script fails, `build.sh` goes on and reports success, so the image is built without what
that script was to make. -/
theorem C124_failure_refuted (ws cwd : List Str) (ps : List FilePath) (hin : ∀ p ∈ ps, ∃ d f, Inside ws cwd p d f)
    (scripts : List Script) (ha : addAll cwd ⟨true, ws⟩ [] ps = some scripts)
    (isDir : List Str → Bool) (start : List Str) (hd : ∀ p ∈ ps, ∀ d f, Inside ws cwd p d f → isDir (start ++ d) = true)
    (succeeds : List Str → Str → Bool) : (buildSh isDir succeeds start scripts).ok = true := by
  obtain ⟨l, h1, h2⟩ := addAll_good (ws := ws) (cwd := cwd) ps [] [] ⟨by simp, by simp, by simp⟩ hin
  rw [ha] at h1; cases h1
  rw [List.nil_append] at h2
  have hall : ∀ s ∈ scripts, up ∉ s.dir ∧ isDir (start ++ s.dir) = true := by
    intro s hs
    obtain ⟨e, hu⟩ := h2.form s hs
    refine ⟨hu, ?_⟩
    obtain ⟨p, hp, hi⟩ := (h2.mem s.dir s.file).1 (by
      have : (⟨ws ++ s.dir ++ [s.file], s.dir, s.file⟩ : Script) = s := by cases s; simp only at e; rw [e]
      rw [this]; exact hs)
    exact hd p hp _ _ hi
  obtain ⟨-, -, r3⟩ := run_good isDir succeeds start scripts hall ⟨start, none, [], true⟩ rfl
  rcases r3 with r3 | rfl
  · exact r3
  · rfl

private theorem strip_fst (b t : List Str) : ∃ k, b = k ++ (strip b t).1 := by
  induction b generalizing t with
  | nil => exact ⟨[], by cases t <;> rfl⟩
  | cons x b ih =>
    cases t with
    | nil => exact ⟨[], rfl⟩
    | cons y t =>
      rw [strip]
      split
      · obtain ⟨k, hk⟩ := ih t
        exact ⟨x :: k, by rw [List.cons_append, ← hk]⟩
      · exact ⟨[], rfl⟩

/-- C124, disagreement: a script outside the workspace is not refused, as documented, but accepted: no path at all is refused by
a workspace with an absolute path. -/
theorem C124_outside_refuted (ws cwd : List Str) (hws : "..".toList ∉ ws) (scripts : List Script) (p : FilePath) :
    ∃ scripts', add cwd ⟨true, ws⟩ scripts p = some scripts' := by
  unfold add
  simp only [rel]
  rw [if_neg (by simp), if_neg]
  · exact ⟨_, rfl⟩
  · obtain ⟨k, hk⟩ := strip_fst ws (abs cwd p)
    intro h
    apply hws
    rw [hk]
    exact List.mem_append_right _ h

/-- C124, disagreement: and a workspace with a relative path refuses every script, also those inside it. -/
theorem C124_relative_refuted (ws cwd : List Str) (scripts : List Script) (p : FilePath) : add cwd ⟨false, ws⟩ scripts p = none := by
  unfold add
  simp only [rel]
  rw [if_pos (by simp)]

/-- C124, disagreement: if the directory of one script is not there, the scripts after it are looked for in the wrong directory.  Here
`b` is missing, and `c/build.sh` is run in `a`, where that name is another script. -/
theorem C124_missing_directory_refuted : ∃ (scripts : List Script) (isDir : List Str → Bool),
    addAll [] ⟨true, ["ws".toList]⟩ [] [⟨true, ["ws".toList, "a".toList, "build.sh".toList]⟩, ⟨true, ["ws".toList, "b".toList, "build.sh".toList]⟩,
      ⟨true, ["ws".toList, "c".toList, "build.sh".toList]⟩] = some scripts ∧
    isDir ["a".toList] = true ∧ isDir ["c".toList] = true ∧
    ∀ succeeds, (buildSh isDir succeeds [] scripts).ran =
      [(["a".toList], "build.sh".toList), ([], "build.sh".toList), (["a".toList], "build.sh".toList)] := by
  refine ⟨_, fun d => d == ["a".toList] || d == ["c".toList], rfl, by decide +kernel, by decide +kernel, fun succeeds => ?_⟩
  rfl

/-! ### Concrete cases -/

/-- Two scripts, one given by a relative path and added twice. -/
example : Inside ["ws".toList] ["ws".toList, "a".toList] ⟨false, ["build.sh".toList]⟩ ["a".toList] "build.sh".toList :=
  ⟨by decide +kernel, by decide +kernel⟩
example : Inside ["ws".toList] ["ws".toList, "a".toList] ⟨true, ["ws".toList, "build".toList]⟩ [] "build".toList :=
  ⟨by decide +kernel, by decide +kernel⟩
example : addAll ["ws".toList, "a".toList] ⟨true, ["ws".toList]⟩ [] [⟨false, ["build.sh".toList]⟩, ⟨true, ["ws".toList, "build".toList]⟩,
    ⟨false, ["build.sh".toList]⟩] =
    some [⟨["ws".toList, "a".toList, "build.sh".toList], ["a".toList], "build.sh".toList⟩,
      ⟨["ws".toList, "build".toList], [], "build".toList⟩] := by decide +kernel

end Verif.Image.Scripts
