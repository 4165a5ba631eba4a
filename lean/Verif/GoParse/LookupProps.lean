import Verif.GoParse.LookupSpec
import Verif.GoParse.Props
/-
C131: proofs.
-/
namespace Verif.GoParse

/-! ### The finder -/

private theorem mem_of_lookup {β : Type} : ∀ {l : List (Name × β)} {k : Name} {v : β}, l.lookup k = some v → (k, v) ∈ l
  | (k', v') :: l, k, v, h => by
    simp only [List.lookup_cons] at h
    by_cases e : k = k'
    · subst e
      simp only [beq_self_eq_true] at h
      cases h
      exact .head _
    · rw [beq_eq_false_iff_ne.2 e] at h
      exact .tail _ (mem_of_lookup h)

/-- What the cache says of a path or package is what the go command says. -/
private def Right (home : Name → Option GoModule) (c : List (Name × Info)) : Prop :=
  ∀ k i, c.lookup k = some i → (∃ m, home k = some m ∧ i = infoOf m) ∨ home k = none ∧ ∃ q m, home q = some m ∧ m.path = k ∧ i = infoOf m

private theorem right_insert {home : Name → Option GoModule} {c : List (Name × Info)} {k : Name} {i : Info} (h : Right home c)
    (hi : (∃ m, home k = some m ∧ i = infoOf m) ∨ home k = none ∧ ∃ q m, home q = some m ∧ m.path = k ∧ i = infoOf m) :
    Right home (insert k i c) := by
  intro k' i' h'
  rw [lookup_insert] at h'
  split at h'
  · rename_i e
    cases h'
    exact e ▸ hi
  · exact h _ _ h'

private theorem right_record {home : Name → Option GoModule} (clear : Clear home) : ∀ (l : List (Name × Option GoModule)) (c : List (Name × Info)),
    Right home c → (∀ e ∈ l, e.2 = home e.1) → Right home (record c l)
  | [], _, h, _ => h
  | (id, none) :: l, c, h, hl => right_record clear l c h fun e he => hl e (.tail _ he)
  | (id, some m) :: l, c, h, hl => by
    have hm : home id = some m := (hl _ (.head _)).symm
    refine right_record clear l _ (right_insert (right_insert h (.inl ⟨m, hm, rfl⟩)) ?_) fun e he => hl e (.tail _ he)
    cases hp : home m.path with
    | none => exact .inr ⟨rfl, id, m, hm, rfl, rfl⟩
    | some n => exact .inl ⟨n, rfl, by rw [clear.package m.path id n m hp hm rfl]⟩

private theorem isSome_insert {c : List (Name × Info)} (k k' : Name) (i : Info) (h : (c.lookup k').isSome) : ((insert k i c).lookup k').isSome := by
  rw [lookup_insert]
  split
  · rfl
  · exact h

private theorem record_keeps : ∀ (l : List (Name × Option GoModule)) (c : List (Name × Info)) (k : Name), (c.lookup k).isSome →
    ((record c l).lookup k).isSome
  | [], _, _, h => h
  | (_, none) :: l, c, k, h => record_keeps l c k h
  | (_, some _) :: l, _, k, h => record_keeps l _ k (isSome_insert _ _ _ (isSome_insert _ _ _ h))

private theorem record_has : ∀ (l : List (Name × Option GoModule)) (c : List (Name × Info)) (id : Name) (m : GoModule), (id, some m) ∈ l →
    ((record c l).lookup id).isSome ∧ ((record c l).lookup m.path).isSome
  | (id', none) :: l, c, id, m, h => by
    rcases List.mem_cons.1 h with h | h
    · cases h
    · exact record_has l c id m h
  | (id', some m') :: l, c, id, m, h => by
    rcases List.mem_cons.1 h with h | h
    · cases h
      refine ⟨record_keeps l _ _ (isSome_insert _ _ _ ?_), record_keeps l _ _ ?_⟩ <;> rw [lookup_insert, if_pos rfl] <;> rfl
    · exact record_has l _ id m h

private theorem right_find {g : GoTool} {home : Name → Option GoModule} (tells : g.Tells home) (clear : Clear home) {f : Finder} (h : Right home f.cache)
    (p : Name) : Right home (findModules g f p).1.cache ∧ (findModules g f p).1.calls = f.calls + 1 := by
  unfold findModules
  cases hl : g.load f.calls p with
  | none => exact ⟨h, rfl⟩
  | some l => exact ⟨right_record clear l _ h (tells.sound _ _ _ hl), rfl⟩

private theorem right_known {home : Name → Option GoModule} {c : List (Name × Info)} (h : Right home c) {p : Name} {m : GoModule}
    (hp : home p = some m) {i : Info} (hi : c.lookup p = some i) : i = infoOf m := by
  rcases h p i hi with ⟨n, hn, rfl⟩ | ⟨hn, -⟩
  · rw [hp] at hn
    cases hn
    rfl
  · rw [hp] at hn
    cases hn

private theorem right_path {home : Name → Option GoModule} (clear : Clear home) {c : List (Name × Info)} (h : Right home c) {q : Name} {m : GoModule}
    (hq : home q = some m) {i : Info} (hi : c.lookup m.path = some i) : i = infoOf m := by
  rcases h _ i hi with ⟨n, hn, rfl⟩ | ⟨-, q', n, hn, e, rfl⟩
  · rw [clear.package _ _ _ _ hn hq rfl]
  · rw [clear.path _ _ _ _ hn hq e]

private theorem right_package {g : GoTool} {home : Name → Option GoModule} (tells : g.Tells home) (clear : Clear home) {f : Finder}
    (h : Right home f.cache) (p : Name) :
    Right home (findPackageModule g f p).1.cache ∧ f.calls ≤ (findPackageModule g f p).1.calls ∧
    (∀ m, home p = some m → (findPackageModule g f p).2 = some (infoOf m) ∨
      (findPackageModule g f p).2 = none ∧ g.FailsFrom f.calls) ∧
    (home p = none → ∀ i, (findPackageModule g f p).2 = some i → ∃ q m, home q = some m ∧ m.path = p ∧ i = infoOf m) ∧
    (∀ i, (findPackageModule g f p).2 = some i → ((findPackageModule g f p).1.cache.lookup p).isSome) := by
  unfold findPackageModule
  cases hc : f.cache.lookup p with
  | some i =>
    refine ⟨h, Nat.le_refl _, fun m hm => .inl (congrArg some (right_known h hm hc)), fun hn i' hi' => ?_, fun _ _ => by simp [hc]⟩
    simp only [Option.some.injEq] at hi'
    subst hi'
    rcases h p i hc with ⟨m, hm, -⟩ | ⟨-, h⟩
    · rw [hn] at hm
      cases hm
    · exact h
  | none =>
    obtain ⟨r1, c1⟩ := right_find tells clear h p
    simp only []
    unfold findModules at r1 c1 ⊢
    cases hl : g.load f.calls p with
    | none =>
      rw [hl] at r1 c1
      exact ⟨r1, by simp, fun m hm => .inr ⟨rfl, f.calls, p, Nat.le_refl _, hl⟩, fun _ i hi => (by cases hi), fun i hi => (by cases hi)⟩
    | some l =>
      rw [hl] at r1 c1
      simp only at r1 c1 ⊢
      cases hc2 : (record f.cache l).lookup p with
      | none =>
        simp only []
        refine ⟨r1, by simp, fun m hm => ?_, fun _ i hi => (by cases hi), fun i hi => (by cases hi)⟩
        have := tells.package _ _ _ hl (by simp [hm])
        rw [hm] at this
        have := (record_has l f.cache p m this).1
        rw [hc2] at this
        cases this
      | some i =>
        simp only []
        obtain ⟨r2, c2⟩ := right_find tells clear (f := ⟨record f.cache l, f.calls + 1⟩) r1 (i.path ++ dots)
        unfold findModules at r2 c2
        simp only at r2 c2 ⊢
        cases hl2 : g.load (f.calls + 1) (i.path ++ dots) with
        | none =>
          exact ⟨r1, by simp; omega, fun m hm => .inr ⟨rfl, _, _, by simp, hl2⟩, fun _ i hi => (by cases hi), fun i hi => (by cases hi)⟩
        | some l2 =>
          rw [hl2] at r2 c2
          refine ⟨r2, by simp; omega, fun m hm => .inl (congrArg some (right_known r1 hm hc2)), fun hn i' hi' => ?_, fun _ _ => ?_⟩
          · simp only [Option.some.injEq] at hi'
            subst hi'
            rcases r1 p i hc2 with ⟨m, hm, -⟩ | ⟨-, h⟩
            · rw [hn] at hm
              cases hm
            · exact h
          · exact record_keeps _ _ _ (by simp [hc2])

private theorem right_info {g : GoTool} {home : Name → Option GoModule} (tells : g.Tells home) (clear : Clear home) {f : Finder}
    (h : Right home f.cache) (p : Name) :
    Right home (getModuleInfo g f p).1.cache ∧
    (∀ q m, home q = some m → m.path = p → (getModuleInfo g f p).2 = some (infoOf m) ∨
      (getModuleInfo g f p).2 = none ∧ g.FailsFrom f.calls) ∧
    (∀ i, (getModuleInfo g f p).2 = some i → ∃ q m, home q = some m ∧ (q = p ∨ m.path = p) ∧ i = infoOf m) := by
  have sound : ∀ c : List (Name × Info), Right home c → ∀ i, c.lookup p = some i → ∃ q m, home q = some m ∧ (q = p ∨ m.path = p) ∧ i = infoOf m := by
    intro c h i hi
    rcases h p i hi with ⟨m, hm, e⟩ | ⟨-, q, m, hm, hp, e⟩
    · exact ⟨p, m, hm, .inl rfl, e⟩
    · exact ⟨q, m, hm, .inr hp, e⟩
  unfold getModuleInfo
  cases hc : f.cache.lookup p with
  | some i =>
    refine ⟨h, fun q m hm hp => .inl (congrArg some ?_), fun i' hi' => ?_⟩
    · subst hp
      exact right_path clear h hm hc
    · simp only [Option.some.injEq] at hi'
      exact sound _ h _ (hi' ▸ hc)
  | none =>
    obtain ⟨r1, c1⟩ := right_find tells clear h (p ++ dots)
    simp only []
    unfold findModules at r1 c1 ⊢
    cases hl : g.load f.calls (p ++ dots) with
    | none => exact ⟨h, fun _ _ _ _ => .inr ⟨rfl, f.calls, _, Nat.le_refl _, hl⟩, fun i hi => (by cases hi)⟩
    | some l =>
      rw [hl] at r1
      refine ⟨r1, fun q m hm hp => .inl ?_, fun i hi => sound _ r1 i hi⟩
      subst hp
      have := tells.below _ _ q m hm hl
      rw [hm] at this
      have := (record_has l f.cache q m this).2
      simp only
      cases hc2 : (record f.cache l).lookup m.path with
      | none =>
        rw [hc2] at this
        cases this
      | some i => rw [right_path clear r1 hm hc2]

/-! ### The modules -/

private structure Holds (k : Disk) (w : World) (set : MSet) : Prop where
  cache : ∀ d m, w.cache.lookup d = some m → k.parse d = some m
  dirs : ∀ d m, set.dirs.lookup d = some m → k.parse d = some m ∧ set.modules.lookup m.name = some m
  modules : ∀ n m, set.modules.lookup n = some m → m.name = n ∧ k.parse m.dir = some m ∧ set.dirs.lookup m.dir = some m

private theorem holds_save {k : Disk} (sane : k.Sane) (dist : k.Distinct) {w : World} {set : MSet} (h : Holds k w set) {d : Name} {m : Mod}
    (hp : k.parse d = some m) : Holds k w (set.save [m]) ∧ (set.save [m]).dirs.lookup d = some m ∧ (set.save [m]).modules.lookup m.name = some m := by
  have hd : m.dir = d := sane.dir d m hp
  refine ⟨⟨h.cache, ?_, ?_⟩, ?_, ?_⟩
  · intro d' m' h'
    simp only [MSet.save, lookup_insert] at h' ⊢
    split at h'
    · rename_i e
      cases h'
      exact ⟨by rw [e, hd]; exact hp, if_pos rfl⟩
    · rename_i e
      obtain ⟨h1, h2⟩ := h.dirs d' m' h'
      refine ⟨h1, ?_⟩
      split
      · rename_i en
        exact absurd (dist _ _ _ _ h1 hp en) (fun e' => e (e'.trans hd.symm))
      · exact h2
  · intro n m' h'
    simp only [MSet.save, lookup_insert] at h' ⊢
    split at h'
    · rename_i e
      cases h'
      exact ⟨e.symm, by rw [hd]; exact hp, if_pos rfl⟩
    · rename_i e
      obtain ⟨h1, h2, h3⟩ := h.modules n m' h'
      refine ⟨h1, h2, ?_⟩
      split
      · rename_i en
        rw [en, hd, hp] at h2
        cases h2
        exact absurd h1.symm e
      · exact h3
  · simp [MSet.save, lookup_insert, hd]
  · simp [MSet.save, lookup_insert]

private theorem holds_add {k : Disk} (sane : k.Sane) (dist : k.Distinct) {w : World} {set : MSet} (h : Holds k w set) {d : Name}
    (hd : k.clean d = d) : ∃ w' set' r, add k [] w set d = (w', set', r) ∧ Holds k w' set' ∧
      (∀ m, k.parse d = some m → r = .ok m ∧ set'.modules.lookup m.name = some m) ∧ (k.parse d = none → r = .error) ∧
      ∀ m, r = .ok m → k.parse d = some m := by
  unfold add addModule addModules addLoop
  rw [hd]
  cases h1 : set.dirs.lookup d with
  | some m =>
    obtain ⟨hp, hm⟩ := h.dirs d m h1
    simp only [addLoop, MSet.save, h1]
    refine ⟨w, set, .ok m, rfl, h, fun m' hm' => ?_, fun e => (by rw [hp] at e; cases e), fun m' e => (by cases e; exact hp)⟩
    rw [hp] at hm'
    cases hm'
    exact ⟨rfl, hm⟩
  | none =>
    cases h2 : w.cache.lookup d with
    | some m =>
      have hp := h.cache d m h2
      obtain ⟨k1, k2, k3⟩ := holds_save sane dist h hp
      simp only [addLoop, List.nil_append, k2]
      refine ⟨w, set.save [m], .ok m, rfl, k1, fun m' hm' => ?_, fun e => (by rw [hp] at e; cases e), fun m' e => (by cases e; exact hp)⟩
      rw [hp] at hm'
      cases hm'
      exact ⟨rfl, k3⟩
    | none =>
      cases hp : k.parse d with
      | none =>
        simp only [inParents]
        exact ⟨w, set, .error, rfl, h, fun m e => (by cases e), fun _ => rfl, fun m e => (by cases e)⟩
      | some m =>
        have h3 : set.modules.lookup m.name = none := by
          cases h3 : set.modules.lookup m.name with
          | none => rfl
          | some m' =>
            obtain ⟨e1, e2, e3⟩ := h.modules _ _ h3
            have := dist _ _ _ _ e2 hp e1
            rw [this, h1] at e3
            cases e3
        have h' : Holds k ⟨insert d m w.cache, w.parsed ++ [d]⟩ set := by
          refine ⟨?_, h.dirs, h.modules⟩
          intro d' m' hm'
          simp only [lookup_insert] at hm'
          split at hm'
          · rename_i e
            cases hm'
            rw [e]
            exact hp
          · exact h.cache _ _ hm'
        obtain ⟨k1, k2, k3⟩ := holds_save sane dist h' hp
        simp only [inParents, h3, addLoop, List.nil_append, k2]
        refine ⟨_, _, .ok m, rfl, k1, fun m' hm' => ?_, fun e => (by cases e), fun m' e => (by cases e; rfl)⟩
        cases hm'
        exact ⟨rfl, k3⟩

/-- The state after any history. -/
private structure Sound (src : Source) (home : Name → Option GoModule) (s : Spec) : Prop where
  finder : Right home s.finder.cache
  modules : Holds src.disk s.world s.set

private theorem get_state {src : Source} {home : Name → Option GoModule} (sane : src.disk.Sane) (dist : src.disk.Distinct) {s : Spec}
    (h : Sound src home s) {d : Name} (hd : src.disk.clean d = d) (p n : Name) : Sound src home (get src s p n d).1 := by
  obtain ⟨w', set', r, e, h', -⟩ := holds_add sane dist h.modules hd
  unfold get
  rw [e]
  cases r <;> exact ⟨h.finder, h'⟩

private theorem found_info {g : GoTool} {home : Name → Option GoModule} (tells : g.Tells home) (clear : Clear home) {f : Finder}
    (h : Right home f.cache) {p : Name} {i : Info} (hi : (findPackageModule g f p).2 = some i) : ∃ q m, home q = some m ∧ i = infoOf m := by
  obtain ⟨-, -, h1, h2, -⟩ := right_package tells clear h p
  cases hp : home p with
  | none =>
    obtain ⟨q, m, hm, -, e⟩ := h2 hp i hi
    exact ⟨q, m, hm, e⟩
  | some m =>
    rcases h1 m hp with e | ⟨e, -⟩
    · rw [hi] at e
      cases e
      exact ⟨p, m, hp, rfl⟩
    · rw [hi] at e
      cases e

private theorem sound_run {src : Source} {home : Name → Option GoModule} (tells : src.tool.Tells home) (clear : Clear home)
    (sane : src.disk.Sane) (dist : src.disk.Distinct) (dirs : ∀ q m, home q = some m → src.disk.clean m.dir = m.dir) :
    ∀ (qs : List Query) (s : Spec), Sound src home s → Sound src home (Spec.run src s qs)
  | [], _, h => h
  | .info n :: qs, s, h => sound_run tells clear sane dist dirs qs _ ⟨(right_info tells clear h.finder n).1, h.modules⟩
  | .service p n :: qs, s, h => by
    refine sound_run tells clear sane dist dirs qs _ ?_
    show Sound src home (getServiceByName src s p n).1
    unfold getServiceByName
    have hr := (right_package tells clear h.finder p).1
    cases e : findPackageModule src.tool s.finder p with
    | mk f r =>
      rw [e] at hr
      cases r with
      | none => exact ⟨hr, h.modules⟩
      | some i =>
        obtain ⟨q, m, hm, rfl⟩ := found_info tells clear h.finder (p := p) (i := i) (by rw [e])
        exact get_state sane dist (s := { s with finder := f }) ⟨hr, h.modules⟩ (dirs q m hm) p n

private theorem sound_init (src : Source) (home : Name → Option GoModule) : Sound src home {} :=
  ⟨fun _ _ h => (by cases h), ⟨fun _ _ h => (by cases h), fun _ _ h => (by cases h), fun _ _ h => (by cases h)⟩⟩

private theorem finder_service (src : Source) (s : Spec) (p n : Name) :
    (getServiceByName src s p n).1.finder = (findPackageModule src.tool s.finder p).1 := by
  unfold getServiceByName
  cases findPackageModule src.tool s.finder p with
  | mk f r =>
    cases r with
    | none => rfl
    | some i =>
      simp only
      unfold get
      split <;> rfl

/-! ### The theorems -/

section
variable {src : Source} {home : Name → Option GoModule}

/-- C131: whatever was looked up before, the module of a package is the one that the go command tells, unless the go command fails now; and
the description of a module by its path is that module's.  For a name that is no package, the answer can only be the module with that path.
(Paths have to be clear: `C131_ambiguous_refuted`.) -/
theorem C131_module_partial (tells : src.tool.Tells home) (clear : Clear home) (sane : src.disk.Sane) (dist : src.disk.Distinct)
    (dirs : ∀ q m, home q = some m → src.disk.clean m.dir = m.dir) (qs : List Query) (p : Name) :
    let f := (Spec.run src {} qs).finder
    (∀ m, home p = some m → (findPackageModule src.tool f p).2 = some (infoOf m) ∨
      (findPackageModule src.tool f p).2 = none ∧ src.tool.FailsFrom f.calls) ∧
    (home p = none → ∀ i, (findPackageModule src.tool f p).2 = some i → ∃ q m, home q = some m ∧ m.path = p ∧ i = infoOf m) ∧
    (∀ q m, home q = some m → m.path = p → (getModuleInfo src.tool f p).2 = some (infoOf m) ∨
      (getModuleInfo src.tool f p).2 = none ∧ src.tool.FailsFrom f.calls) ∧
    (∀ i, (getModuleInfo src.tool f p).2 = some i → ∃ q m, home q = some m ∧ (q = p ∨ m.path = p) ∧ i = infoOf m) := by
  intro f
  have h := (sound_run tells clear sane dist dirs qs _ (sound_init src home)).finder
  obtain ⟨-, -, a, b, -⟩ := right_package tells clear h p
  obtain ⟨-, c, d⟩ := right_info tells clear h p
  exact ⟨a, b, c, d⟩

/-- C131: a module that the go command has downloaded is not taken for a local one, and a module whose go.mod is in its directory is. -/
theorem C131_local (m : GoModule) : (∀ root, Downloaded root m → (infoOf m).isLocal = false) ∧
    (m.goMod = m.dir ++ "/go.mod".toList → (infoOf m).isLocal = true) := by
  refine ⟨?_, ?_⟩
  · rintro root ⟨h1, h2, h3, h4, h5⟩
    simp only [infoOf, isLocal, h1, h2, Bool.false_or]
    cases hb : m.dir.isPrefixOf m.goMod with
    | false => rfl
    | true =>
      exfalso
      obtain ⟨r, hr⟩ := List.isPrefixOf_iff_prefix.1 hb
      rw [h4, h5, List.append_assoc, List.append_cancel_left_eq] at hr
      simp only [List.cons_append, List.cons.injEq, true_and, List.append_assoc] at hr
      have key : ∀ (a b x y : Name), '@' ∉ a → '@' ∉ b → a ++ '@' :: x = b ++ '@' :: y → a = b := by
        intro a
        induction a with
        | nil =>
          intro b x y _ hb e
          cases b with
          | nil => rfl
          | cons c b =>
            simp only [List.nil_append, List.cons_append, List.cons.injEq] at e
            exact absurd (e.1 ▸ List.mem_cons_self) hb
        | cons c a ih =>
          intro b x y ha hb e
          cases b with
          | nil =>
            simp only [List.nil_append, List.cons_append, List.cons.injEq] at e
            exact absurd (e.1 ▸ List.mem_cons_self) ha
          | cons c' b =>
            simp only [List.cons_append, List.cons.injEq] at e
            rw [e.1, ih b x y (fun h => ha (.tail _ h)) (fun h => hb (.tail _ h)) e.2]
      have k1 : "/@v/".toList = ['/', '@', 'v', '/'] := by decide +kernel
      have k2 : "cache/download/".toList = ['c', 'a', 'c', 'h', 'e', '/', 'd', 'o', 'w', 'n', 'l', 'o', 'a', 'd', '/'] := by decide +kernel
      rw [k1, k2] at hr
      have := key m.path (['c', 'a', 'c', 'h', 'e', '/', 'd', 'o', 'w', 'n', 'l', 'o', 'a', 'd', '/'] ++ m.path ++ ['/']) _
        ('v' :: '/' :: (m.version ++ ".mod".toList)) h3 (by simp [h3]) (by rw [hr]; simp)
      have := congrArg List.length this
      simp at this
      omega
  · intro h
    simp only [infoOf, isLocal, h, Bool.or_eq_true]
    exact .inr (List.isPrefixOf_iff_prefix.2 ⟨_, rfl⟩)

/-- C131: a service whose interface, implementation and constructor are in one package is found by the package and its name, whatever was
looked up before and in whatever order the packages are searched, unless the go command fails now.  (If the implementation is in another
module: `C131_search_path_refuted`.) -/
theorem C131_service_partial (tells : src.tool.Tells home) (clear : Clear home) (sane : src.disk.Sane) (dist : src.disk.Distinct)
    (dirs : ∀ q m, home q = some m → src.disk.clean m.dir = m.dir) (complete : src.Complete) (qs : List Query) {pkg name : Name} {g : GoModule}
    {m : Mod} {p : Parsed} {i : Iface} (hg : home pkg = some g) (hm : src.disk.parse g.dir = some m) (hp : src.package m pkg = some p)
    (hi : ServiceIn p name i) :
    let s := Spec.run src {} qs
    (∃ r, (getServiceByName src s pkg name).2 = .ok (some r) ∧ r.iface = i ∧ Builds r.constructor (.user i.pkg i.name) ∧ HasMethods r.struct i) ∨
    (getServiceByName src s pkg name).2 = .error ∧ src.tool.FailsFrom s.finder.calls := by
  intro s
  have h := sound_run tells clear sane dist dirs qs _ (sound_init src home)
  obtain ⟨-, -, h1, -, -⟩ := right_package tells clear h.finder pkg
  unfold getServiceByName
  rcases h1 g hg with e | ⟨e, hf⟩
  · refine .inl ?_
    obtain ⟨w', set', r, ea, h', hok, -, -⟩ := holds_add sane dist h.modules (dirs pkg g hg)
    obtain ⟨rfl, hset⟩ := hok m hm
    obtain ⟨il, hu, hrem, ⟨c, hc, hb⟩, st, hst, hh⟩ := hi
    have hv : p ∈ src.visit set' := (complete set' p).2 ⟨_, mem_of_lookup hset, pkg, hp⟩
    obtain ⟨k1, -, k3⟩ := C85_interface_partial i ((src.visit set').flatMap fun q => q.funcs.map (·.2))
      ((src.visit set').flatMap fun q => q.structs.map (·.2)) hu
    obtain ⟨r, hr⟩ := k1.2 ⟨hrem, ⟨c.2, List.mem_flatMap.2 ⟨p, hv, List.mem_map.2 ⟨c, hc, rfl⟩⟩, hb⟩,
      st.2, List.mem_flatMap.2 ⟨p, hv, List.mem_map.2 ⟨st, hst, rfl⟩⟩, hh⟩
    obtain ⟨q1, ⟨-, q2⟩, -, q3⟩ := k3 r hr
    refine ⟨r, ?_, q1, q2, q3⟩
    have es : (findPackageModule src.tool s.finder pkg) = ((findPackageModule src.tool s.finder pkg).1, some (infoOf g)) := by rw [← e]
    rw [es]
    show (get src _ pkg name g.dir).2 = _
    unfold get
    simp only [s, ea, hp, il, hr]
  · refine .inr ⟨?_, hf⟩
    have es : (findPackageModule src.tool s.finder pkg) = ((findPackageModule src.tool s.finder pkg).1, none) := by rw [← e]
    rw [es]

/-- C131: what is returned as a service has the interface or the struct with this name in this package. -/
theorem C131_named (s : Spec) (pkg name : Name) (r : Service) (h : (getServiceByName src s pkg name).2 = .ok (some r)) :
    ∃ m p, src.package m pkg = some p ∧ (p.ifaces.lookup name = some r.iface ∨ p.structs.lookup name = some r.struct) := by
  unfold getServiceByName at h
  split at h
  · cases h
  · unfold get at h
    split at h
    · cases h
    · cases h
    · rename_i m _
      simp only at h
      split at h
      · cases h
      · rename_i p hp
        refine ⟨m, p, hp, ?_⟩
        split at h
        · rename_i i hi
          split at h
          · rename_i r' hr
            cases h
            unfold serviceFromIface at hr
            split at hr
            · split at hr
              · cases hr
              · split at hr
                · cases hr
                · cases hr
                · cases hr
                  exact .inl hi
            · cases hr
          · cases h
          · cases h
        · split at h
          · rename_i t ht
            split at h
            · rename_i r' hr
              cases h
              unfold serviceFromStruct at hr
              split at hr
              · cases hr
              · split at hr
                · cases hr
                · split at hr
                  · cases hr
                  · cases hr
                    exact .inr ht
            · cases h
            · cases h
          · cases h

/-- C131, refuted: a package that does not exist need not be reported.  The path of a module whose root is no package is refused when it is
the first that is looked up, but once a service of the module has been looked up, it gives a nil service without an error. -/
theorem C131_nil_refuted (tells : src.tool.Tells home) (clear : Clear home) (sane : src.disk.Sane) (dist : src.disk.Distinct)
    (dirs : ∀ q m, home q = some m → src.disk.clean m.dir = m.dir) (works : ∀ n p, src.tool.load n p ≠ none) {q : Name} {g : GoModule}
    {m : Mod} (hg : home q = some g) (alone : ∀ t l, src.tool.load t g.path = some l → ∀ e ∈ l, e.2 = none)
    (hm : src.disk.parse g.dir = some m) (hp : src.package m g.path = none) (n name : Name) :
    (getServiceByName src {} g.path name).2 = .error ∧
    (getServiceByName src (Spec.run src {} [.service q n]) g.path name).2 = .ok none := by
  refine ⟨?_, ?_⟩
  · have : (findPackageModule src.tool {} g.path).2 = none := by
      unfold findPackageModule
      simp only [List.lookup_nil]
      unfold findModules
      cases hl : src.tool.load 0 g.path with
      | none => rfl
      | some l =>
        have hrec : ∀ (l : List (Name × Option GoModule)), (∀ e ∈ l, e.2 = none) → record [] l = [] := by
          intro l
          induction l with
          | nil => intro _; rfl
          | cons e l ih =>
            intro h
            obtain ⟨id, o⟩ := e
            cases (h _ (.head _) : o = none)
            exact ih fun e he => h e (.tail _ he)
        simp only [hrec l (alone _ _ hl), List.lookup_nil]
    unfold getServiceByName
    have es : (findPackageModule src.tool {} g.path) = ((findPackageModule src.tool {} g.path).1, none) := by rw [← this]
    rw [show ({} : Spec).finder = {} from rfl, es]
  · have s0 := sound_init src home
    have s1 := sound_run tells clear sane dist dirs [.service q n] _ s0
    obtain ⟨-, -, h1, -, h3⟩ := right_package tells clear s0.finder q
    have e1 : (findPackageModule src.tool {} q).2 = some (infoOf g) := by
      rcases h1 g hg with e | ⟨-, t, p, -, hf⟩
      · exact e
      · exact absurd hf (works t p)
    have known : ((Spec.run src {} [.service q n]).finder.cache.lookup g.path).isSome := by
      have e2 : (Spec.run src {} [.service q n]).finder = (findPackageModule src.tool {} q).1 := by
        show (getServiceByName src {} q n).1.finder = _
        exact finder_service src {} q n
      rw [e2]
      unfold findPackageModule
      simp only [List.lookup_nil]
      unfold findModules
      cases hl : src.tool.load 0 q with
      | none => exact absurd hl (works _ _)
      | some l =>
        have hmem := tells.package _ _ _ hl (by simp [hg])
        rw [hg] at hmem
        obtain ⟨k1, k2⟩ := record_has l [] q g hmem
        simp only
        cases hc : (record [] l).lookup q with
        | none => exact k2
        | some i =>
          simp only
          cases hl2 : src.tool.load 1 (i.path ++ dots) with
          | none => exact absurd hl2 (works _ _)
          | some l2 => exact record_keeps l2 _ _ k2
    cases hk : (Spec.run src {} [.service q n]).finder.cache.lookup g.path with
    | none =>
      rw [hk] at known
      cases known
    | some i =>
      have hi : i = infoOf g := right_path clear s1.finder hg hk
      subst hi
      unfold getServiceByName findPackageModule
      rw [hk]
      simp only
      obtain ⟨w', set', r, ea, -, hok, -, -⟩ := holds_add sane dist s1.modules (dirs q g hg)
      obtain ⟨rfl, -⟩ := hok m hm
      unfold get
      show (match add src.disk [] (Spec.run src {} [.service q n]).world (Spec.run src {} [.service q n]).set g.dir with
        | (w, set, .error) => _ | (w, set, .panic) => _ | (w, set, .ok m) => _ : Spec × Res (Option Service)).2 = _
      rw [ea]
      simp only [hp]

end

/-! ### Concrete cases -/

private def mA : GoModule := ⟨['a'], [], ['/', 'a'], "/a/go.mod".toList, true, false⟩
private def mB : GoModule := ⟨['b'], [], ['/', 'b'], "/b/go.mod".toList, false, true⟩
private def exHome (p : Name) : Option GoModule :=
  if p = ['a', '/', 'p'] then some mA else if p = ['b', '/', 'q'] then some mB else none
private def exTool : GoTool := ⟨fun _ p =>
  if p = ['a', '.', '.', '.'] then some [(['a', '/', 'p'], some mA)] else if p = ['b', '.', '.', '.'] then some [(['b', '/', 'q'], some mB)]
  else some [(p, exHome p)]⟩
private def exDisk : Disk := ⟨id, fun d => if d = ['/', 'a'] then some ⟨['a'], ['/', 'a'], [['a', '/', 'p']]⟩
  else if d = ['/', 'b'] then some ⟨['b'], ['/', 'b'], [['b', '/', 'q']]⟩ else none⟩

private def call : Func := ⟨['M'], [⟨['c'], context⟩], [⟨[], GoParse.error⟩]⟩
private def face : Iface := ⟨['a', '/', 'p'], ['I'], [(['M'], call)]⟩
private def body : Struct := ⟨['b', '/', 'q'], ['S'], [], [(['M'], call)]⟩
private def make : Func := ⟨['N'], [⟨['c'], context⟩], [⟨[], .user ['a', '/', 'p'] ['I']⟩, ⟨[], GoParse.error⟩]⟩
/-- The interface is in module `a`, the implementation in module `b`. -/
private def pA : Parsed := ⟨['a', '/', 'p'], [(['I'], face)], [], []⟩
private def pB : Parsed := ⟨['b', '/', 'q'], [], [(['S'], body)], [(['N'], make)]⟩
private def exPackage (p q : Parsed) (m : Mod) (n : Name) : Option Parsed :=
  if m.name = ['a'] ∧ n = ['a', '/', 'p'] then some p else if m.name = ['b'] ∧ n = ['b', '/', 'q'] then some q else none
private def exSource (p q : Parsed) : Source := ⟨exTool, exDisk, exPackage p q, fun set =>
  set.modules.flatMap fun e => (exPackage p q e.2 ['a', '/', 'p']).toList ++ (exPackage p q e.2 ['b', '/', 'q']).toList⟩

/-- C131, refuted: whether a service is found depends on what was looked up before.  If an interface is in one module and its implementation
in another, the search for the interface fails, and succeeds after any package of the other module has been looked up. -/
theorem C131_search_path_refuted : ∃ (src : Source) (s : Spec) (pkg name other : Name) (r : Service), src.Complete ∧
    (getServiceByName src s pkg name).2 = .error ∧ (getServiceByName src (Spec.run src s [.service other []]) pkg name).2 = .ok (some r) := by
  refine ⟨exSource pA pB, {}, ['a', '/', 'p'], ['I'], ['b', '/', 'q'], ⟨face, make, body⟩, ?_, ?_, ?_⟩
  · intro set p
    simp only [exSource, List.mem_flatMap, List.mem_append, Option.mem_toList]
    constructor
    · rintro ⟨e, he, h | h⟩
      · exact ⟨e, he, _, h⟩
      · exact ⟨e, he, _, h⟩
    · rintro ⟨e, he, n, h⟩
      refine ⟨e, he, ?_⟩
      unfold exPackage at h ⊢
      split at h
      · rename_i hc
        exact .inl (by rw [if_pos ⟨hc.1, rfl⟩]; exact h)
      · split at h
        · rename_i hc
          refine .inr ?_
          have ha : e.2.name ≠ ['a'] := by rw [hc.1]; decide
          rw [if_neg (fun h => ha h.1), if_pos ⟨hc.1, rfl⟩]
          exact h
        · cases h
  · decide +kernel
  · decide +kernel

/-- C131, refuted: the module of a package is not always the one that the go command tells.  If the path of a module without a root package
is also the name of a package in another module, the answer is the one or the other, depending on which was seen last. -/
theorem C131_ambiguous_refuted : ∃ (g : GoTool) (home : Name → Option GoModule), g.Tells home ∧ home ['a', '/', 'b'] = some mA ∧
    (findPackageModule g {} ['a', '/', 'b']).2 = some (infoOf mA) ∧
    (findPackageModule g (findPackageModule g {} ['a', '/', 'b', '/', 'c']).1 ['a', '/', 'b']).2 ≠ some (infoOf mA) := by
  let mC : GoModule := ⟨['a', '/', 'b'], [], ['/', 'c'], "/c/go.mod".toList, false, false⟩
  let home : Name → Option GoModule := fun p =>
    if p = ['a', '/', 'b'] then some mA else if p = ['a', '/', 'b', '/', 'c'] then some mC else none
  let all : List (Name × Option GoModule) := [(['a', '/', 'b'], some mA), (['a', '/', 'b', '/', 'c'], some mC)]
  refine ⟨⟨fun _ p => if p ∈ [['a', '.', '.', '.'], ['a', '/', 'b', '.', '.', '.']] then some all else some [(p, home p)]⟩, home,
    ⟨?_, ?_, ?_⟩, by decide +kernel, by decide +kernel, by decide +kernel⟩
  · intro _ p l h e he
    simp only at h
    split at h
    · cases h
      simp only [all, List.mem_cons, List.not_mem_nil, or_false] at he
      rcases he with rfl | rfl <;> decide +kernel
    · cases h
      cases List.mem_singleton.1 he
      rfl
  · intro _ p l h hp
    simp only at h
    split at h
    · rename_i hm
      simp only [List.mem_cons, List.not_mem_nil, or_false] at hm
      rcases hm with rfl | rfl <;> exact absurd (by decide +kernel) hp
    · cases h
      exact .head _
  · intro _ l q m hq h
    simp only [home] at hq
    split at hq
    · rename_i e
      cases hq
      cases (show some all = some l from h)
      subst e
      exact .head _
    · split at hq
      · rename_i e
        cases hq
        cases (show some all = some l from h)
        subst e
        exact .tail _ (.head _)
      · cases hq

/-- A case for `C131_module_partial`, `C131_service_partial` and `C131_nil_refuted`: two modules, whose roots are not packages. -/
private theorem ex_tells : exTool.Tells exHome := by
  refine ⟨?_, ?_, ?_⟩
  · intro _ p l h e he
    simp only [exTool] at h
    split at h
    · cases h
      cases List.mem_singleton.1 he
      rfl
    · split at h
      · cases h
        cases List.mem_singleton.1 he
        rfl
      · cases h
        cases List.mem_singleton.1 he
        rfl
  · intro _ p l h hp
    simp only [exTool] at h
    split at h
    · rename_i e
      subst e
      exact absurd (by decide +kernel) hp
    · split at h
      · rename_i e
        subst e
        exact absurd (by decide +kernel) hp
      · cases h
        exact .head _
  · intro _ l q m hq h
    unfold exHome at hq
    split at hq
    · rename_i e
      cases hq
      cases (show some [(['a', '/', 'p'], some mA)] = some l from h)
      subst e
      exact .head _
    · split at hq
      · rename_i e
        cases hq
        cases (show some [(['b', '/', 'q'], some mB)] = some l from h)
        subst e
        exact .head _
      · cases hq

private theorem ex_home {q : Name} {m : GoModule} (h : exHome q = some m) : q = ['a', '/', 'p'] ∧ m = mA ∨ q = ['b', '/', 'q'] ∧ m = mB := by
  unfold exHome at h
  split at h
  · cases h
    exact .inl ⟨by assumption, rfl⟩
  · split at h
    · cases h
      exact .inr ⟨by assumption, rfl⟩
    · cases h

private theorem ex_clear : Clear exHome := by
  refine ⟨?_, ?_⟩
  · intro p q m n hp hq e
    rcases ex_home hp with ⟨rfl, rfl⟩ | ⟨rfl, rfl⟩ <;> rcases ex_home hq with ⟨rfl, rfl⟩ | ⟨rfl, rfl⟩ <;>
      first | rfl | exact absurd e (by decide)
  · intro p q m n hp hq e
    rcases ex_home hp with ⟨rfl, rfl⟩ | ⟨rfl, rfl⟩ <;> rcases ex_home hq with ⟨rfl, rfl⟩ | ⟨rfl, rfl⟩ <;> exact absurd e (by decide)

private theorem ex_parse {d : Name} {m : Mod} (h : exDisk.parse d = some m) : d = ['/', 'a'] ∧ m = ⟨['a'], ['/', 'a'], [['a', '/', 'p']]⟩ ∨
    d = ['/', 'b'] ∧ m = ⟨['b'], ['/', 'b'], [['b', '/', 'q']]⟩ := by
  simp only [exDisk] at h
  split at h
  · cases h
    exact .inl ⟨by assumption, rfl⟩
  · split at h
    · cases h
      exact .inr ⟨by assumption, rfl⟩
    · cases h

private theorem ex_sane : exDisk.Sane := by
  refine ⟨fun _ => rfl, fun d m h => ?_⟩
  rcases ex_parse h with ⟨rfl, rfl⟩ | ⟨rfl, rfl⟩ <;> rfl

private theorem ex_distinct : exDisk.Distinct := by
  intro d d' m m' h h' e
  rcases ex_parse h with ⟨rfl, rfl⟩ | ⟨rfl, rfl⟩ <;> rcases ex_parse h' with ⟨rfl, rfl⟩ | ⟨rfl, rfl⟩ <;> first | rfl | exact absurd e (by decide)

example : (getServiceByName (exSource pA pB) {} ['a'] ['I']).2 = .error ∧
    (getServiceByName (exSource pA pB) (Spec.run (exSource pA pB) {} [.service ['a', '/', 'p'] ['I']]) ['a'] ['I']).2 = .ok none :=
  C131_nil_refuted (src := exSource pA pB) ex_tells ex_clear ex_sane ex_distinct (fun _ _ _ => rfl)
    (by intro n p; simp only [exSource, exTool]; split
        · simp
        · split <;> simp) (q := ['a', '/', 'p']) (g := mA) rfl
    (by intro t l h e he
        cases (show some [(['a'], none)] = some l from h)
        cases List.mem_singleton.1 he
        rfl) (m := ⟨['a'], ['/', 'a'], [['a', '/', 'p']]⟩) rfl (by decide) _ _

example : ServiceIn ⟨['a', '/', 'p'], [(['I'], face)], [(['S'], body)], [(['N'], make)]⟩ ['I'] face := by
  refine ⟨rfl, ?_, ?_, ⟨_, .head _, ?_⟩, _, .head _, ?_⟩
  · intro n m hm v hv
    simp only [face, List.mem_singleton, Prod.mk.injEq] at hm
    rw [hm.2] at hv
    simp only [call, List.cons_append, List.nil_append, List.mem_cons, List.not_mem_nil, or_false] at hv
    rcases hv with rfl | rfl
    · exact ⟨_, .user _ _⟩
    · exact ⟨_, .basic _⟩
  · intro n m hm
    simp only [face, List.mem_singleton, Prod.mk.injEq] at hm
    rw [hm.2]
    exact ⟨⟨_, _, rfl, rfl⟩, [], _, rfl, rfl⟩
  · exact ⟨⟨_, _, rfl, rfl⟩, _, _, rfl, rfl, rfl⟩
  · intro n m hm
    simp only [face, List.mem_singleton, Prod.mk.injEq] at hm
    rw [hm.1, hm.2]
    exact ⟨call, rfl, rfl, rfl, rfl⟩

example : (infoOf mA).isLocal = true ∧ (infoOf mA).shortName = ['a'] := by decide +kernel
example : Downloaded "/go/pkg/mod".toList ⟨"x.org/y".toList, "v1.2.0".toList, "/go/pkg/mod/x.org/y@v1.2.0".toList,
    "/go/pkg/mod/cache/download/x.org/y/@v/v1.2.0.mod".toList, false, false⟩ := by
  unfold Downloaded
  decide +kernel

end Verif.GoParse
