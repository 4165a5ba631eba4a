import Verif.GoGen.Model
/-
C53, C54 and C57: workspaces, generated namespace files and generated constructor calls.
-/
namespace Verif.GoGen
open Verif.GoCode (Name shortName numbered)

/-! ### Specification -/

/-- The successful placements of a run: module and the directory returned. -/
def placements : List WOp → List (Option Name) → List (Name × Name)
  | op :: ops, some d :: rs => (op.module, d) :: placements ops rs
  | _ :: ops, none :: rs => placements ops rs
  | _, _ => []

/-- Different modules are in different directories, and a module is in one directory. -/
def Separate (ps : List (Name × Name)) : Prop :=
  ∀ p ∈ ps, ∀ q ∈ ps, (p.1 = q.1 ↔ p.2 = q.2)

/-- The directories that a sequence of calls asks for. -/
def WOp.dir : WOp → Name
  | .create m => shortName m
  | .addLocal d _ => d

/-- No generated module is asked for in a directory that an earlier call asked for. -/
def FreshCreates : List Name → List WOp → Prop
  | _, [] => True
  | dirs, op :: ops => (match op with | .create m => shortName m ∉ dirs | .addLocal _ _ => True) ∧
      FreshCreates (op.dir :: dirs) ops

/-! ### Maps -/

theorem lookup_put_same (m : List (Name × Name)) (k v : Name) : (put m k v).lookup k = some v := by
  simp [put]

private theorem lookup_filter (m : List (Name × Name)) (k k' : Name) (h : k' ≠ k) :
    (m.filter (fun e => e.1 != k)).lookup k' = m.lookup k' := by
  induction m with
  | nil => rfl
  | cons e m ih =>
    obtain ⟨a, b⟩ := e
    by_cases ha : a = k
    · subst ha
      have : (List.lookup k' ((a, b) :: m)) = m.lookup k' := by
        simp [List.lookup_cons, beq_eq_false_iff_ne.2 h]
      simp [this, ih]
    · rw [List.filter_cons_of_pos (by simpa using ha)]
      simp only [List.lookup_cons, ih]

theorem lookup_put_other (m : List (Name × Name)) (k v k' : Name) (h : k' ≠ k) :
    (put m k v).lookup k' = m.lookup k' := by
  have hb : (k' == k) = false := beq_eq_false_iff_ne.2 h
  simp only [put, List.lookup_cons, hb, lookup_filter m k k' h]

/-! ### C53 -/

/-- The two maps are inverse to each other, and say where modules were placed. -/
structure WGood (w : Workspace) (dirs : List Name) (ps : List (Name × Name)) : Prop where
  fwd : ∀ m d, w.moduleDirs.lookup m = some d → w.modules.lookup d = some m
  bwd : ∀ m d, w.modules.lookup d = some m → w.moduleDirs.lookup m = some d
  placed : ∀ p ∈ ps, w.moduleDirs.lookup p.1 = some p.2
  asked : ∀ m d, w.modules.lookup d = some m → d ∈ dirs
  onDisk : ∀ m d, w.modules.lookup d = some m → w.disk.lookup d = some m

private theorem wgood_separate {w dirs ps} (h : WGood w dirs ps) : Separate ps := by
  intro p hp q hq
  have a := h.placed p hp
  have b := h.placed q hq
  constructor
  · intro he; rw [he, b] at a; exact (Option.some.inj a).symm
  · intro he
    have a' := h.fwd _ _ a
    have b' := h.fwd _ _ b
    rw [he, b'] at a'; exact (Option.some.inj a').symm

theorem wgood_place {w : Workspace} {dirs ps} (h : WGood w dirs ps) (m d : Name)
    (h1 : w.moduleDirs.lookup m = none) (h2 : w.modules.lookup d = none) (gen : List (Name × Name)) :
    WGood { moduleDirs := put w.moduleDirs m d, modules := put w.modules d m, generated := gen, disk := put w.disk d m }
      (d :: dirs) (ps ++ [(m, d)]) := by
  refine ⟨?_, ?_, ?_, ?_, ?_⟩
  · intro m' d' hl
    by_cases hm : m' = m
    · subst hm; rw [lookup_put_same] at hl; cases hl; exact lookup_put_same _ _ _
    · rw [lookup_put_other _ _ _ _ hm] at hl
      have := h.fwd _ _ hl
      have hd : d' ≠ d := by rintro rfl; rw [h2] at this; cases this
      show (put w.modules d m).lookup d' = some m'
      rw [lookup_put_other _ _ _ _ hd]; exact this
  · intro m' d' hl
    by_cases hd : d' = d
    · subst hd; rw [lookup_put_same] at hl; cases hl; exact lookup_put_same _ _ _
    · rw [lookup_put_other _ _ _ _ hd] at hl
      have := h.bwd _ _ hl
      have hm : m' ≠ m := by rintro rfl; rw [h1] at this; cases this
      show (put w.moduleDirs m d).lookup m' = some d'
      rw [lookup_put_other _ _ _ _ hm]; exact this
  · intro p hp
    rcases List.mem_append.1 hp with hp | hp
    · have := h.placed p hp
      have hm : p.1 ≠ m := by intro he; rw [he, h1] at this; cases this
      show (put w.moduleDirs m d).lookup p.1 = some p.2
      rw [lookup_put_other _ _ _ _ hm]; exact this
    · simp at hp; subst hp; exact lookup_put_same _ _ _
  · intro m' d' hl
    by_cases hd : d' = d
    · simp [hd]
    · rw [lookup_put_other _ _ _ _ hd] at hl
      simp [h.asked _ _ hl]
  · intro m' d' hl
    by_cases hd : d' = d
    · subst hd; rw [lookup_put_same] at hl; cases hl; exact lookup_put_same _ _ _
    · rw [lookup_put_other _ _ _ _ hd] at hl
      show (put w.disk d m).lookup d' = some m'
      rw [lookup_put_other _ _ _ _ hd]; exact h.onDisk _ _ hl

private theorem wrun_good (ops : List WOp) : ∀ (w : Workspace) dirs ps, WGood w dirs ps → FreshCreates dirs ops →
    (∀ r ∈ (wrun w ops).1, r ≠ none) → ∃ dirs', WGood (wrun w ops).2 dirs' (ps ++ placements ops (wrun w ops).1) := by
  induction ops with
  | nil => intro w dirs ps h _ _; exact ⟨dirs, by simpa [wrun, placements] using h⟩
  | cons op ops ih =>
    intro w dirs ps h hf hs
    obtain ⟨hf1, hf2⟩ := hf
    cases op with
    | create m =>
      simp only [wrun, wstep, createModule] at hs ⊢
      by_cases he : (w.moduleDirs.lookup m).isSome
      · simp [he] at hs
      · simp only [he, Bool.false_eq_true, if_false] at hs ⊢
        have h1 : w.moduleDirs.lookup m = none := Option.not_isSome_iff_eq_none.1 he
        have h2 : w.modules.lookup (shortName m) = none := by
          cases hl : w.modules.lookup (shortName m) with
          | none => rfl
          | some x => exact absurd (h.asked _ _ hl) hf1
        have hg := wgood_place h m (shortName m) h1 h2 (put w.generated (shortName m) m)
        obtain ⟨dirs', hd⟩ := ih _ _ _ hg hf2 (fun r hr => hs r (by simp [hr]))
        exact ⟨dirs', by simpa [placements, WOp.module] using hd⟩
    | addLocal d m =>
      simp only [wrun, wstep, addLocalModule] at hs ⊢
      cases hl : w.moduleDirs.lookup m with
      | some existing =>
        simp only [hl] at hs ⊢
        by_cases he : existing ≠ d
        · simp [he] at hs
        · have he' : existing = d := by simpa using he
          subst he'
          simp only [ne_eq, not_true_eq_false, if_false] at hs ⊢
          have hg : WGood w (existing :: dirs) (ps ++ [(m, existing)]) := by
            refine ⟨h.fwd, h.bwd, ?_, fun a b c => by simp [h.asked a b c], h.onDisk⟩
            intro p hp
            rcases List.mem_append.1 hp with hp | hp
            · exact h.placed p hp
            · simp at hp; subst hp; exact hl
          obtain ⟨dirs', hd⟩ := ih _ _ _ hg hf2 (fun r hr => hs r (by simp [hr]))
          exact ⟨dirs', by simpa [placements, WOp.module] using hd⟩
      | none =>
        simp only [hl] at hs ⊢
        cases hl2 : w.modules.lookup d with
        | some existing =>
          simp only [hl2] at hs ⊢
          by_cases he : existing ≠ m
          · simp [he] at hs
          · have he' : existing = m := by simpa using he
            subst he'
            have := h.bwd _ _ hl2
            rw [hl] at this; cases this
        | none =>
          simp only [hl2] at hs ⊢
          have hg := wgood_place h m d hl hl2 w.generated
          obtain ⟨dirs', hd⟩ := ih _ _ _ hg hf2 (fun r hr => hs r (by simp [hr]))
          exact ⟨dirs', by simpa [placements, WOp.module] using hd⟩

/-- C53: in a sequence of successful calls in which no generated module lands in a directory used before,
different modules are placed in different directories, each module in one, and each directory contains the
module placed there.  Missing from the full property: generated modules that share their last path element
(`C53_created_modules_share_directory_refuted`) and calls after a failed one
(`C53_retry_after_error_refuted`). -/
theorem C53_separate_directories_partial (ops : List WOp) (hf : FreshCreates [] ops)
    (hs : ∀ r ∈ (wrun {} ops).1, r ≠ none) :
    Separate (placements ops (wrun {} ops).1) ∧
    ∀ p ∈ placements ops (wrun {} ops).1, (wrun {} ops).2.disk.lookup p.2 = some p.1 := by
  have h0 : WGood {} [] [] := ⟨by simp, by simp, by simp, by simp, by simp⟩
  obtain ⟨dirs, h⟩ := wrun_good ops {} [] [] h0 hf hs
  rw [List.nil_append] at h
  exact ⟨wgood_separate h, fun p hp => h.onDisk _ _ (h.fwd _ _ (h.placed p hp))⟩

/-- C53 holds without further conditions for local modules up to the first error. -/
theorem C53_local_modules_partial (ops : List WOp) (hl : ∀ op ∈ ops, ∃ d m, op = .addLocal d m)
    (hs : ∀ r ∈ (wrun {} ops).1, r ≠ none) : Separate (placements ops (wrun {} ops).1) := by
  refine (C53_separate_directories_partial ops ?_ hs).1
  have : ∀ dirs, FreshCreates dirs ops := by
    clear hs
    induction ops with
    | nil => intro _; trivial
    | cons op ops ih =>
      intro dirs
      obtain ⟨d, m, rfl⟩ := hl op (by simp)
      exact ⟨trivial, ih (fun x hx => hl x (by simp [hx])) _⟩
  exact this []

/-- C53: creating a module twice is an error. -/
theorem C53_create_twice_fails (w : Workspace) (m d : Name) (between : List WOp) (w' : Workspace)
    (h : createModule w m = (some d, w')) : (createModule (wrun w' between).2 m).1 = none := by
  have hkeep : ∀ (ops : List WOp) (w : Workspace), (w.moduleDirs.lookup m).isSome →
      ((wrun w ops).2.moduleDirs.lookup m).isSome := by
    intro ops
    induction ops with
    | nil => intro w h; exact h
    | cons op ops ih =>
      intro w h
      simp only [wrun]
      apply ih
      have hput : ∀ k v, ((put w.moduleDirs k v).lookup m).isSome := by
        intro k v
        by_cases hk : m = k
        · subst hk; rw [lookup_put_same]; rfl
        · rw [lookup_put_other _ _ _ _ hk]; exact h
      cases op with
      | create m' =>
        simp only [wstep, createModule]
        split
        · exact h
        · exact hput _ _
      | addLocal d' m' =>
        simp only [wstep, addLocalModule]
        split
        · split <;> exact h
        · split
          · split <;> exact hput _ _
          · exact hput _ _
  have hw' : (w'.moduleDirs.lookup m).isSome := by
    unfold createModule at h
    split at h
    · cases h
    · cases h; simp [lookup_put_same]
  simp [createModule, hkeep between w' hw']

/-- C53 refuted: two generated modules whose paths end in the same element get the same directory, and the
second one overwrites the first. -/
theorem C53_created_modules_share_directory_refuted :
    ∃ (ops : List WOp) (m1 m2 d : Name), m1 ≠ m2 ∧ (wrun {} ops).1 = [some d, some d] ∧
      placements ops (wrun {} ops).1 = [(m1, d), (m2, d)] ∧ (wrun {} ops).2.disk.lookup d = some m2 :=
  ⟨[.create ['a', '/', 'x'], .create ['b', '/', 'x']], ['a', '/', 'x'], ['b', '/', 'x'], ['x'],
    by decide, by decide, by decide, by decide⟩

/-- C53 refuted: placing a local module in an occupied directory fails, but trying again succeeds, although
the directory still contains the other module. -/
theorem C53_retry_after_error_refuted :
    ∃ (ops : List WOp) (m1 m2 d : Name), m1 ≠ m2 ∧ (wrun {} ops).1 = [some d, none, some d] ∧
      placements ops (wrun {} ops).1 = [(m1, d), (m2, d)] ∧ (wrun {} ops).2.disk.lookup d = some m1 :=
  ⟨[.addLocal ['d'] ['a'], .addLocal ['d'] ['b'], .addLocal ['d'] ['b']], ['a'], ['b'], ['d'],
    by decide, by decide, by decide, by decide⟩

/-! ### C54 -/

/-- The declarations that were accepted, in call order. -/
def accepted : List NOp → List Bool → List (Name × Name)
  | .declare k s :: ops, true :: rs => (k, s) :: accepted ops rs
  | _ :: ops, _ :: rs => accepted ops rs
  | _, _ => []

private structure NGood (n : NsBuilder) (ds : List (Name × Name)) : Prop where
  decl : n.declarations.Perm ds
  keys : (ds.map (·.1)).Nodup
  inst : n.instantiations.Nodup
  req : (n.required.map (·.1)).Nodup
  opt : (n.optional.map (·.1)).Nodup

theorem put_keys_nodup {m : List (Name × Name)} (h : (m.map (·.1)).Nodup) (k v : Name) :
    ((put m k v).map (·.1)).Nodup := by
  refine List.nodup_cons.2 ⟨?_, ?_⟩
  · intro hm
    obtain ⟨e, he, hk⟩ := List.mem_map.1 hm
    have := (List.mem_filter.1 he).2
    simp at this; exact this hk
  · exact List.Nodup.sublist (List.filter_sublist.map _) h

private theorem lookup_isSome_iff {m : List (Name × Name)} {k : Name} : (m.lookup k).isSome = true ↔ k ∈ m.map (·.1) := by
  induction m with
  | nil => simp
  | cons e m ih =>
    obtain ⟨a, b⟩ := e
    by_cases hk : k = a
    · subst hk; simp
    · simp only [List.lookup_cons, beq_eq_false_iff_ne.2 hk, ih, List.map_cons, List.mem_cons, hk, false_or]

private theorem put_new {m : List (Name × Name)} {k v : Name} (h : k ∉ m.map (·.1)) : put m k v = (k, v) :: m := by
  simp only [put]
  congr 1
  rw [List.filter_eq_self]
  intro e he
  simp only [bne_iff_ne, ne_eq]
  rintro rfl
  exact h (List.mem_map_of_mem he)

private theorem nstep_good (n : NsBuilder) (decl : List (Name × Name)) (op : NOp) (h : NGood n decl) :
    NGood (nstep n op).2 (decl ++ accepted [op] [(nstep n op).1]) := by
  cases op with
  | requiredArg k d => simpa [nstep, accepted] using ⟨h.decl, h.keys, h.inst, put_keys_nodup h.req k d, h.opt⟩
  | optionalArg k d => simpa [nstep, accepted] using ⟨h.decl, h.keys, h.inst, h.req, put_keys_nodup h.opt k d⟩
  | instantiate k =>
    simp only [nstep]
    split
    · simpa [accepted] using h
    · rename_i hk
      have hi : (n.instantiations ++ [k]).Nodup := by
        rw [List.nodup_append]
        exact ⟨h.inst, by simp, by intro a ha b hb; simp at hb; subst hb; rintro rfl; exact hk ha⟩
      simpa [accepted] using ⟨h.decl, h.keys, hi, h.req, h.opt⟩
  | declare k src =>
    simp only [nstep]
    by_cases hs : (n.declarations.lookup k).isSome = true
    · rw [if_pos hs]; simpa [accepted] using h
    · rw [if_neg hs]
      have hk : k ∉ n.declarations.map (·.1) := fun hm => hs (lookup_isSome_iff.2 hm)
      have hk' : k ∉ decl.map (·.1) := fun hm => hk ((h.decl.map (·.1)).mem_iff.2 hm)
      refine ⟨?_, ?_, h.inst, h.req, h.opt⟩
      · show (put n.declarations k src).Perm _
        rw [put_new hk]
        simp only [accepted]
        exact (h.decl.cons _).trans (List.perm_append_singleton _ _).symm
      · simp only [accepted, List.map_append, List.map_cons, List.map_nil]
        rw [List.nodup_append]
        exact ⟨h.keys, by simp, by intro a ha b hb; simp at hb; subst hb; rintro rfl; exact hk' ha⟩

private theorem accepted_cons (op : NOp) (r : Bool) (ops : List NOp) (rs : List Bool) :
    accepted (op :: ops) (r :: rs) = accepted [op] [r] ++ accepted ops rs := by
  cases op <;> cases r <;> simp [accepted]

private theorem nrun_good (ops : List NOp) : ∀ (n : NsBuilder) (decl : List (Name × Name)), NGood n decl →
    NGood (nrun n ops).2 (decl ++ accepted ops (nrun n ops).1) := by
  induction ops with
  | nil => intro n decl h; simpa [nrun, accepted] using h
  | cons op ops ih =>
    intro n decl h
    have := ih _ _ (nstep_good n decl op h)
    simp only [nrun]
    rw [accepted_cons, ← List.append_assoc]
    exact this

private theorem ngood_init : NGood {} [] := ⟨.refl _, by simp, by simp, by simp, by simp⟩

/-- The names that the calls asked to instantiate. -/
def requested (ops : List NOp) : List Name :=
  ops.filterMap fun
    | .instantiate k => some k
    | _ => none

private theorem inst_spec (ops : List NOp) : ∀ n : NsBuilder, ∀ k,
    k ∈ (nrun n ops).2.instantiations ↔ k ∈ n.instantiations ∨ k ∈ requested ops := by
  induction ops with
  | nil => intro n k; simp [nrun, requested]
  | cons op ops ih =>
    intro n k
    simp only [nrun, ih]
    cases op with
    | instantiate m =>
      simp only [nstep]
      split
      · rename_i hm
        simp only [requested, List.filterMap_cons, List.mem_cons]
        constructor
        · rintro (h | h)
          · exact .inl h
          · exact .inr (.inr h)
        · rintro (h | rfl | h)
          · exact .inl h
          · exact .inl hm
          · exact .inr h
      · simp only [requested, List.filterMap_cons, List.mem_cons, List.mem_append, List.not_mem_nil, or_false]
        constructor
        · rintro ((h | h) | h)
          · exact .inl h
          · exact .inr (.inl h)
          · exact .inr (.inr h)
        · rintro (h | h | h)
          · exact .inl (.inl h)
          · exact .inl (.inr h)
          · exact .inr h
    | requiredArg => simp [nstep, requested]
    | optionalArg => simp [nstep, requested]
    | declare => simp only [nstep]; split <;> simp [requested]

private theorem nodup_of_keys {m : List (Name × Name)} (h : (m.map (·.1)).Nodup) : m.Nodup := by
  induction m with
  | nil => simp
  | cons e m ih =>
    simp only [List.map_cons, List.nodup_cons] at h ⊢
    exact ⟨fun hm => h.1 (List.mem_map_of_mem hm), ih h.2⟩

private theorem count_one {α : Type} [BEq α] [LawfulBEq α] {l : List α} {a : α} (hn : l.Nodup) (h : a ∈ l) :
    l.count a = 1 := by
  have h1 := List.nodup_iff_count.1 hn a
  have h2 := List.count_pos_iff.2 h
  omega

private theorem file_defs (n : NsBuilder) (k s : Name) : n.file.count (.define k s) = n.declarations.count (k, s) := by
  have hmap : ∀ l : List (Name × Name), (l.map fun e => Stmt.define e.1 e.2).count (.define k s) = l.count (k, s) := by
    intro l
    induction l with
    | nil => rfl
    | cons e l ih =>
      obtain ⟨a, b⟩ := e
      simp only [List.map_cons, List.count_cons, ih]
      congr 1
      by_cases h : a = k ∧ b = s
      · simp [h]
      · have h1 : (Stmt.define a b == Stmt.define k s) = false := by
          rw [beq_eq_false_iff_ne]; intro he; cases he; exact h ⟨rfl, rfl⟩
        have h2 : ((a, b) == (k, s)) = false := by
          rw [beq_eq_false_iff_ne]; intro he; cases he; exact h ⟨rfl, rfl⟩
        rw [h1, h2]
  have hz : ∀ {α : Type} (f : α → Stmt) (l : List α), (∀ x, f x ≠ .define k s) → (l.map f).count (.define k s) = 0 := by
    intro α f l hf
    rw [List.count_eq_zero]
    intro hm
    obtain ⟨x, _, hx⟩ := List.mem_map.1 hm
    exact hf x hx
  simp only [NsBuilder.file, List.count_append]
  rw [hz _ n.required (by simp), hz _ n.optional (by simp), hz Stmt.instantiate n.instantiations (by simp), hmap]
  omega

/-- C54: the generated file contains exactly one definition for each name whose declaration was accepted,
with the code given there, and no other definitions; declaring a name is accepted exactly the first
time. -/
theorem C54_each_declared_node_once (ops : List NOp) :
    (∀ k s, (k, s) ∈ accepted ops (nrun {} ops).1 → (nrun {} ops).2.file.count (.define k s) = 1) ∧
    (∀ k s, Stmt.define k s ∈ (nrun {} ops).2.file → (k, s) ∈ accepted ops (nrun {} ops).1) ∧
    ((accepted ops (nrun {} ops).1).map (·.1)).Nodup := by
  have h := nrun_good ops {} [] ngood_init
  rw [List.nil_append] at h
  have hnd : (nrun {} ops).2.declarations.Nodup := by
    have := h.keys
    have h2 := (h.decl.map (·.1)).nodup_iff.2 this
    exact nodup_of_keys h2
  refine ⟨?_, ?_, h.keys⟩
  · intro k s hm
    rw [file_defs]
    exact count_one hnd (h.decl.mem_iff.2 hm)
  · intro k s hm
    have : 0 < (nrun {} ops).2.file.count (.define k s) := List.count_pos_iff.2 hm
    rw [file_defs] at this
    exact h.decl.mem_iff.1 (List.count_pos_iff.1 this)

/-- C54: a redeclaration is an error and changes nothing; a first declaration is accepted. -/
theorem C54_redeclaration_fails (before : List NOp) (k s : Name) :
    let n := (nrun {} before).2
    let r := nstep n (.declare k s)
    (k ∈ (accepted before (nrun {} before).1).map (·.1) → r.1 = false ∧ r.2 = n) ∧
    (k ∉ (accepted before (nrun {} before).1).map (·.1) → r.1 = true) := by
  have h := nrun_good before {} [] ngood_init
  rw [List.nil_append] at h
  intro n r
  have hiff : (n.declarations.lookup k).isSome = true ↔ k ∈ (accepted before (nrun {} before).1).map (·.1) := by
    rw [lookup_isSome_iff]; exact (h.decl.map (·.1)).mem_iff
  constructor
  · intro hk
    simp only [r, nstep, hiff.2 hk, if_true]
    exact ⟨trivial, trivial⟩
  · intro hk
    have : ¬ (n.declarations.lookup k).isSome = true := fun h => hk (hiff.1 h)
    simp only [r, nstep]
    rw [if_neg this]

/-- C54: the generated file instantiates exactly the requested nodes, each once. -/
theorem C54_each_instantiation_once (ops : List NOp) (k : Name) :
    (k ∈ requested ops → (nrun {} ops).2.file.count (.instantiate k) = 1) ∧
    (k ∉ requested ops → Stmt.instantiate k ∉ (nrun {} ops).2.file) := by
  have h := nrun_good ops {} [] ngood_init
  have hin := inst_spec ops {} k
  simp only [List.not_mem_nil, false_or] at hin
  have hz : ∀ {α : Type} (f : α → Stmt) (l : List α), (∀ x, f x ≠ .instantiate k) → (l.map f).count (.instantiate k) = 0 := by
    intro α f l hf
    rw [List.count_eq_zero]
    intro hm
    obtain ⟨x, _, hx⟩ := List.mem_map.1 hm
    exact hf x hx
  have hc : (nrun {} ops).2.file.count (.instantiate k) = (nrun {} ops).2.instantiations.count k := by
    simp only [NsBuilder.file, List.count_append]
    rw [hz _ _ (by simp), hz _ _ (by simp), hz (fun e : Name × Name => Stmt.define e.1 e.2) _ (by simp)]
    simp only [Nat.zero_add, Nat.add_zero]
    induction (nrun {} ops).2.instantiations with
    | nil => rfl
    | cons a l ih =>
      simp only [List.map_cons, List.count_cons, ih]
      congr 1
      by_cases ha : a = k
      · simp [ha]
      · have h1 : (Stmt.instantiate a == Stmt.instantiate k) = false := by
          rw [beq_eq_false_iff_ne]; intro he; cases he; exact ha rfl
        have h2 : (a == k) = false := by rw [beq_eq_false_iff_ne]; exact ha
        rw [h1, h2]
  constructor
  · intro hk; rw [hc]; exact count_one h.inst (hin.2 hk)
  · intro hk hm
    have : 0 < (nrun {} ops).2.file.count (.instantiate k) := List.count_pos_iff.2 hm
    rw [hc] at this
    exact hk (hin.1 (List.count_pos_iff.1 this))

/-! ### C57 -/

/-- What the constructor should receive for an argument. -/
def wanted : Arg → Option Val
  | .metadata => none
  | .value l => some (.literal l)
  | .node n => some (.nodeValue n)

private theorem runGets_spec (gets : List (Name × Name)) : ∀ env : List (Name × Val),
    (gets.map (·.1)).Nodup → (∀ v ∈ gets.map (·.1), v ≠ ['n'] ∧ v ≠ ['e', 'r', 'r'] ∧ env.lookup v = none) →
    ∃ env', runGets env gets = some env' ∧
      (∀ v n, (v, n) ∈ gets → env'.lookup v = some (.nodeValue n)) ∧
      (∀ v x, v ∉ gets.map (·.1) → env.lookup v = x → env'.lookup v = x) := by
  induction gets with
  | nil => intro env _ _; exact ⟨env, rfl, by simp, fun v x _ h => h⟩
  | cons g gets ih =>
    intro env hnd hv
    obtain ⟨v, n⟩ := g
    simp only [List.map_cons, List.nodup_cons] at hnd
    obtain ⟨h1, h2, h3⟩ := hv v (by simp)
    simp only [runGets, if_neg h1, if_neg h2, h3, Option.isSome_none, Bool.false_eq_true, if_false]
    obtain ⟨env', he, hg, hk⟩ := ih ((v, .nodeValue n) :: env) hnd.2 (by
      intro w hw
      obtain ⟨a, b, c⟩ := hv w (by simp [hw])
      refine ⟨a, b, ?_⟩
      have hwv : w ≠ v := by rintro rfl; exact hnd.1 hw
      simp only [List.lookup_cons, beq_eq_false_iff_ne.2 hwv, c])
    refine ⟨env', he, ?_, ?_⟩
    · intro w m hm
      rcases List.mem_cons.1 hm with hm | hm
      · cases hm; exact hk v _ hnd.1 (by simp)
      · exact hg w m hm
    · intro w x hw hx
      simp only [List.map_cons, List.mem_cons, not_or] at hw
      apply hk w x hw.2
      simp only [List.lookup_cons, beq_eq_false_iff_ne.2 hw.1, hx]

private theorem buildArgs_spec (vs : List Name) : ∀ (as : List Arg) (f : BuildFunc), vs.length = as.length →
    buildArgs vs as = some f →
    (f.gets.map (·.1)).Sublist vs ∧
    (∀ env : List (Name × Val), (∀ v n, (v, n) ∈ f.gets → env.lookup v = some (.nodeValue n)) →
      ∃ vals, f.args.mapM (evalExpr env) = some vals ∧ as.map wanted = vals.map some) := by
  induction vs with
  | nil =>
    intro as f hl h
    cases as with
    | cons => simp at hl
    | nil => simp [buildArgs] at h; subst h; exact ⟨by simp, fun env _ => ⟨[], rfl, rfl⟩⟩
  | cons v vs ih =>
    intro as f hl h
    cases as with
    | nil => simp at hl
    | cons a as =>
      simp only [List.length_cons, Nat.add_right_cancel_iff] at hl
      cases a with
      | metadata => simp [buildArgs] at h
      | value l =>
        simp only [buildArgs] at h
        obtain ⟨g, hg, rfl⟩ := Option.map_eq_some_iff.1 h
        obtain ⟨h1, h2⟩ := ih as g hl hg
        refine ⟨h1.cons v, ?_⟩
        intro env he
        obtain ⟨vals, k1, k2⟩ := h2 env he
        exact ⟨.literal l :: vals, by simp [evalExpr, k1], by simp [wanted, k2]⟩
      | node n =>
        simp only [buildArgs] at h
        obtain ⟨g, hg, rfl⟩ := Option.map_eq_some_iff.1 h
        obtain ⟨h1, h2⟩ := ih as g hl hg
        refine ⟨by simpa using h1.cons_cons v, ?_⟩
        intro env he
        obtain ⟨vals, k1, k2⟩ := h2 env (fun w m hm => he w m (by simp [hm]))
        have := he v n (by simp)
        exact ⟨.nodeValue n :: vals, by simp [evalExpr, this, k1], by simp [wanted, k2]⟩

/-- C57: if the constructor's parameters have different names, none of them `n` or `err`, the generated
function passes to the constructor, in order, each literal argument and the value of each argument node.
Missing from the full property: constructors with a parameter called `n` or `err`
(`C57_parameter_called_n_refuted`). -/
theorem C57_constructor_arguments_partial (ctx : Name) (params : List Name) (args : List Arg) (f : BuildFunc)
    (hn : params.Nodup) (h1 : ['n'] ∉ params) (h2 : ['e', 'r', 'r'] ∉ params)
    (h : declareConstructor (ctx :: params) args = some f) :
    ∃ vals, f.run = some vals ∧ args.map wanted = vals.map some := by
  unfold declareConstructor at h
  split at h
  · cases h
  · rename_i hl
    have hl' : params.length = args.length := by simpa using hl
    obtain ⟨a, b⟩ := buildArgs_spec params args f hl' h
    obtain ⟨env, e1, e2, _⟩ := runGets_spec f.gets [] (hn.sublist a) (by
      intro v hv
      have := a.subset hv
      refine ⟨?_, ?_, rfl⟩
      · rintro rfl; exact h1 this
      · rintro rfl; exact h2 this)
    obtain ⟨vals, k1, k2⟩ := b env e2
    exact ⟨vals, by simp [BuildFunc.run, e1, k1], k2⟩

/-- C57: a constructor call is rejected iff the number of arguments is wrong or one of them is metadata. -/
theorem C57_rejected_iff (params : List Name) (args : List Arg) :
    declareConstructor params args = none ↔ params.length ≠ args.length + 1 ∨ .metadata ∈ args := by
  unfold declareConstructor
  by_cases hl : params.length ≠ args.length + 1
  · simp [hl]
  · rw [if_neg hl]
    have hl' : params.tail.length = args.length := by simp at hl; simp [hl]
    have : ∀ (vs : List Name) (as : List Arg), vs.length = as.length → (buildArgs vs as = none ↔ .metadata ∈ as) := by
      intro vs
      induction vs with
      | nil => intro as h; cases as <;> simp_all [buildArgs]
      | cons v vs ih =>
        intro as h
        cases as with
        | nil => simp at h
        | cons a as =>
          simp only [List.length_cons, Nat.add_right_cancel_iff] at h
          cases a <;> simp [buildArgs, ih as h]
    simp only [hl, false_or]
    exact this _ _ hl'

/-- C57 refuted: for a constructor parameter called `n` the generated function does not compile. -/
theorem C57_parameter_called_n_refuted :
    ∃ (params : List Name) (args : List Arg) (f : BuildFunc), params.Nodup ∧
      declareConstructor params args = some f ∧ f.run = none :=
  ⟨[['c', 't', 'x'], ['n']], [.node ['s']], _, by decide, rfl, by decide⟩

/-! ### Concrete cases -/

example : (wrun {} [.addLocal ['d'] ['a'], .create ['b', '/', 'x'], .addLocal ['d'] ['a']]).1 =
    [some ['d'], some ['x'], some ['d']] := by decide
example : FreshCreates [] [.addLocal ['d'] ['a'], .create ['b', '/', 'x'], .addLocal ['d'] ['a']] := by
  simp [FreshCreates, WOp.dir]; decide
example : (nrun {} [.declare ['a'] ['1'], .instantiate ['a'], .declare ['a'] ['2'], .instantiate ['a']]).1 =
    [true, true, false, true] := by decide
example : (declareConstructor [['c', 't', 'x'], ['a'], ['b']] [.node ['s'], .value ['5']]).bind BuildFunc.run =
    some [.nodeValue ['s'], .literal ['5']] := by decide

end Verif.GoGen
