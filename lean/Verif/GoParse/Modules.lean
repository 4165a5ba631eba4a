import Verif.GoParse.Types
/-
C86: sets of parsed modules (plugins/golang/goparser/moduleset.go).
-/
namespace Verif.GoParse

/-- A parsed module: its name, its directory and the names of its packages (goparser/parser.go `ParsedModule`). -/
structure Mod where
  name : Name
  dir : Name
  packages : List Name
  deriving DecidableEq, Repr

/-- `ParsedModuleSet` (moduleset.go lines 12-16), without the parent. -/
structure MSet where
  modules : List (Name × Mod)
  dirs : List (Name × Mod)
  deriving DecidableEq, Repr

/-- The global `parsedModules` (line 61), and the directories that have been parsed so far, in order. -/
structure World where
  cache : List (Name × Mod)
  parsed : List Name
  deriving DecidableEq, Repr

/-- What cannot change while the compiler runs: what is on disk (`parseModule`, parser.go lines 123-166, of a clean path) and
`filepath.Clean`. -/
structure Disk where
  clean : Name → Name
  parse : Name → Option Mod

/-- The parents, nearest first, that have the directory (lines 83-88). -/
def inParents (d : Name) : List MSet → Option Mod
  | [] => none
  | p :: ps => match p.dirs.lookup d with
    | some m => some m
    | none => inParents d ps

/-- The loop of `AddModules` (lines 73-109). -/
def addLoop (k : Disk) (parents : List MSet) (set : MSet) : World → List Name → List Mod → World × Option (List Mod)
  | w, [], new => (w, some new)
  | w, d :: ds, new =>
    match set.dirs.lookup (k.clean d) with
    | some _ => addLoop k parents set w ds new
    | none => match w.cache.lookup (k.clean d) with
      | some m => addLoop k parents set w ds (new ++ [m])
      | none => match inParents (k.clean d) parents with
        | some m => match set.modules.lookup m.name with
          | some _ => (w, none)
          | none => addLoop k parents set w ds (new ++ [m])
        | none => match k.parse (k.clean d) with
          | none => (w, none)
          | some m => match set.modules.lookup m.name with
            | some _ => (⟨insert (k.clean d) m w.cache, w.parsed ++ [k.clean d]⟩, none)
            | none => addLoop k parents set ⟨insert (k.clean d) m w.cache, w.parsed ++ [k.clean d]⟩ ds (new ++ [m])

/-- Lines 112-115. -/
def MSet.save (s : MSet) : List Mod → MSet
  | [] => s
  | m :: ms => MSet.save ⟨insert m.name m s.modules, insert m.dir m s.dirs⟩ ms

/-- `AddModules` (lines 69-117): the new world, the new set, and whether there was no error. -/
def addModules (k : Disk) (parents : List MSet) (w : World) (set : MSet) (ds : List Name) : World × MSet × Bool :=
  match addLoop k parents set w ds [] with
  | (w, none) => (w, set, false)
  | (w, some new) => (w, set.save new, true)

/-- `AddModule` (lines 51-56): `ok none` is a nil module without an error. -/
def addModule (k : Disk) (parents : List MSet) (w : World) (set : MSet) (d : Name) : World × MSet × Option (Option Mod) :=
  match addModules k parents w set [d] with
  | (w, set, true) => (w, set, some (set.dirs.lookup d))
  | (w, set, false) => (w, set, none)

/-- `Add` (lines 31-38): `mod.IsLocal = …` panics for a nil module. -/
def add (k : Disk) (parents : List MSet) (w : World) (set : MSet) (d : Name) : World × MSet × Res Mod :=
  match addModule k parents w set d with
  | (w, set, none) => (w, set, .error)
  | (w, set, some none) => (w, set, .panic)
  | (w, set, some (some m)) => (w, set, .ok m)

/-- `GetPackage` within the sets (lines 140-153): the module in which the package is found; the list of modules is in the order in which
the map is iterated. -/
def findPackage (name : Name) : List MSet → Option Mod
  | [] => none
  | s :: ps => match (s.modules.map (·.2)).find? fun m => m.name.isPrefixOf name && m.packages.contains name with
    | some m => some m
    | none => findPackage name ps

/-! ### Histories -/

/-- All sets of a process: set `i` has the parents `parents i`, nearest first. -/
structure Sets where
  world : World
  sets : Nat → MSet

/-- One call of `AddModules` on set `i`. -/
def Sets.step (k : Disk) (parents : Nat → List Nat) (s : Sets) (op : Nat × List Name) : Sets × Bool :=
  let r := addModules k ((parents op.1).map s.sets) s.world (s.sets op.1) op.2
  (⟨r.1, fun j => if j = op.1 then r.2.1 else s.sets j⟩, r.2.2)

def Sets.init : Sets := ⟨⟨[], []⟩, fun _ => ⟨[], []⟩⟩

def Sets.run (k : Disk) (parents : Nat → List Nat) : Sets → List (Nat × List Name) → Sets
  | s, [] => s
  | s, op :: ops => Sets.run k parents (s.step k parents op).1 ops

/-- `filepath.Clean` is idempotent, and `parseModule` stores the directory it was given. -/
structure Disk.Sane (k : Disk) : Prop where
  clean : ∀ d, k.clean (k.clean d) = k.clean d
  dir : ∀ d m, k.parse d = some m → m.dir = d

/-! ### Proofs -/

private theorem lookup_insert' {β : Type} (l : List (Name × β)) (k j : Name) (v : β) :
    (insert k v l).lookup j = if j = k then some v else l.lookup j := lookup_insert j k v l

/-- What the sets and the cache hold is what is on disk. -/
private def Agrees (k : Disk) (l : List (Name × Mod)) : Prop := ∀ d m, l.lookup d = some m → k.parse d = some m ∧ k.clean d = d

private theorem agrees_insert {k : Disk} {l : List (Name × Mod)} (h : Agrees k l) {d : Name} {m : Mod} (hm : k.parse d = some m)
    (hd : k.clean d = d) : Agrees k (insert d m l) := by
  intro e x he
  rw [lookup_insert'] at he
  split at he
  · next hx => cases he; exact hx ▸ ⟨hm, hd⟩
  · exact h e x he

private theorem inParents_agrees {k : Disk} {ps : List MSet} (h : ∀ p ∈ ps, Agrees k p.dirs) {d : Name} {m : Mod}
    (e : inParents d ps = some m) : k.parse d = some m ∧ k.clean d = d := by
  induction ps with
  | nil => cases e
  | cons p ps ih =>
    simp only [inParents] at e
    split at e
    · next x hx => cases e; exact h p (.head _) _ _ hx
    · exact ih (fun p hp => h p (.tail _ hp)) e

private structure Inv (k : Disk) (w : World) : Prop where
  agrees : Agrees k w.cache
  nodup : w.parsed.Nodup
  cached : ∀ d ∈ w.parsed, (w.cache.lookup d).isSome

private theorem addLoop_spec (k : Disk) (hk : k.Sane) (parents : List MSet) (set : MSet) (hp : ∀ p ∈ parents, Agrees k p.dirs)
    (ds : List Name) : ∀ (w : World) (new : List Mod), Inv k w → (∀ m ∈ new, k.parse m.dir = some m ∧ k.clean m.dir = m.dir) →
    Inv k (addLoop k parents set w ds new).1 ∧
    ∀ r, (addLoop k parents set w ds new).2 = some r →
      (∀ m ∈ r, k.parse m.dir = some m ∧ k.clean m.dir = m.dir) ∧ (∀ m ∈ new, m ∈ r) ∧
      (∀ m ∈ r, m ∈ new ∨ ∃ d ∈ ds, m.dir = k.clean d) ∧
      ∀ d ∈ ds, (set.dirs.lookup (k.clean d)).isSome ∨ ∃ m ∈ r, m.dir = k.clean d := by
  induction ds with
  | nil =>
    intro w new hi hn
    refine ⟨hi, ?_⟩
    intro r h
    simp only [addLoop, Option.some.injEq] at h
    subst h
    exact ⟨hn, fun m hm => hm, fun m hm => .inl hm, by simp⟩
  | cons d ds ih =>
    intro w new hi hn
    have step : ∀ (w' : World) (m : Mod), Inv k w' → k.parse (k.clean d) = some m →
        Inv k (addLoop k parents set w' ds (new ++ [m])).1 ∧
        ∀ r, (addLoop k parents set w' ds (new ++ [m])).2 = some r →
          (∀ m ∈ r, k.parse m.dir = some m ∧ k.clean m.dir = m.dir) ∧ (∀ m ∈ new, m ∈ r) ∧
          (∀ m ∈ r, m ∈ new ∨ ∃ e ∈ d :: ds, m.dir = k.clean e) ∧
          ∀ e ∈ d :: ds, (set.dirs.lookup (k.clean e)).isSome ∨ ∃ m ∈ r, m.dir = k.clean e := by
      intro w' m hw hm
      have hd := hk.dir _ _ hm
      obtain ⟨i1, i2⟩ := ih w' (new ++ [m]) hw (by
        intro x hx
        rcases List.mem_append.1 hx with hx | hx
        · exact hn x hx
        · rw [List.mem_singleton.1 hx, hd]
          exact ⟨hm, hk.clean d⟩)
      refine ⟨i1, ?_⟩
      intro r hr
      obtain ⟨a, b, c, e⟩ := i2 r hr
      refine ⟨a, fun x hx => b x (List.mem_append_left _ hx), ?_, ?_⟩
      · intro x hx
        rcases c x hx with h | ⟨y, h1, h2⟩
        · rcases List.mem_append.1 h with h | h
          · exact .inl h
          · rw [List.mem_singleton.1 h]
            exact .inr ⟨d, .head _, hd⟩
        · exact .inr ⟨y, .tail _ h1, h2⟩
      · intro x hx
        rcases List.mem_cons.1 hx with rfl | hx
        · exact .inr ⟨m, b m (by simp), hd⟩
        · exact e x hx
    simp only [addLoop]
    cases h1 : set.dirs.lookup (k.clean d) with
    | some m =>
      simp only []
      obtain ⟨i1, i2⟩ := ih w new hi hn
      refine ⟨i1, ?_⟩
      intro r hr
      obtain ⟨a, b, c, e⟩ := i2 r hr
      refine ⟨a, b, ?_, ?_⟩
      · intro x hx
        rcases c x hx with h | ⟨y, h1, h2⟩
        · exact .inl h
        · exact .inr ⟨y, .tail _ h1, h2⟩
      · intro x hx
        rcases List.mem_cons.1 hx with rfl | hx
        · exact .inl (by simp [h1])
        · exact e x hx
    | none =>
      simp only []
      cases h2 : w.cache.lookup (k.clean d) with
      | some m => exact step w m hi (hi.agrees _ _ h2).1
      | none =>
        simp only []
        cases h3 : inParents (k.clean d) parents with
        | some m =>
          simp only []
          cases h4 : set.modules.lookup m.name with
          | some _ => exact ⟨hi, fun r h => by cases h⟩
          | none => exact step w m hi (inParents_agrees hp h3).1
        | none =>
          simp only []
          cases h4 : k.parse (k.clean d) with
          | none => exact ⟨hi, fun r h => by cases h⟩
          | some m =>
            simp only []
            have hi' : Inv k ⟨insert (k.clean d) m w.cache, w.parsed ++ [k.clean d]⟩ := by
              refine ⟨agrees_insert hi.agrees h4 (hk.clean d), ?_, ?_⟩
              · refine List.nodup_append.2 ⟨hi.nodup, by simp, ?_⟩
                intro a ha b hb
                rw [List.mem_singleton.1 hb]
                rintro rfl
                have := hi.cached _ ha
                rw [h2] at this
                cases this
              · intro e he
                simp only [] at he ⊢
                rw [lookup_insert']
                split
                · rfl
                · next hne =>
                  rcases List.mem_append.1 he with he | he
                  · exact hi.cached e he
                  · exact absurd (List.mem_singleton.1 he) hne
            cases h5 : set.modules.lookup m.name with
            | some _ => exact ⟨hi', fun r h => by cases h⟩
            | none => exact step _ m hi' h4

private theorem save_spec (k : Disk) (ms : List Mod) : ∀ (s : MSet), Agrees k s.dirs →
    (∀ m ∈ ms, k.parse m.dir = some m ∧ k.clean m.dir = m.dir) →
    Agrees k (s.save ms).dirs ∧ (∀ m ∈ ms, (s.save ms).dirs.lookup m.dir = some m) ∧
    (∀ d, (∀ m ∈ ms, m.dir ≠ d) → (s.save ms).dirs.lookup d = s.dirs.lookup d) := by
  induction ms with
  | nil => intro s h _; exact ⟨h, by simp, fun d _ => rfl⟩
  | cons m ms ih =>
    intro s h hm
    obtain ⟨m1, m2⟩ := hm m (.head _)
    obtain ⟨a, b, c⟩ := ih ⟨insert m.name m s.modules, insert m.dir m s.dirs⟩ (agrees_insert h m1 m2) fun x hx => hm x (.tail _ hx)
    simp only [MSet.save]
    refine ⟨a, ?_, ?_⟩
    · intro x hx
      rcases List.mem_cons.1 hx with rfl | hx
      · by_cases hy : ∃ y ∈ ms, y.dir = x.dir
        · obtain ⟨y, y1, y2⟩ := hy
          have : y = x := by
            have := (hm y (.tail _ y1)).1
            rw [y2, m1] at this
            exact (Option.some.inj this).symm
          exact this ▸ b y y1
        · rw [c x.dir fun y hy' e => hy ⟨y, hy', e⟩, lookup_insert', if_pos rfl]
      · exact b x hx
    · intro d hd
      rw [c d fun x hx => hd x (.tail _ hx), lookup_insert', if_neg fun e => hd m (.head _) e.symm]

private structure Good (k : Disk) (s : Sets) : Prop where
  world : Inv k s.world
  sets : ∀ i, Agrees k (s.sets i).dirs

private theorem good_step {k : Disk} (hk : k.Sane) {parents : Nat → List Nat} {s : Sets} (h : Good k s) (op : Nat × List Name) :
    Good k (s.step k parents op).1 ∧ ((s.step k parents op).2 = true →
      ∀ d, ((s.step k parents op).1.sets op.1).dirs.lookup d =
        if d ∈ op.2.map k.clean then k.parse d else (s.sets op.1).dirs.lookup d) ∧
    ((s.step k parents op).2 = true → ∀ d ∈ op.2, (k.parse (k.clean d)).isSome) := by
  obtain ⟨i, ds⟩ := op
  have hp : ∀ p ∈ (parents i).map s.sets, Agrees k p.dirs := by
    intro p hp
    obtain ⟨j, -, rfl⟩ := List.mem_map.1 hp
    exact h.sets j
  obtain ⟨l1, l2⟩ := addLoop_spec k hk ((parents i).map s.sets) (s.sets i) hp ds s.world [] h.world (by simp)
  simp only [Sets.step, addModules]
  rcases hr : addLoop k ((parents i).map s.sets) (s.sets i) s.world ds [] with ⟨w, r⟩
  rw [hr] at l1 l2
  cases r with
  | none =>
    refine ⟨⟨l1, ?_⟩, by simp, by simp⟩
    intro j
    simp only []
    split
    · exact h.sets i
    · exact h.sets j
  | some r =>
    obtain ⟨a, -, c, e⟩ := l2 r rfl
    obtain ⟨s1, s2, s3⟩ := save_spec k r (s.sets i) (h.sets i) a
    refine ⟨⟨l1, ?_⟩, ?_, ?_⟩
    · intro j
      simp only []
      split
      · exact s1
      · exact h.sets j
    · intro _ d
      simp only [if_true]
      by_cases hd : ∃ m ∈ r, m.dir = d
      · obtain ⟨m, m1, m2⟩ := hd
        rw [← m2, s2 m m1]
        rcases c m m1 with h | ⟨x, x1, x2⟩
        · cases h
        · rw [if_pos (List.mem_map.2 ⟨x, x1, x2.symm⟩), (a m m1).1]
      · rw [s3 d fun m hm e => hd ⟨m, hm, e⟩]
        split
        · next hm =>
          obtain ⟨x, x1, rfl⟩ := List.mem_map.1 hm
          rcases e x x1 with h' | h'
          · obtain ⟨m, hm⟩ := Option.isSome_iff_exists.1 h'
            rw [hm, (h.sets i _ _ hm).1]
          · exact absurd h' hd
        · rfl
    · intro _ d hd
      rcases e d hd with h' | ⟨m, m1, m2⟩
      · obtain ⟨m, hm⟩ := Option.isSome_iff_exists.1 h'
        rw [(h.sets i _ _ hm).1]
        rfl
      · rw [← m2, (a m m1).1]
        rfl

private theorem good_run {k : Disk} (hk : k.Sane) {parents : Nat → List Nat} (ops : List (Nat × List Name)) :
    ∀ s, Good k s → Good k (Sets.run k parents s ops) := by
  induction ops with
  | nil => intro s h; exact h
  | cons op ops ih => intro s h; exact ih _ (good_step hk h op).1

private theorem good_init (k : Disk) : Good k Sets.init :=
  ⟨⟨fun d m h => (by cases h), List.nodup_nil, fun d h => (by cases h)⟩, fun i d m h => (by cases h)⟩

/-- C86: whatever module sets there are and whatever has been added to them before, a call of `AddModules` that succeeds leaves the set
with the modules that are on disk in the given directories (all of which hold one), besides those it had; a call that fails leaves the
set as it was; and no other set changes. -/
theorem C86_added (k : Disk) (hk : k.Sane) (parents : Nat → List Nat) (ops : List (Nat × List Name)) (i : Nat) (ds : List Name) :
    let s := Sets.run k parents Sets.init ops
    let s' := (s.step k parents (i, ds)).1
    ((s.step k parents (i, ds)).2 = true → (∀ d ∈ ds, (k.parse (k.clean d)).isSome) ∧
      ∀ d, (s'.sets i).dirs.lookup d = if d ∈ ds.map k.clean then k.parse d else (s.sets i).dirs.lookup d) ∧
    ((s.step k parents (i, ds)).2 = false → s'.sets i = s.sets i) ∧ ∀ j, j ≠ i → s'.sets j = s.sets j := by
  intro s s'
  obtain ⟨-, h2, h3⟩ := good_step hk (good_run hk (parents := parents) ops _ (good_init k)) (i, ds)
  refine ⟨fun h => ⟨h3 h, h2 h⟩, ?_, ?_⟩
  · intro h
    show (if i = i then _ else _) = _
    rw [if_pos rfl]
    simp only [Sets.step, addModules] at h ⊢
    split at h
    · rfl
    · cases h
  · intro j hj
    show (if j = i then _ else _) = _
    rw [if_neg hj]

/-- C86: no directory is parsed twice in a process, also for different module sets; and all that the sets hold is what is on disk. -/
theorem C86_parsed_once (k : Disk) (hk : k.Sane) (parents : Nat → List Nat) (ops : List (Nat × List Name)) :
    let s := Sets.run k parents Sets.init ops
    s.world.parsed.Nodup ∧ ∀ i d m, (s.sets i).dirs.lookup d = some m → k.parse d = some m := by
  intro s
  have := good_run hk (parents := parents) ops _ (good_init k)
  exact ⟨this.world.nodup, fun i d m h => (this.sets i d m h).1⟩

/-- C86: the first time a directory is seen, it is refused if the set has a module of the same name from another directory.  Missing
from the full property: directories that were parsed before, or are added together (`C86_redeclared_refuted`). -/
theorem C86_redeclared_partial (k : Disk) (parents : List MSet) (w : World) (set : MSet) (d : Name) (m m' : Mod)
    (hs : set.dirs.lookup (k.clean d) = none) (hc : w.cache.lookup (k.clean d) = none)
    (hd : inParents (k.clean d) parents = some m ∨ k.parse (k.clean d) = some m ∧ inParents (k.clean d) parents = none)
    (hm : set.modules.lookup m.name = some m') : (addModules k parents w set [d]).2 = (set, false) := by
  rcases hd with hd | ⟨hd, hp⟩
  · simp [addModules, addLoop, hs, hc, hd, hm]
  · simp [addModules, addLoop, hs, hc, hd, hp, hm]

/-- C86 refuted: a directory with a module that the set has already from another directory is refused once; when it is added again,
there is no error and the set's module is replaced.  Added in one call, the two directories are not even refused once. -/
theorem C86_redeclared_refuted (k : Disk) (a b : Name) (m m' : Mod) (hab : a ≠ b) (ha : k.clean a = a) (hb : k.clean b = b)
    (pa : k.parse a = some m) (pb : k.parse b = some m') (da : m.dir = a) (db : m'.dir = b) (hn : m'.name = m.name) :
    (addModules k [] ⟨[], []⟩ ⟨[], []⟩ [a, b]).2 = (⟨[(m.name, m')], [(a, m), (b, m')]⟩, true) ∧
    let r := addModules k [] ⟨[], []⟩ ⟨[], []⟩ [a]
    let r' := addModules k [] r.1 r.2.1 [b]
    r'.2.2 = false ∧ (addModules k [] r'.1 r'.2.1 [b]).2 = (⟨[(m.name, m')], [(a, m), (b, m')]⟩, true) := by
  have hba : b ≠ a := Ne.symm hab
  constructor
  · simp [addModules, addLoop, List.lookup_cons, ha, hb, pa, pb, inParents, insert, MSet.save, da, db, hn, hab, hba, beq_eq_false_iff_ne.2 hba]
  · simp [addModules, addLoop, List.lookup_cons, ha, hb, pa, pb, inParents, insert, MSet.save, da, db, hn, hab, hba, beq_eq_false_iff_ne.2 hba]

/-- C86: `Add` of a clean path that is not an error gives the module that is on disk there, and never panics. -/
theorem C86_add_partial (k : Disk) (hk : k.Sane) (parents : Nat → List Nat) (ops : List (Nat × List Name)) (i : Nat) (d : Name)
    (hd : k.clean d = d) :
    let s := Sets.run k parents Sets.init ops
    let r := (add k ((parents i).map s.sets) s.world (s.sets i) d).2.2
    r ≠ .panic ∧ ∀ m, r = .ok m → k.parse d = some m := by
  intro s r
  obtain ⟨h1, -, -⟩ := C86_added k hk parents ops i [d]
  change (s.step k parents (i, [d])).2 = true → _ at h1
  simp only [Sets.step, if_true] at h1
  revert r
  unfold add addModule
  rcases hr : addModules k ((parents i).map s.sets) s.world (s.sets i) [d] with ⟨w, set, b⟩
  rw [show (addModules k ((parents i).map (Sets.run k parents Sets.init ops).sets) (Sets.run k parents Sets.init ops).world
    ((Sets.run k parents Sets.init ops).sets i) [d]) = (w, set, b) from hr] at h1
  cases b with
  | false => simp
  | true =>
    obtain ⟨h2, h3⟩ := h1 rfl
    have h2 := h2 d (.head _)
    have h3 := h3 d
    rw [if_pos (by simp [hd])] at h3
    rw [hd] at h2
    obtain ⟨m, hm⟩ := Option.isSome_iff_exists.1 h2
    rw [hm] at h3
    simp only [] at h3
    simp [h3, hm]

/-- C86 refuted: `Add` of a path that is not clean (`./workflow`, `workflow/`) panics even though the module is there. -/
theorem C86_add_refuted (k : Disk) (d : Name) (m : Mod) (hd : k.clean d ≠ d) (hp : k.parse (k.clean d) = some m)
    (hm : m.dir = k.clean d) : (add k [] ⟨[], []⟩ ⟨[], []⟩ d).2.2 = .panic := by
  have : (d == k.clean d) = false := beq_eq_false_iff_ne.2 (Ne.symm hd)
  simp [add, addModule, addModules, addLoop, inParents, hp, MSet.save, insert, hm, List.lookup_cons, this]

/-- The module holds the package: the names of packages begin with that of their module (parser.go lines 203-207). -/
def Mod.Holds (m : Mod) (p : Name) : Prop := p ∈ m.packages ∧ m.name <+: p

private theorem holds_iff (m : Mod) (p : Name) : (m.name.isPrefixOf p && m.packages.contains p) = true ↔ m.Holds p := by
  simp only [Bool.and_eq_true, List.isPrefixOf_iff_prefix, List.contains_iff_mem, Mod.Holds]
  exact and_comm

/-- C86: a package is found in the nearest set that has a module with that package, whatever the order of the modules, if only one
module of that set has it.  Missing from the full property: nested modules (`C86_nested_refuted`). -/
theorem C86_package_partial (p : Name) (pre post : List MSet) (s : MSet) (n : Name) (m : Mod)
    (hpre : ∀ t ∈ pre, ∀ e ∈ t.modules, ¬ e.2.Holds p) (hm : (n, m) ∈ s.modules) (hh : m.Holds p)
    (hu : ∀ e ∈ s.modules, e.2.Holds p → e.2 = m) : findPackage p (pre ++ s :: post) = some m := by
  induction pre with
  | nil =>
    simp only [List.nil_append, findPackage]
    cases hf : (s.modules.map (·.2)).find? fun m => m.name.isPrefixOf p && m.packages.contains p with
    | none =>
      have := (List.find?_eq_none.1 hf) m (List.mem_map.2 ⟨(n, m), hm, rfl⟩)
      exact absurd ((holds_iff m p).2 hh) this
    | some x =>
      obtain ⟨e, e1, e2⟩ := List.mem_map.1 (List.mem_of_find?_eq_some hf)
      have := List.find?_some hf
      have := (holds_iff x p).1 this
      rw [← e2] at this ⊢
      simp only []
      rw [hu e e1 this]
  | cons t pre ih =>
    simp only [List.cons_append, findPackage]
    have : ((t.modules.map (·.2)).find? fun m => m.name.isPrefixOf p && m.packages.contains p) = none := by
      refine List.find?_eq_none.2 ?_
      intro x hx h
      obtain ⟨e, e1, rfl⟩ := List.mem_map.1 hx
      exact hpre t (.head _) e e1 ((holds_iff _ _).1 h)
    rw [this]
    exact ih fun t ht => hpre t (.tail _ ht)

/-- C86 refuted: a module in a subdirectory of another one is parsed as part of both (`filepath.Walk` does not stop at another
go.mod file), so it depends on the order in which Go iterates over a map which of them a package of that module is found in. -/
theorem C86_nested_refuted (p : Name) (m m' : Mod) (h : m.Holds p) (h' : m'.Holds p) :
    findPackage p [⟨[(m.name, m), (m'.name, m')], []⟩] = some m ∧ findPackage p [⟨[(m'.name, m'), (m.name, m)], []⟩] = some m' := by
  have h := (holds_iff _ _).2 h
  have h' := (holds_iff _ _).2 h'
  simp only [findPackage, List.map_cons, List.find?_cons, h, h']
  exact ⟨trivial, trivial⟩

/-! ### Concrete cases -/

private def modA : Mod := ⟨"m".toList, "/a".toList, ["m".toList, "m/x".toList]⟩
private def modB : Mod := ⟨"m".toList, "/b".toList, ["m".toList]⟩
private def modX : Mod := ⟨"m/x".toList, "/a/x".toList, ["m/x".toList]⟩
private def disk : Disk where
  clean d := if d = "/a/".toList then "/a".toList else d
  parse d := if d = "/a".toList then some modA else if d = "/b".toList then some modB else if d = "/a/x".toList then some modX else none

example : disk.Sane := by
  constructor
  · intro d
    by_cases h : d = "/a/".toList
    · subst h; decide
    · simp only [disk, if_neg h]
  · intro d m h
    simp only [disk] at h
    split at h
    · next e => cases h; exact e ▸ rfl
    · split at h
      · next e => cases h; exact e ▸ rfl
      · split at h
        · next e => cases h; exact e ▸ rfl
        · cases h
example : (addModules disk [] ⟨[], []⟩ ⟨[], []⟩ ["/a/".toList, "/a/x".toList]).2.2 = true := by decide
example : (addModules disk [] ⟨[], []⟩ ⟨[], []⟩ ["/a".toList, "/c".toList]).2 = (⟨[], []⟩, false) := by decide
-- two sets, the second with the first as its parent: one parse
example : (Sets.run disk (fun i => if i = 1 then [0] else []) Sets.init [(0, ["/a".toList]), (1, ["/a/".toList])]).world.parsed =
    ["/a".toList] := by decide
-- C86_redeclared_refuted, C86_add_refuted, C86_nested_refuted
example : disk.parse "/a".toList = some modA ∧ disk.parse "/b".toList = some modB ∧ modB.name = modA.name := by decide
example : disk.clean "/a/".toList ≠ "/a/".toList ∧ disk.parse (disk.clean "/a/".toList) = some modA := by decide
example : modA.Holds "m/x".toList ∧ modX.Holds "m/x".toList :=
  ⟨(holds_iff _ _).1 (by decide), (holds_iff _ _).1 (by decide)⟩

end Verif.GoParse
