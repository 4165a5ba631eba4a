import Verif.GoGen.FinishSpec
/-
C130: the go.mod files and the go.work file of a workspace.
-/
namespace Verif.GoGen
open Verif.GoCode (Name shortName)

/-! ### Directives -/

private theorem filter_drop {p : Name} {q : Replace → Bool} (hq : ∀ r : Replace, r.path = p → q r = false) (rs : List Replace) :
    (dropReplaces p rs).filter q = rs.filter q := by
  induction rs with
  | nil => rfl
  | cons r rs ih =>
    unfold dropReplaces at ih ⊢
    by_cases e : r.path = p
    · rw [List.filter_cons_of_neg (by simp [e]), ih, List.filter_cons_of_neg (by simp [hq r e])]
    · rw [List.filter_cons_of_pos (by simp [e]), List.filter_cons, List.filter_cons, ih]

private theorem filter_add {p t : Name} {q : Replace → Bool} (hq : ∀ r : Replace, r.path = p → q r = false) (rs : List Replace) :
    (addReplace p t rs).filter q = rs.filter q := by
  induction rs with
  | nil => simp [addReplace, hq]
  | cons r rs ih =>
    rw [addReplace]
    by_cases e : r.path = p
    · rw [if_pos e, List.filter_cons_of_neg (by simp [hq]), filter_drop hq, List.filter_cons_of_neg (by simp [hq r e])]
    · rw [if_neg e, List.filter_cons, List.filter_cons, ih]

private theorem filter_add_same (p t : Name) (rs : List Replace) :
    (addReplace p t rs).filter (fun r => r.path = p) = [⟨p, [], t, []⟩] := by
  induction rs with
  | nil => simp [addReplace]
  | cons r rs ih =>
    rw [addReplace]
    by_cases e : r.path = p
    · rw [if_pos e, List.filter_cons_of_pos (by simp)]
      congr 1
      unfold dropReplaces
      rw [List.filter_filter]
      apply List.filter_eq_nil_iff.2
      intro r _
      simp
    · rw [if_neg e, List.filter_cons_of_neg (by simpa using e), ih]

/-- The directives after `addAll`. -/
private def redirect (m : Name) (L : List (Name × Name)) (rs : List Replace) : List Replace :=
  L.foldl (fun rs e => if m = e.2 then rs else addReplace e.2 ("../".toList ++ e.1) rs) rs

private theorem addAll_eq {files : Name → Option GoMod} {m : Name} : ∀ (L : List (Name × Name)) (rs : List Replace),
    (∀ e ∈ L, ∃ g, files e.1 = some g ∧ g.module = e.2) → addAll files m L rs = some (redirect m L rs) := by
  intro L
  induction L with
  | nil => intro rs _; rfl
  | cons e L ih =>
    intro rs h
    obtain ⟨d, o⟩ := e
    obtain ⟨g, hg, hm⟩ := h (d, o) (.head _)
    have ih' := fun rs => ih rs fun e he => h e (.tail _ he)
    rw [addAll]
    by_cases e : m = o
    · rw [if_pos e, ih']
      simp [redirect, e]
    · rw [if_neg e]
      simp only at hg hm
      simp only [hg, hm, ih']
      simp [redirect, e]

private theorem redirect_other {m : Name} {q : Replace → Bool} : ∀ (L : List (Name × Name)) (rs : List Replace),
    (∀ e ∈ L, m ≠ e.2 → ∀ r : Replace, r.path = e.2 → q r = false) → (redirect m L rs).filter q = rs.filter q := by
  intro L
  induction L with
  | nil => intro rs _; rfl
  | cons e L ih =>
    intro rs h
    have := ih (if m = e.2 then rs else addReplace e.2 ("../".toList ++ e.1) rs) fun e he => h e (.tail _ he)
    show (redirect m L _).filter q = _
    rw [this]
    split
    · rfl
    · rename_i hne
      exact filter_add (h e (.head _) hne) rs

private theorem redirect_mem {m d p : Name} (hp : m ≠ p) : ∀ (L : List (Name × Name)) (rs : List Replace),
    (∀ e ∈ L, e.2 = p → e.1 = d) → (d, p) ∈ L →
    (redirect m L rs).filter (fun r => r.path = p) = [⟨p, [], "../".toList ++ d, []⟩] := by
  intro L
  induction L with
  | nil => intro rs _ h; cases h
  | cons e L ih =>
    intro rs hu h
    show (redirect m L _).filter _ = _
    by_cases hin : (d, p) ∈ L
    · exact ih _ (fun e he => hu e (.tail _ he)) hin
    · have he : e = (d, p) := by
        rcases List.mem_cons.1 h with h | h
        · exact h.symm
        · exact absurd h hin
      subst he
      rw [redirect_other]
      · simp only [if_neg hp]
        exact filter_add_same _ _ _
      · intro e he _ r hr
        refine decide_eq_false fun e' => hin ?_
        have h2 : e.2 = p := hr.symm.trans e'
        have h1 := hu e (.tail _ he) h2
        have : e = (d, p) := Prod.ext h1 h2
        rwa [this] at he

/-! ### Filling the workspace -/

private def gstep (G : Name → Option GoMod) : BOp → Name → Option GoMod
  | .create m => fun x => if x = m ∧ G x = none then some ⟨m, [], []⟩ else G x
  | .addLocal _ src => fun x => if x = src.module ∧ G x = none then some src else G x
  | .require m p v => fun x => if x = m then (G x).map fun f => { f with requires := f.requires ++ [(p, v)] } else G x

private theorem required_cons_other {m : Name} {op : BOp} {ops : List BOp} (h : ∀ p v, op ≠ .require m p v) :
    required m (op :: ops) = required m ops := by
  unfold required
  cases op with
  | require m' p v =>
    have : m' ≠ m := fun e => h p v (by rw [e])
    simp [this]
  | _ => rfl

private theorem grun_eq (m : Name) : ∀ (ops : List BOp) (G : Name → Option GoMod),
    ops.foldl gstep G m = match G m with
      | some f => some { f with requires := f.requires ++ required m ops }
      | none => origin m ops := by
  intro ops
  induction ops with
  | nil => intro G; cases h : G m <;> simp [required, origin, h]
  | cons op ops ih =>
    intro G
    rw [List.foldl_cons, ih]
    cases op with
    | create m' =>
      rw [required_cons_other (by intro p v h; cases h)]
      by_cases e : m = m'
      · subst e
        cases h : G m <;> simp [gstep, h, origin]
      · have e' : ¬ m' = m := fun h => e h.symm
        cases h : G m <;> simp [gstep, h, origin, e, e']
    | addLocal d src =>
      rw [required_cons_other (by intro p v h; cases h)]
      by_cases e : m = src.module
      · subst e
        cases h : G src.module <;> simp [gstep, h, origin]
      · have e' : ¬ src.module = m := fun h => e h.symm
        cases h : G m <;> simp [gstep, h, origin, e, e']
    | require m' p v =>
      by_cases e : m = m'
      · subst e
        cases h : G m <;> simp [gstep, h, origin, required]
      · have e' : ¬ m' = m := fun h => e h.symm
        cases h : G m <;> simp [gstep, h, origin, required, e, e']

private structure Inv (b : Build) (G : Name → Option GoMod) (dirs : List Name) (ps : List (Name × Name)) : Prop where
  good : WGood b.ws dirs ps
  keys : (b.ws.modules.map (·.1)).Nodup
  files : ∀ d m, b.ws.modules.lookup d = some m → ∃ f, b.files d = some f ∧ G m = some f ∧ f.module = m
  mem : ∀ m d f, b.memory m = some (d, f) → b.ws.modules.lookup d = some m ∧ b.files d = some f
  gnone : ∀ m, b.ws.moduleDirs.lookup m = none → G m = none
  all : ∀ d m, b.ws.modules.lookup d = some m → (m, d) ∈ ps

/-- A module is put in a new directory. -/
private theorem inv_place {b : Build} {G dirs ps} (h : Inv b G dirs ps) (m d : Name) (src : GoMod) (hm : src.module = m)
    (h1 : b.ws.moduleDirs.lookup m = none) (h2 : b.ws.modules.lookup d = none) (gen : List (Name × Name))
    (mem : Name → Option (Name × GoMod)) (hmem : mem = b.memory ∨ mem = write b.memory m (d, src)) :
    Inv ⟨{ moduleDirs := put b.ws.moduleDirs m d, modules := put b.ws.modules d m, generated := gen, disk := put b.ws.disk d m },
      write b.files d src, mem⟩ (fun x => if x = m ∧ G x = none then some src else G x) (d :: dirs) (ps ++ [(m, d)]) := by
  have hG := h.gnone m h1
  refine ⟨wgood_place h.good m d h1 h2 gen, put_keys_nodup h.keys d m, ?_, ?_, ?_, ?_⟩
  · intro d' m' hl
    by_cases hd : d' = d
    · subst hd
      rw [lookup_put_same] at hl
      cases hl
      exact ⟨src, by simp [write], by simp [hG], hm⟩
    · rw [lookup_put_other _ _ _ _ hd] at hl
      obtain ⟨f, a, b', c⟩ := h.files d' m' hl
      refine ⟨f, by simp [write, hd, a], ?_, c⟩
      have : ¬ (m' = m ∧ G m' = none) := by rintro ⟨-, e⟩; rw [b'] at e; cases e
      rw [if_neg this]
      exact b'
  · intro m' d' f hf
    have old : b.memory m' = some (d', f) → (put b.ws.modules d m).lookup d' = some m' ∧ write b.files d src d' = some f := by
      intro hf
      obtain ⟨a, c⟩ := h.mem m' d' f hf
      have hd : d' ≠ d := by rintro rfl; rw [h2] at a; cases a
      exact ⟨by rw [lookup_put_other _ _ _ _ hd]; exact a, by simp [write, hd, c]⟩
    rcases hmem with rfl | rfl
    · exact old hf
    · simp only [write] at hf
      by_cases e : m' = m
      · subst e
        rw [if_pos rfl] at hf
        cases hf
        exact ⟨lookup_put_same _ _ _, by simp [write]⟩
      · rw [if_neg e] at hf
        exact old hf
  · intro m' hl
    have hne : m' ≠ m := by rintro rfl; rw [lookup_put_same] at hl; cases hl
    rw [lookup_put_other _ _ _ _ hne] at hl
    simp [hne, h.gnone m' hl]
  · intro d' m' hl
    by_cases hd : d' = d
    · subst hd
      rw [lookup_put_same] at hl
      cases hl
      simp
    · rw [lookup_put_other _ _ _ _ hd] at hl
      exact List.mem_append_left _ (h.all d' m' hl)

private theorem brun_inv : ∀ (ops : List BOp) (b : Build) G dirs ps, Inv b G dirs ps → FreshCreates dirs (ops.filterMap BOp.place) →
    (∀ r ∈ (brun b ops).1, r = true) → ∃ dirs', Inv (brun b ops).2 (ops.foldl gstep G) dirs' (ps ++ ops.filterMap BOp.placed) := by
  intro ops
  induction ops with
  | nil => intro b G dirs ps h _ _; exact ⟨dirs, by simpa [brun] using h⟩
  | cons op ops ih =>
    intro b G dirs ps h hf hs
    have hs1 : (bstep b op).1 = true := hs _ (by simp [brun])
    have hs2 : ∀ r ∈ (brun (bstep b op).2 ops).1, r = true := fun r hr => hs r (by simp [brun, hr])
    show ∃ dirs', Inv (brun (bstep b op).2 ops).2 (ops.foldl gstep (gstep G op)) dirs' _
    cases op with
    | create m =>
      obtain ⟨hf1, hf2⟩ := (show FreshCreates dirs (WOp.create m :: ops.filterMap BOp.place) from hf)
      have h1 : b.ws.moduleDirs.lookup m = none := by
        cases hl : b.ws.moduleDirs.lookup m with
        | none => rfl
        | some x => simp [bstep, createModule, hl] at hs1
      have h2 : b.ws.modules.lookup (shortName m) = none := by
        cases hl : b.ws.modules.lookup (shortName m) with
        | none => rfl
        | some x => exact absurd (h.good.asked _ _ hl) hf1
      have hg := inv_place h m (shortName m) ⟨m, [], []⟩ rfl h1 h2 (put b.ws.generated (shortName m) m) _ (Or.inr rfl)
      have e : (bstep b (.create m)).2 = ⟨⟨put b.ws.moduleDirs m (shortName m), put b.ws.modules (shortName m) m,
            put b.ws.generated (shortName m) m, put b.ws.disk (shortName m) m⟩, write b.files (shortName m) ⟨m, [], []⟩,
            write b.memory m (shortName m, ⟨m, [], []⟩)⟩ := by
        simp [bstep, createModule, h1]
      rw [e] at hs2 ⊢
      obtain ⟨dirs', hd⟩ := ih _ (gstep G (.create m)) _ _ hg hf2 hs2
      exact ⟨dirs', by simpa [BOp.placed] using hd⟩
    | addLocal d src =>
      obtain ⟨-, hf2⟩ := (show FreshCreates dirs (WOp.addLocal d src.module :: ops.filterMap BOp.place) from hf)
      cases hl : b.ws.moduleDirs.lookup src.module with
      | some x =>
        have hx : x = d := by
          refine Classical.byContradiction fun hne => ?_
          simp [bstep, addLocalModule, hl, hne] at hs1
        subst hx
        have e : (bstep b (.addLocal x src)).2 = b := by simp [bstep, addLocalModule, hl]
        rw [e] at hs2 ⊢
        obtain ⟨f, hf', hG, hm⟩ := h.files _ _ (h.good.fwd _ _ hl)
        have eG : gstep G (.addLocal x src) = G := by
          funext y
          show (if y = src.module ∧ G y = none then some src else G y) = G y
          refine if_neg ?_
          rintro ⟨rfl, e⟩
          rw [hG] at e
          cases e
        have hg : Inv b (gstep G (.addLocal x src)) (x :: dirs) (ps ++ [(src.module, x)]) := by
          rw [eG]
          refine ⟨⟨h.good.fwd, h.good.bwd, ?_, fun a c e => by simp [h.good.asked a c e], h.good.onDisk⟩, h.keys, h.files, h.mem, h.gnone,
            fun a c e => List.mem_append_left _ (h.all a c e)⟩
          intro p hp
          rcases List.mem_append.1 hp with hp | hp
          · exact h.good.placed p hp
          · simp at hp; subst hp; exact hl
        obtain ⟨dirs', hd⟩ := ih _ _ _ _ hg hf2 hs2
        exact ⟨dirs', by simpa [BOp.placed] using hd⟩
      | none =>
        have h2 : b.ws.modules.lookup d = none := by
          cases hl2 : b.ws.modules.lookup d with
          | none => rfl
          | some x =>
            by_cases hx : x = src.module
            · subst hx
              have := h.good.bwd _ _ hl2
              rw [hl] at this
              cases this
            · simp [bstep, addLocalModule, hl, hl2, hx] at hs1
        have hg := inv_place h src.module d src rfl hl h2 b.ws.generated _ (Or.inl rfl)
        have e : (bstep b (.addLocal d src)).2 = ⟨⟨put b.ws.moduleDirs src.module d, put b.ws.modules d src.module, b.ws.generated,
            put b.ws.disk d src.module⟩, write b.files d src, b.memory⟩ := by
          simp [bstep, addLocalModule, hl, h2]
        rw [e] at hs2 ⊢
        obtain ⟨dirs', hd⟩ := ih _ (gstep G (.addLocal d src)) _ _ hg hf2 hs2
        exact ⟨dirs', by simpa [BOp.placed] using hd⟩
    | require m p v =>
      have hf2 : FreshCreates dirs (ops.filterMap BOp.place) := hf
      by_cases hv : v = []
      · simp [bstep, hv] at hs1
      cases hb : b.memory m with
      | none => simp [bstep, hv, hb] at hs1
      | some x =>
        obtain ⟨d, f⟩ := x
        have e : (bstep b (.require m p v)).2 = ⟨b.ws, write b.files d { f with requires := f.requires ++ [(p, v)] },
            write b.memory m (d, { f with requires := f.requires ++ [(p, v)] })⟩ := by
          simp [bstep, hv, hb]
        rw [e] at hs2 ⊢
        obtain ⟨hd, hfd⟩ := h.mem m d f hb
        have hg : Inv ⟨b.ws, write b.files d { f with requires := f.requires ++ [(p, v)] },
            write b.memory m (d, { f with requires := f.requires ++ [(p, v)] })⟩ (gstep G (.require m p v)) dirs ps := by
          refine ⟨h.good, h.keys, ?_, ?_, ?_, h.all⟩
          · intro d' m' hl
            obtain ⟨f', a, c, e'⟩ := h.files d' m' hl
            by_cases hdd : d' = d
            · subst hdd
              rw [hd] at hl
              cases hl
              rw [hfd] at a
              cases a
              exact ⟨{ f with requires := f.requires ++ [(p, v)] }, by simp [write], by simp [gstep, c], e'⟩
            · have hmm : m' ≠ m := by
                rintro rfl
                have x1 := h.good.bwd _ _ hl
                have x2 := h.good.bwd _ _ hd
                rw [x1] at x2
                exact hdd (Option.some.inj x2)
              exact ⟨f', by simp [write, hdd, a], by simp [gstep, hmm, c], e'⟩
          · intro m' d' f' hm'
            simp only [write] at hm'
            by_cases hmm : m' = m
            · subst hmm
              rw [if_pos rfl] at hm'
              cases hm'
              exact ⟨hd, by simp [write]⟩
            · rw [if_neg hmm] at hm'
              obtain ⟨a, c⟩ := h.mem m' d' f' hm'
              have hdd : d' ≠ d := by
                rintro rfl
                rw [hd] at a
                exact hmm (Option.some.inj a).symm
              exact ⟨a, by simp [write, hdd, c]⟩
          · intro m' hl
            have := h.gnone m' hl
            show (if m' = m then (G m').map _ else G m') = none
            rw [this]
            split <;> rfl
        obtain ⟨dirs', hd'⟩ := ih _ _ _ _ hg hf2 hs2
        exact ⟨dirs', hd'⟩

private theorem inv_new : Inv {} (fun _ => none) [] [] :=
  ⟨⟨by simp, by simp, by simp, by simp, by simp⟩, by simp, by simp, by simp, by simp, by simp⟩

/-! ### The end -/

private theorem mem_iff_lookup {M : List (Name × Name)} (h : (M.map (·.1)).Nodup) (d m : Name) : (d, m) ∈ M ↔ M.lookup d = some m := by
  induction M with
  | nil => simp
  | cons e M ih =>
    obtain ⟨a, b⟩ := e
    rw [List.map_cons, List.nodup_cons] at h
    by_cases hd : d = a
    · subst hd
      have : (d, m) ∉ M := fun hm => h.1 (List.mem_map.2 ⟨_, hm, rfl⟩)
      simp [List.lookup_cons, this, eq_comm]
    · simp [List.lookup_cons, beq_eq_false_iff_ne.2 hd, hd, ih h.2]

/-- What the loop of `Finish` does, if every go.mod declares the module that the workspace has in that directory. -/
private theorem finish_files {M : List (Name × Name)} {files : Name → Option GoMod} {inner : Name → List (Name × Name)}
    (hk : (M.map (·.1)).Nodup) (hin : ∀ d, (inner d).Perm M) (hf : ∀ e ∈ M, ∃ g, files e.1 = some g ∧ g.module = e.2) :
    ∀ (rest done : List (Name × Name)) (now : Name → Option GoMod), (∀ e ∈ rest, e ∈ M) → (∀ e ∈ done, e ∈ M) →
    ((done ++ rest).map (·.1)).Nodup →
    (∀ e ∈ M, ∀ f, files e.1 = some f → now e.1 = some (if e ∈ done then { f with replaces := redirect e.2 (inner e.1) f.replaces } else f)) →
    ∀ e ∈ M, ∀ f, files e.1 = some f → rest.foldl (fun fs e => updateModfile (inner e.1) fs e.1 e.2) now e.1 =
      some (if e ∈ done ++ rest then { f with replaces := redirect e.2 (inner e.1) f.replaces } else f) := by
  intro rest
  induction rest with
  | nil => intro done now _ _ _ h; simpa using h
  | cons a rest ih =>
    intro done now hr hd hn h e he f hfe
    rw [List.foldl_cons]
    have := ih (done ++ [a]) (updateModfile (inner a.1) now a.1 a.2) (fun e he => hr e (.tail _ he))
      (fun e he => (List.mem_append.1 he).elim (hd e) fun x => by simp at x; subst x; exact hr _ (.head _)) (by simpa using hn) ?_ e he f hfe
    · simpa using this
    · intro e he f hfe
      have ha := hr a (.head _)
      obtain ⟨g, hg, hgm⟩ := hf a ha
      have hnot : a ∉ done := by
        intro hin'
        rw [List.map_append, List.nodup_append] at hn
        exact hn.2.2 a.1 (List.mem_map.2 ⟨a, hin', rfl⟩) a.1 (by simp) rfl
      have hnow := h a ha g hg
      rw [if_neg hnot] at hnow
      have hall : ∀ x ∈ inner a.1, ∃ g, now x.1 = some g ∧ g.module = x.2 := by
        intro x hx
        have hxM := (hin a.1).mem_iff.1 hx
        obtain ⟨g, hg, hgm⟩ := hf x hxM
        refine ⟨_, h x hxM g hg, ?_⟩
        split <;> exact hgm
      have eu : updateModfile (inner a.1) now a.1 a.2 = write now a.1 { g with replaces := redirect a.2 (inner a.1) g.replaces } := by
        unfold updateModfile
        simp only [hnow, addAll_eq _ _ hall]
      rw [eu]
      by_cases hea : e = a
      · subst hea
        rw [hg] at hfe
        cases hfe
        simp [write]
      · have hne : e.1 ≠ a.1 := by
          intro h1
          have x1 := (mem_iff_lookup hk e.1 e.2).1 he
          have x2 := (mem_iff_lookup hk a.1 a.2).1 ha
          rw [h1, x2] at x1
          exact hea (Prod.ext h1 (Option.some.inj x1).symm)
        have := h e he f hfe
        simp [write, hne, this, hea]

/-- C130: in a workspace filled by successful calls, in which no generated module lands in a directory used before, go.work lists exactly the
directories of the modules, each once. -/
theorem C130_go_work_partial (ops : List BOp) (hf : FreshCreates [] (ops.filterMap BOp.place)) (hs : ∀ r ∈ (brun {} ops).1, r = true)
    (order : List (Name × Name)) (inner : Name → List (Name × Name)) :
    (finish order inner (brun {} ops).2).1.Nodup ∧
    ∀ d, d ∈ (finish order inner (brun {} ops).2).1 ↔ ∃ m, (m, d) ∈ ops.filterMap BOp.placed := by
  obtain ⟨dirs, h⟩ := brun_inv ops {} _ _ _ inv_new hf hs
  rw [List.nil_append] at h
  refine ⟨h.keys, fun d => ?_⟩
  show d ∈ List.map _ _ ↔ _
  rw [List.mem_map]
  constructor
  · rintro ⟨⟨d', m⟩, he, rfl⟩
    exact ⟨m, h.all d' m ((mem_iff_lookup h.keys d' m).1 he)⟩
  · rintro ⟨m, hm⟩
    exact ⟨(d, m), (mem_iff_lookup h.keys d m).2 (h.good.fwd _ _ (h.good.placed _ hm)), rfl⟩

/-- C130: in such a workspace, whatever the order in which maps are iterated, the go.mod of every module is the one it came with, except that
each other module of the workspace is redirected to its directory, by one directive.  Missing from the full property: generated modules that
share a directory (`C130_shared_directory_refuted`), and directories outside the workspace (`C130_outside_refuted`). -/
theorem C130_redirects_partial (ops : List BOp) (hf : FreshCreates [] (ops.filterMap BOp.place)) (hs : ∀ r ∈ (brun {} ops).1, r = true)
    (order : List (Name × Name)) (inner : Name → List (Name × Name)) (ho : order.Perm (brun {} ops).2.ws.modules)
    (hi : ∀ d, (inner d).Perm (brun {} ops).2.ws.modules) (m d : Name) (hm : (m, d) ∈ ops.filterMap BOp.placed) :
    ∃ source file, origin m ops = some source ∧ (finish order inner (brun {} ops).2).2 d = some file ∧
      file.module = m ∧ file.requires = source.requires ∧
      (∀ m' d', (m', d') ∈ ops.filterMap BOp.placed → m' ≠ m → about file m' = [⟨m', [], "../".toList ++ d', []⟩]) ∧
      ∀ p, (∀ m' d', (m', d') ∈ ops.filterMap BOp.placed → m' ≠ m → m' ≠ p) → about file p = about source p := by
  obtain ⟨dirs, h⟩ := brun_inv ops {} _ _ _ inv_new hf hs
  rw [List.nil_append] at h
  have hl := h.good.fwd _ _ (h.good.placed _ hm)
  obtain ⟨f, hfd, hG, hfm⟩ := h.files d m hl
  rw [grun_eq] at hG
  have hM := (mem_iff_lookup h.keys d m).2 hl
  have hall : ∀ e ∈ (brun {} ops).2.ws.modules, ∃ g, (brun {} ops).2.files e.1 = some g ∧ g.module = e.2 := by
    intro e he
    obtain ⟨g, a, -, c⟩ := h.files e.1 e.2 ((mem_iff_lookup h.keys _ _).1 he)
    exact ⟨g, a, c⟩
  have hkeys : (order.map (·.1)).Nodup := (ho.map _).nodup_iff.2 h.keys
  have hfin := finish_files h.keys hi hall order [] (brun {} ops).2.files (fun e he => ho.mem_iff.1 he) (fun e he => nomatch he)
    hkeys (fun e he f hf => by simpa using hf) (d, m) hM f hfd
  rw [List.nil_append, if_pos (ho.mem_iff.2 hM)] at hfin
  refine ⟨f, _, hG, hfin, hfm, rfl, ?_, ?_⟩
  · intro m' d' hm' hne
    have hl' := h.good.fwd _ _ (h.good.placed _ hm')
    refine redirect_mem (fun e => hne e.symm) _ _ ?_ ((hi d).mem_iff.2 ((mem_iff_lookup h.keys _ _).2 hl'))
    intro e he h2
    have x1 := h.good.bwd _ _ ((mem_iff_lookup h.keys e.1 e.2).1 ((hi d).mem_iff.1 he))
    have x2 := h.good.bwd _ _ hl'
    rw [h2, x2] at x1
    exact (Option.some.inj x1).symm
  · intro p hp
    refine redirect_other _ _ ?_
    intro e he hne r hr
    have := h.all _ _ ((mem_iff_lookup h.keys e.1 e.2).1 ((hi d).mem_iff.1 he))
    refine decide_eq_false fun e' => ?_
    exact hp _ _ this (fun x => hne x.symm) (hr.symm.trans e')

/-- C130 refuted: a module that is copied keeps directives for modules outside the workspace, and a relative directory in them is then one
that does not exist: cmplx_workload of the hotel example goes to `../../../runtime`. -/
theorem C130_outside_refuted :
    ∃ (ops : List BOp) (order : List (Name × Name)) (file : GoMod) (r : Replace), (∀ x ∈ (brun {} ops).1, x = true) ∧
      order = (brun {} ops).2.ws.modules ∧ (finish order (fun _ => order) (brun {} ops).2).1 = ["cmplx_workload".toList] ∧
      (finish order (fun _ => order) (brun {} ops).2).2 "cmplx_workload".toList = some file ∧ r ∈ file.replaces ∧
      r.target = "../../../runtime".toList :=
  ⟨[.addLocal "cmplx_workload".toList ⟨"h/cmplx_workload".toList, [], [⟨"b/runtime".toList, [], "../../../runtime".toList, []⟩]⟩], _, _, _,
    by decide, rfl, by decide, by with_unfolding_all rfl, List.mem_singleton.2 rfl, rfl⟩

/-- C130 refuted: of two generated modules that share a directory, one is unknown to the rest of the workspace. -/
theorem C130_shared_directory_refuted :
    ∃ (ops : List BOp) (order : List (Name × Name)) (file : GoMod), (∀ x ∈ (brun {} ops).1, x = true) ∧
      order = (brun {} ops).2.ws.modules ∧ ops.filterMap BOp.placed = [("a/x".toList, ['x']), ("b/x".toList, ['x']), (['c'], ['c'])] ∧
      (finish order (fun _ => order) (brun {} ops).2).2 ['c'] = some file ∧ about file "a/x".toList = [] :=
  ⟨[.create "a/x".toList, .create "b/x".toList, .create ['c']], _, ⟨['c'], [], [⟨"b/x".toList, [], "../x".toList, []⟩]⟩, by decide, rfl, by decide,
    by decide, by decide⟩

/-! ### Examples -/

private def exOps : List BOp := [.create "blueprint/goproc/user_proc".toList,
  .addLocal "workflow".toList ⟨"b/workflow".toList, [("b/runtime".toList, ['v', '1'])], [⟨"b/runtime".toList, ['v', '1'], "../../runtime".toList, []⟩]⟩,
  .require "blueprint/goproc/user_proc".toList "b/runtime".toList ['v', '1'], .addLocal "runtime".toList ⟨"b/runtime".toList, [], []⟩]

example : FreshCreates [] (exOps.filterMap BOp.place) := ⟨by simp, trivial, trivial, trivial⟩
example : ∀ r ∈ (brun {} exOps).1, r = true := by decide +kernel
example : ("b/workflow".toList, "workflow".toList) ∈ exOps.filterMap BOp.placed := by decide +kernel
-- the directive for the runtime is changed, and there is one for the generated module
example : ((finish (brun {} exOps).2.ws.modules (fun _ => (brun {} exOps).2.ws.modules) (brun {} exOps).2).2 "workflow".toList).map (·.replaces) =
    some [⟨"b/runtime".toList, [], "../runtime".toList, []⟩, ⟨"blueprint/goproc/user_proc".toList, [], "../user_proc".toList, []⟩] := by
  decide +kernel

end Verif.GoGen
