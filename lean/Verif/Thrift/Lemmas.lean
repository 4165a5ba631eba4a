import Verif.Grpc.Exec
import Verif.Thrift.Spec
/-
Lemmas on the declarations: which structs are visited, and the fields of the lists.
-/
namespace Verif.Thrift
open Verif.Grpc hiding marshallable makeFieldList generate

/-! ### Types -/

theorem known_iff {b : Basic} : KnownBasic b ↔ (basicToThrift b).isSome = true := by
  cases b <;> simp [KnownBasic, basicToThrift]

theorem getThriftType_isSome : ∀ {τ : Ty}, (getThriftType τ).isSome = true ↔ Known τ
  | .user t => by simp [getThriftType, Known]
  | .basic b => by simp [getThriftType, Known, known_iff]
  | .pointer t => by simpa [getThriftType, Known] using getThriftType_isSome (τ := t)
  | .slice t => by simpa [getThriftType, Known] using getThriftType_isSome (τ := t)
  | .other => by simp [getThriftType, Known]
  | .map k v => by
    have hk := getThriftType_isSome (τ := k)
    have hv := getThriftType_isSome (τ := v)
    simp only [getThriftType, Known, ← hk, ← hv]
    cases getThriftType k <;> cases getThriftType v <;> simp

theorem getThriftType_simple {τ : Ty} {p g} (h : getThriftType τ = some (p, g)) :
    Simple τ ↔ (∃ T, g = .user T) ∨ ∃ b, g = .basic b := by
  cases τ with
  | user t =>
    simp only [getThriftType, Option.some.injEq, Prod.mk.injEq] at h
    simp [Simple, ← h.2]
  | basic b =>
    simp only [getThriftType, Option.map_eq_some_iff, Prod.mk.injEq] at h
    obtain ⟨s, hs, _, rfl⟩ := h
    simp [Simple, known_iff, hs]
  | pointer t =>
    simp only [getThriftType, Option.map_eq_some_iff, Prod.mk.injEq] at h
    obtain ⟨s, hs, _, rfl⟩ := h
    simp [Simple]
  | slice t =>
    simp only [getThriftType, Option.map_eq_some_iff, Prod.mk.injEq] at h
    obtain ⟨s, hs, _, rfl⟩ := h
    simp [Simple]
  | map k v =>
    simp only [getThriftType] at h
    cases hk : getThriftType k <;> cases hv : getThriftType v <;> rw [hk, hv] at h <;> try cases h
    simp [Simple]
  | other => cases h

/-- The generator has statements for a type iff it is supported. -/
theorem supported_iff {τ : Ty} : Supported τ ↔ ∃ r, getThriftType τ = some r ∧ marshallable r.2 = true := by
  cases τ with
  | user t => simp [Supported, Simple, getThriftType, marshallable]
  | basic b =>
    simp only [Supported, Simple, known_iff, getThriftType]
    cases basicToThrift b <;> simp [marshallable]
  | other => simp [Supported, Simple, getThriftType]
  | pointer t =>
    simp only [Supported, getThriftType]
    cases h : getThriftType t with
    | none =>
      have : ¬ Known t := fun hk => by simp [← getThriftType_isSome, h] at hk
      cases t <;> simp_all [Simple, Known]
    | some r =>
      rw [getThriftType_simple (p := r.1) (g := r.2) h]
      cases hg : r.2 <;> simp [marshallable, hg]
  | slice t =>
    simp only [Supported, getThriftType]
    cases h : getThriftType t with
    | none =>
      have : ¬ Known t := fun hk => by simp [← getThriftType_isSome, h] at hk
      cases t <;> simp_all [Simple, Known]
    | some r =>
      rw [getThriftType_simple (p := r.1) (g := r.2) h]
      cases hg : r.2 <;> simp [marshallable, hg]
  | map k v =>
    simp only [Supported, getThriftType]
    cases hk : getThriftType k with
    | none =>
      have : ¬ Known k := fun hk' => by simp [← getThriftType_isSome, hk] at hk'
      simp [this]
    | some q =>
      have hk1 : Known k := getThriftType_isSome.1 (by simp [hk])
      cases h : getThriftType v with
      | none =>
        have : ¬ Known v := fun hk => by simp [← getThriftType_isSome, h] at hk
        cases v <;> simp_all [Simple, Known]
      | some r =>
        rw [getThriftType_simple (p := r.1) (g := r.2) h]
        cases hg : r.2 <;> simp [marshallable, hg, hk1]

theorem compilable_iff {τ : Ty} {p g} (h : getThriftType τ = some (p, g)) {x : List Char} {i : Nat} :
    goOk ⟨τ, p, g, x, i⟩ = true ↔ Compilable τ := by
  cases τ with
  | user t =>
    simp only [getThriftType, Option.some.injEq, Prod.mk.injEq] at h
    obtain ⟨rfl, rfl⟩ := h
    simp [goOk, Compilable]
  | basic b =>
    cases b <;> simp only [getThriftType, basicToThrift, Option.map_some, Option.map_none, Option.some.injEq,
      Prod.mk.injEq, reduceCtorEq] at h <;> obtain ⟨rfl, rfl⟩ := h <;>
      simp [goOk, Compilable, KnownBasic, thriftToBasic, goType, sameGo]
  | other => cases h
  | pointer t =>
    simp only [getThriftType, Option.map_eq_some_iff, Prod.mk.injEq] at h
    obtain ⟨⟨p', g'⟩, h', rfl, rfl⟩ := h
    cases t with
    | user t =>
      simp only [getThriftType, Option.some.injEq, Prod.mk.injEq] at h'
      obtain ⟨rfl, rfl⟩ := h'
      simp [goOk, Compilable]
    | basic b =>
      simp only [getThriftType, Option.map_eq_some_iff, Prod.mk.injEq] at h'
      obtain ⟨s, hs, rfl, rfl⟩ := h'
      simp [goOk, Compilable]
    | pointer t =>
      simp only [getThriftType, Option.map_eq_some_iff, Prod.mk.injEq] at h'
      obtain ⟨s, hs, rfl, rfl⟩ := h'
      simp [goOk, Compilable]
    | slice t =>
      simp only [getThriftType, Option.map_eq_some_iff, Prod.mk.injEq] at h'
      obtain ⟨s, hs, rfl, rfl⟩ := h'
      simp [goOk, Compilable]
    | map k v =>
      simp only [getThriftType] at h'
      cases hk : getThriftType k <;> cases hv : getThriftType v <;> rw [hk, hv] at h' <;> cases h'
      simp [goOk, Compilable]
    | other => cases h'
  | slice t =>
    simp only [getThriftType, Option.map_eq_some_iff, Prod.mk.injEq] at h
    obtain ⟨⟨p', g'⟩, h', rfl, rfl⟩ := h
    cases t with
    | user t =>
      simp only [getThriftType, Option.some.injEq, Prod.mk.injEq] at h'
      obtain ⟨rfl, rfl⟩ := h'
      simp [goOk, Compilable]
    | basic b =>
      cases b <;> simp only [getThriftType, basicToThrift, Option.map_some, Option.map_none, Option.some.injEq,
        Prod.mk.injEq, reduceCtorEq] at h' <;> obtain ⟨rfl, rfl⟩ := h' <;>
        simp [goOk, Compilable, ThriftBasic, assignable, thriftToBasic, goType, sameGo]
    | pointer t =>
      simp only [getThriftType, Option.map_eq_some_iff, Prod.mk.injEq] at h'
      obtain ⟨s, hs, rfl, rfl⟩ := h'
      simp [goOk, Compilable]
    | slice t =>
      simp only [getThriftType, Option.map_eq_some_iff, Prod.mk.injEq] at h'
      obtain ⟨s, hs, rfl, rfl⟩ := h'
      simp [goOk, Compilable]
    | map k v =>
      simp only [getThriftType] at h'
      cases hk : getThriftType k <;> cases hv : getThriftType v <;> rw [hk, hv] at h' <;> cases h'
      simp [goOk, Compilable]
    | other => cases h'
  | map k v =>
    simp only [getThriftType] at h
    cases hk : getThriftType k with
    | none => rw [hk] at h; cases h
    | some qk =>
      cases hv : getThriftType v with
      | none => rw [hk, hv] at h; cases h
      | some qv =>
        obtain ⟨pk, gk⟩ := qk
        obtain ⟨pv, gv⟩ := qv
        rw [hk, hv] at h
        simp only [Option.some.injEq, Prod.mk.injEq] at h
        obtain ⟨rfl, rfl⟩ := h
        cases k with
        | basic k =>
          cases v with
          | user t =>
            simp only [getThriftType, Option.some.injEq, Prod.mk.injEq] at hv
            obtain ⟨rfl, rfl⟩ := hv
            cases k <;> simp only [getThriftType, basicToThrift, Option.map_some, Option.map_none, Option.some.injEq,
              Prod.mk.injEq, reduceCtorEq] at hk <;> obtain ⟨rfl, rfl⟩ := hk <;>
              simp [goOk, Compilable, ThriftBasic, assignable, thriftToBasic, goType, sameGo]
          | basic b =>
            have key : ∀ {b : Basic} {s : Base}, basicToThrift b = some s →
                (assignable (.basic b) s = true ↔ ThriftBasic b) := by
              intro b s h
              cases b <;> simp only [basicToThrift, Option.some.injEq, reduceCtorEq] at h <;> subst h <;>
                simp [ThriftBasic, assignable, goType, sameGo]
            simp only [getThriftType, Option.map_eq_some_iff, Prod.mk.injEq] at hk hv
            obtain ⟨s, hs, rfl, rfl⟩ := hk
            obtain ⟨s', hs', rfl, rfl⟩ := hv
            simp only [goOk, Compilable, Bool.and_eq_true, key hs, key hs']
          | pointer t =>
            simp only [getThriftType, Option.map_eq_some_iff, Prod.mk.injEq] at hv
            obtain ⟨s, hs, rfl, rfl⟩ := hv
            simp [goOk, Compilable]
          | slice t =>
            simp only [getThriftType, Option.map_eq_some_iff, Prod.mk.injEq] at hv
            obtain ⟨s, hs, rfl, rfl⟩ := hv
            simp [goOk, Compilable]
          | map k' v' =>
            simp only [getThriftType] at hv
            cases hk' : getThriftType k' <;> cases hv' : getThriftType v' <;> rw [hk', hv'] at hv <;> cases hv
            simp [goOk, Compilable]
          | other => cases hv
        | user t =>
          simp only [getThriftType, Option.some.injEq, Prod.mk.injEq] at hk
          obtain ⟨rfl, rfl⟩ := hk
          cases gv <;> simp [goOk, Compilable]
        | pointer t =>
          simp only [getThriftType, Option.map_eq_some_iff, Prod.mk.injEq] at hk
          obtain ⟨⟨p', g'⟩, hs, rfl, rfl⟩ := hk
          cases gv <;> cases p' <;> cases pv <;> simp [goOk, Compilable, assignable]
        | slice t =>
          simp only [getThriftType, Option.map_eq_some_iff, Prod.mk.injEq] at hk
          obtain ⟨⟨p', g'⟩, hs, rfl, rfl⟩ := hk
          cases gv <;> simp [goOk, Compilable]
        | map k' v' =>
          simp only [getThriftType] at hk
          cases hk' : getThriftType k' <;> cases hv' : getThriftType v' <;> rw [hk', hv'] at hk <;> cases hk
          cases gv <;> simp [goOk, Compilable]
        | other => cases hk

/-! ### Lists of fields -/

theorem fieldList_spec : ∀ {l : List (List Char × Ty)} {i : Nat} {fs : List Field}, fieldList i l = some fs →
    fs.map (fun f => (f.name, f.src)) = l ∧ ∀ f ∈ fs, getThriftType f.src = some (f.thrift, f.go)
  | [], i, fs, h => by
    simp only [fieldList, Option.some.injEq] at h
    subst h
    simp
  | (x, τ) :: l, i, fs, h => by
    simp only [fieldList] at h
    cases h1 : getThriftType τ with
    | none => rw [h1] at h; cases h
    | some r =>
      cases h2 : fieldList (i + 1) l with
      | none => rw [h1, h2] at h; cases h
      | some fs' =>
        rw [h1, h2] at h
        simp only [Option.some.injEq] at h
        subst h
        obtain ⟨a, b⟩ := fieldList_spec h2
        refine ⟨by simp [a], ?_⟩
        intro f hf
        rcases List.mem_cons.1 hf with rfl | hf
        · exact h1
        · exact b f hf

theorem fieldList_some : ∀ {l : List (List Char × Ty)} {i : Nat}, (∀ v ∈ l, Known v.2) →
    ∃ fs, fieldList i l = some fs
  | [], _, _ => ⟨_, rfl⟩
  | (x, τ) :: l, i, h => by
    have h1 := getThriftType_isSome.2 (h _ List.mem_cons_self)
    obtain ⟨r, hr⟩ := Option.isSome_iff_exists.1 h1
    obtain ⟨fs, hfs⟩ := fieldList_some (l := l) (i := i + 1) fun v hv => h v (List.mem_cons_of_mem _ hv)
    exact ⟨_, by simp only [fieldList]; rw [show getThriftType τ = some (r.1, r.2) from hr, hfs]⟩

theorem varNames_named : ∀ (l : List (List Char × Ty)) (i : Nat), varNames i l = named i l
  | [], _ => rfl
  | (x, τ) :: l, i => by
    simp only [varNames, named, varNames_named l]
    rfl

theorem named_types : ∀ (l : List (List Char × Ty)) (i : Nat), (named i l).map (·.2) = l.map (·.2)
  | [], _ => rfl
  | (x, τ) :: l, i => by simp [named, named_types l]

theorem namedFields_eq (ds : List FieldDecl) :
    namedFields ds = ds.filterMap fun d => d.names.head?.map fun x => (x, d.ty) := by
  simp [namedFields, parseFields, List.filterMap_map, Function.comp_def]

theorem mem_namedFields {ds : List FieldDecl} {f : List Char × Ty} (h : f ∈ namedFields ds) :
    ∃ d ∈ ds, d.names ≠ [] ∧ d.names.head? = some f.1 ∧ d.ty = f.2 := by
  rw [namedFields_eq] at h
  obtain ⟨d, hd, he⟩ := List.mem_filterMap.1 h
  obtain ⟨x, hx, rfl⟩ := Option.map_eq_some_iff.1 he
  exact ⟨d, hd, by rintro h0; simp [h0] at hx, hx, rfl⟩

theorem namedFields_mem {ds : List FieldDecl} {d : FieldDecl} (h : d ∈ ds) (hn : d.names ≠ []) :
    ∃ x, (x, d.ty) ∈ namedFields ds := by
  cases hx : d.names with
  | nil => exact absurd hx hn
  | cons x xs => exact ⟨x, by rw [namedFields_eq]; exact List.mem_filterMap.2 ⟨d, h, by simp [hx]⟩⟩

theorem namedFields_one {ds : List FieldDecl} (h : OneFieldPerLine ds) : namedFields ds = structFields ds := by
  rw [namedFields_eq]
  induction ds with
  | nil => rfl
  | cons d ds ih =>
    have hd := h d List.mem_cons_self
    obtain ⟨x, hx⟩ := List.length_eq_one_iff.1 hd
    simp only [List.filterMap_cons, hx, List.head?_cons, Option.map_some, structFields, List.flatMap_cons,
      List.map_cons, List.map_nil, List.singleton_append, List.cons.injEq, true_and]
    exact ih fun d hd => h d (List.mem_cons_of_mem _ hd)

/-! ### The structs that are visited -/

/-- What is known after visiting the types in `τs`. -/
structure Visited (env : Structs) (τs : List Ty) (vis vis' : List UserTy) : Prop where
  keep : ∀ t ∈ vis, t ∈ vis'
  mentions : ∀ τ ∈ τs, ∀ t, Mentions t τ → t ∈ vis'
  known : ∀ τ ∈ τs, Known τ
  fresh : ∀ t ∈ vis', t ∉ vis → (∃ τ ∈ τs, Reach env τ t) ∧ ∃ ds, env t = some ds ∧
    ∀ f ∈ namedFields ds, Known f.2 ∧ ∀ u, Mentions u f.2 → u ∈ vis'
  nodup : vis.Nodup → vis'.Nodup

theorem loop_spec {env : Structs} {rec : List UserTy → Ty → Res (List UserTy)}
    (hrec : ∀ vis vis' τ, rec vis τ = .ok vis' → Visited env [τ] vis vis') :
    ∀ {τs : List Ty} {vis vis' : List UserTy}, loop rec τs vis = .ok vis' → Visited env τs vis vis'
  | [], vis, vis', h => by
    simp only [loop, Res.ok.injEq] at h
    subst h
    exact ⟨fun _ h => h, by simp, by simp, fun t h1 h2 => absurd h1 h2, id⟩
  | τ :: τs, vis, vis', h => by
    simp only [loop] at h
    cases h1 : rec vis τ with
    | error => rw [h1] at h; cases h
    | stuck => rw [h1] at h; cases h
    | ok v1 =>
      rw [h1] at h
      have a := hrec _ _ _ h1
      have b := loop_spec hrec h
      refine ⟨fun t ht => b.keep t (a.keep t ht), ?_, ?_, ?_, fun hn => b.nodup (a.nodup hn)⟩
      · intro σ hσ t ht
        rcases List.mem_cons.1 hσ with rfl | hσ
        · exact b.keep t (a.mentions _ List.mem_cons_self t ht)
        · exact b.mentions σ hσ t ht
      · intro σ hσ
        rcases List.mem_cons.1 hσ with rfl | hσ
        · exact a.known _ List.mem_cons_self
        · exact b.known σ hσ
      · intro t ht hnot
        by_cases hv : t ∈ v1
        · obtain ⟨⟨σ, hσ, hr⟩, ds, hds, hf⟩ := a.fresh t hv hnot
          refine ⟨⟨σ, ?_, hr⟩, ds, hds, fun f hf' => ⟨(hf f hf').1, fun u hu => b.keep u ((hf f hf').2 u hu)⟩⟩
          rw [List.mem_singleton.1 hσ]
          exact List.mem_cons_self
        · obtain ⟨⟨σ, hσ, hr⟩, rest⟩ := b.fresh t ht hv
          exact ⟨⟨σ, List.mem_cons_of_mem _ hσ, hr⟩, rest⟩

theorem Visited.one {env : Structs} {σ τ : Ty} {vis vis' : List UserTy} (h : Visited env [σ] vis vis')
    (hm : ∀ t, Mentions t τ ↔ Mentions t σ) (hk : Known σ → Known τ) : Visited env [τ] vis vis' := by
  refine ⟨h.keep, ?_, ?_, ?_, h.nodup⟩
  · intro ρ hρ t ht
    rw [List.mem_singleton.1 hρ] at ht
    exact h.mentions σ List.mem_cons_self t ((hm t).1 ht)
  · intro ρ hρ
    rw [List.mem_singleton.1 hρ]
    exact hk (h.known σ List.mem_cons_self)
  · intro t ht hnot
    obtain ⟨⟨ρ, hρ, hr⟩, rest⟩ := h.fresh t ht hnot
    rw [List.mem_singleton.1 hρ] at hr
    exact ⟨⟨τ, List.mem_cons_self, Reach.of_mentions (fun t ht => (hm t).2 ht) hr⟩, rest⟩

theorem visit_spec (env : Structs) : ∀ (n : Nat) (vis vis' : List UserTy) (τ : Ty),
    visit env n vis τ = .ok vis' → Visited env [τ] vis vis'
  | 0, _, _, _, h => by cases h
  | n + 1, vis, vis', .user t, h => by
    simp only [visit] at h
    split at h
    · rename_i hin
      simp only [Res.ok.injEq] at h
      subst h
      refine ⟨fun _ h => h, ?_, by simp [Known], fun t h1 h2 => absurd h1 h2, id⟩
      intro τ hτ u hu
      rw [List.mem_singleton.1 hτ] at hu
      exact (show t = u from hu) ▸ hin
    · rename_i hnin
      cases hds : env t with
      | none => rw [hds] at h; cases h
      | some ds =>
        rw [hds] at h
        have a := loop_spec (visit_spec env n) h
        have hroot : Reach env (.user t) t := .here rfl
        refine ⟨fun u hu => a.keep u (List.mem_append.2 (Or.inl hu)), ?_, by simp [Known], ?_, ?_⟩
        · intro τ hτ u hu
          rw [List.mem_singleton.1 hτ] at hu
          exact (show t = u from hu) ▸ a.keep t (List.mem_append.2 (Or.inr List.mem_cons_self))
        · intro u hu hnot
          by_cases hut : u = t
          · subst hut
            refine ⟨⟨_, List.mem_cons_self, hroot⟩, ds, hds, fun f hf => ?_⟩
            have hm : f.2 ∈ (namedFields ds).map (·.2) := List.mem_map.2 ⟨f, hf, rfl⟩
            exact ⟨a.known _ hm, a.mentions _ hm⟩
          · obtain ⟨⟨σ, hσ, hr⟩, rest⟩ := a.fresh u hu (by simp [hnot, hut])
            refine ⟨⟨_, List.mem_cons_self, ?_⟩, rest⟩
            obtain ⟨f, hf, rfl⟩ := List.mem_map.1 hσ
            obtain ⟨d, hd, hne, _, hty⟩ := mem_namedFields hf
            rw [← hty] at hr
            exact Reach.of_field hds hd hne hr
        · intro hn
          refine a.nodup ?_
          rw [List.nodup_append]
          exact ⟨hn, by simp, fun x hx y hy hxy => hnin (by rw [List.mem_singleton.1 hy] at hxy; exact hxy ▸ hx)⟩
  | _ + 1, vis, vis', .basic b, h => by
    simp only [visit] at h
    split at h
    · rename_i hb
      simp only [Res.ok.injEq] at h
      subst h
      exact ⟨fun _ h => h, by simp [Mentions], by simpa [Known, known_iff] using hb, fun t h1 h2 => absurd h1 h2, id⟩
    · cases h
  | n + 1, vis, vis', .pointer t, h =>
    (visit_spec env n _ _ _ h).one (fun _ => Iff.rfl) id
  | n + 1, vis, vis', .slice t, h =>
    (visit_spec env n _ _ _ h).one (fun _ => Iff.rfl) id
  | _ + 1, _, _, .other, h => by cases h
  | n + 1, vis, vis', .map k v, h => by
    simp only [visit] at h
    have hl : loop (visit env n) [k, v] vis = .ok vis' := by
      simp only [loop]
      cases hk : visit env n vis k with
      | error => rw [hk] at h; cases h
      | stuck => rw [hk] at h; cases h
      | ok v1 =>
        rw [hk] at h
        simp only at h ⊢
        rw [h]
    have a := loop_spec (visit_spec env n) hl
    refine ⟨a.keep, ?_, ?_, ?_, a.nodup⟩
    · intro τ hτ t ht
      rw [List.mem_singleton.1 hτ] at ht
      rcases ht with ht | ht
      · exact a.mentions k (by simp) t ht
      · exact a.mentions v (by simp) t ht
    · intro τ hτ
      rw [List.mem_singleton.1 hτ]
      exact ⟨a.known k (by simp), a.known v (by simp)⟩
    · intro t ht hnot
      obtain ⟨⟨σ, hσ, hr⟩, rest⟩ := a.fresh t ht hnot
      refine ⟨⟨_, List.mem_cons_self, Reach.of_mentions (fun u hu => ?_) hr⟩, rest⟩
      rcases List.mem_cons.1 hσ with rfl | hσ
      · exact Or.inl hu
      · rw [List.mem_singleton.1 hσ] at hu
        exact Or.inr hu

/-! ### Declarations -/

theorem structDecls_spec {env : Structs} : ∀ {ts : List UserTy} {l}, structDecls env ts = some l →
    l.map (·.1) = ts ∧ ∀ e ∈ l, ∃ ds, env e.1 = some ds ∧ fieldList 0 (namedFields ds) = some e.2
  | [], l, h => by
    simp only [structDecls, Option.some.injEq] at h
    subst h
    simp
  | t :: ts, l, h => by
    simp only [structDecls] at h
    cases hds : env t with
    | none => rw [hds] at h; cases h
    | some ds =>
      rw [hds] at h
      simp only at h
      cases hf : fieldList 0 (namedFields ds) with
      | none => rw [hf] at h; cases h
      | some fs =>
        cases hl : structDecls env ts with
        | none => rw [hf, hl] at h; cases h
        | some l' =>
          rw [hf, hl] at h
          simp only [Option.some.injEq] at h
          subst h
          obtain ⟨a, b⟩ := structDecls_spec hl
          refine ⟨by simp [a], ?_⟩
          intro e he
          rcases List.mem_cons.1 he with rfl | he
          · exact ⟨ds, hds, hf⟩
          · exact b e he

theorem structDecls_some {env : Structs} : ∀ {ts : List UserTy},
    (∀ t ∈ ts, ∃ ds, env t = some ds ∧ ∀ f ∈ namedFields ds, Known f.2) → ∃ l, structDecls env ts = some l
  | [], _ => ⟨_, rfl⟩
  | t :: ts, h => by
    obtain ⟨ds, hds, hk⟩ := h t List.mem_cons_self
    obtain ⟨l, hl⟩ := structDecls_some (ts := ts) fun t ht => h t (List.mem_cons_of_mem _ ht)
    obtain ⟨fs, hfs⟩ := fieldList_some (i := 0) hk
    exact ⟨(t, fs) :: l, by simp only [structDecls, hds, hfs, hl]⟩

theorem methodDecls_spec : ∀ {ms : List Method} {l}, methodDecls ms = some l →
    l.map (·.1) = ms.map (·.name) ∧ (∀ m ∈ ms, ∃ e ∈ l, e.1 = m.name ∧ makeFieldList m.args = some e.2.1 ∧ makeFieldList m.rets = some e.2.2) ∧
    ∀ e ∈ l, ∃ m ∈ ms, e.1 = m.name ∧ makeFieldList m.args = some e.2.1 ∧ makeFieldList m.rets = some e.2.2
  | [], l, h => by
    simp only [methodDecls, Option.some.injEq] at h
    subst h
    simp
  | m :: ms, l, h => by
    simp only [methodDecls] at h
    cases ha : makeFieldList m.args with
    | none => rw [ha] at h; cases h
    | some req =>
      cases hr : makeFieldList m.rets with
      | none => rw [ha, hr] at h; cases h
      | some rsp =>
        cases hl : methodDecls ms with
        | none => rw [ha, hr, hl] at h; cases h
        | some l' =>
          rw [ha, hr, hl] at h
          simp only [Option.some.injEq] at h
          subst h
          obtain ⟨a, b, c⟩ := methodDecls_spec hl
          refine ⟨by simp [a], ?_, ?_⟩
          · intro m' hm'
            rcases List.mem_cons.1 hm' with rfl | hm'
            · exact ⟨_, List.mem_cons_self, rfl, ha, hr⟩
            · obtain ⟨e, he, h1⟩ := b m' hm'
              exact ⟨e, List.mem_cons_of_mem _ he, h1⟩
          · intro e he
            rcases List.mem_cons.1 he with rfl | he
            · exact ⟨m, List.mem_cons_self, rfl, ha, hr⟩
            · obtain ⟨m', hm', h1⟩ := c e he
              exact ⟨m', List.mem_cons_of_mem _ hm', h1⟩

theorem methodDecls_some : ∀ {ms : List Method}, (∀ m ∈ ms, ∀ v ∈ m.args ++ m.rets, Known v.2) →
    ∃ l, methodDecls ms = some l
  | [], _ => ⟨_, rfl⟩
  | m :: ms, h => by
    obtain ⟨l, hl⟩ := methodDecls_some (ms := ms) fun m hm => h m (List.mem_cons_of_mem _ hm)
    have hm := h m List.mem_cons_self
    have key : ∀ (l : List (List Char × Ty)) (i : Nat), (∀ v ∈ l, Known v.2) → ∀ v ∈ varNames i l, Known v.2 := by
      intro l i hk v hv
      rw [varNames_named] at hv
      have : v.2 ∈ (named i l).map (·.2) := List.mem_map.2 ⟨v, hv, rfl⟩
      rw [named_types] at this
      obtain ⟨w, hw, he⟩ := List.mem_map.1 this
      exact he ▸ hk w hw
    obtain ⟨req, hreq⟩ := fieldList_some (i := 0) (key m.args 0 fun v hv => hm v (List.mem_append.2 (Or.inl hv)))
    obtain ⟨rsp, hrsp⟩ := fieldList_some (i := 0) (key m.rets 0 fun v hv => hm v (List.mem_append.2 (Or.inr hv)))
    exact ⟨(m.name, req, rsp) :: l, by simp only [methodDecls, makeFieldList, hreq, hrsp, hl]⟩

theorem flatTypes (ms : List Method) : ms.flatMap Method.types = methodTypes ms := rfl

/-- What is known about a generated file. -/
structure FileOk (env : Structs) (ms : List Method) (file : File) : Prop where
  nodup : (file.structs.map (·.1)).Nodup
  reach : ∀ t, t ∈ file.structs.map (·.1) ↔ ∃ τ ∈ methodTypes ms, Reach env τ t
  structs : ∀ e ∈ file.structs, ∃ ds, env e.1 = some ds ∧
    e.2.map (fun f => (f.name, f.src)) = namedFields ds
  methods : file.methods.map (·.1) = ms.map (·.name)
  vars : ∀ e ∈ file.methods, ∃ m ∈ ms, e.1 = m.name ∧
    e.2.1.map (fun f => (f.name, f.src)) = named 0 m.args ∧
    e.2.2.map (fun f => (f.name, f.src)) = named 0 m.rets
  all : ∀ m ∈ ms, ∃ e ∈ file.methods, e.1 = m.name ∧
    e.2.1.map (fun f => (f.name, f.src)) = named 0 m.args ∧
    e.2.2.map (fun f => (f.name, f.src)) = named 0 m.rets
  types : ∀ fs ∈ file.fieldLists, ∀ f ∈ fs, getThriftType f.src = some (f.thrift, f.go) ∧ marshallable f.go = true

theorem mem_fieldLists {file : File} {fs : List Field} : fs ∈ file.fieldLists ↔
    (∃ e ∈ file.methods, fs = e.2.1 ∨ fs = e.2.2) ∨ ∃ e ∈ file.structs, fs = e.2 := by
  simp only [File.fieldLists, List.mem_append, List.mem_flatMap, List.mem_map, List.mem_cons, List.not_mem_nil, or_false]
  constructor
  · rintro (h | ⟨e, he, rfl⟩)
    · exact Or.inl h
    · exact Or.inr ⟨e, he, rfl⟩
  · rintro (h | ⟨e, he, rfl⟩)
    · exact Or.inl h
    · exact Or.inr ⟨e, he, rfl⟩

theorem generate_ok {env : Structs} {n : Nat} {ms : List Method} {file : File}
    (h : generate env n ms = .ok file) : FileOk env ms file := by
  unfold generate at h
  cases hv : loop (visit env n) (ms.flatMap Method.types) [] with
  | error => rw [hv] at h; cases h
  | stuck => rw [hv] at h; cases h
  | ok vis =>
    rw [hv] at h
    simp only at h
    cases hs : structDecls env vis with
    | none => rw [hs] at h; cases h
    | some ss =>
      cases hm : methodDecls ms with
      | none => rw [hs, hm] at h; cases h
      | some l =>
        rw [hs, hm] at h
        simp only at h
        split at h
        · rename_i hall
          simp only [Res.ok.injEq] at h
          subst h
          have V := loop_spec (visit_spec env n) hv
          obtain ⟨s1, s2⟩ := structDecls_spec hs
          obtain ⟨m1, m2, m3⟩ := methodDecls_spec hm
          have hcl : ∀ t, (∃ τ ∈ methodTypes ms, Reach env τ t) → t ∈ vis := by
            rintro t ⟨τ, hτ, hr⟩
            induction hr with
            | here hmn => exact V.mentions τ hτ _ hmn
            | field _ hds hd hne hmn ih =>
              obtain ⟨_, ds', hds', hf⟩ := V.fresh _ ih (by simp)
              rw [hds] at hds'
              cases hds'
              obtain ⟨x, hx⟩ := namedFields_mem hd hne
              exact (hf _ hx).2 _ hmn
          refine ⟨?_, ?_, ?_, m1, ?_, ?_, ?_⟩
          · rw [s1]
            exact V.nodup List.nodup_nil
          · intro t
            rw [s1]
            exact ⟨fun ht => (V.fresh t ht (by simp)).1, hcl t⟩
          · intro e he
            obtain ⟨ds, h1, h2⟩ := s2 e he
            exact ⟨ds, h1, (fieldList_spec h2).1⟩
          · intro e he
            obtain ⟨m, hm, h1, h2, h3⟩ := m3 e he
            refine ⟨m, hm, h1, ?_, ?_⟩
            · rw [(fieldList_spec h2).1, varNames_named]
            · rw [(fieldList_spec h3).1, varNames_named]
          · intro m hm
            obtain ⟨e, he, h1, h2, h3⟩ := m2 m hm
            refine ⟨e, he, h1, ?_, ?_⟩
            · rw [(fieldList_spec h2).1, varNames_named]
            · rw [(fieldList_spec h3).1, varNames_named]
          · intro fs hfs f hf
            refine ⟨?_, List.all_eq_true.1 (List.all_eq_true.1 hall fs hfs) f hf⟩
            rcases mem_fieldLists.1 hfs with ⟨e, he, h⟩ | ⟨e, he, rfl⟩
            · obtain ⟨m, hm, h1, h2, h3⟩ := m3 e he
              rcases h with rfl | rfl
              · exact (fieldList_spec h2).2 f hf
              · exact (fieldList_spec h3).2 f hf
            · obtain ⟨ds, h1, h2⟩ := s2 e he
              exact (fieldList_spec h2).2 f hf
        · cases h

theorem ofNat_val {n : Nat} (h : n < 55296) : (Char.ofNat n).val.toNat = n := by
  have hv : n.isValidChar := .inl h
  rw [Char.ofNat, dif_pos hv]
  simp [Char.ofNatAux]

theorem upper_char (c : Char) : (if 'a' ≤ c ∧ c ≤ 'z' then Char.ofNat (c.toNat - 32) else c) = c.toUpper := by
  have e1 : ('a' ≤ c ∧ c ≤ 'z') ↔ ('a'.val ≤ c.val ∧ c.val ≤ 'z'.val) := Iff.rfl
  unfold Char.toUpper
  by_cases h : 'a'.val ≤ c.val ∧ c.val ≤ 'z'.val
  · rw [if_pos (e1.2 h), dif_pos h]
    have h1 : 97 ≤ c.val.toNat := by simpa using UInt32.le_iff_toNat_le.1 h.1
    have h2 : c.val.toNat ≤ 122 := by simpa using UInt32.le_iff_toNat_le.1 h.2
    apply Char.ext
    apply UInt32.toNat_inj.1
    rw [ofNat_val (by show c.val.toNat - 32 < _; omega)]
    show c.val.toNat - 32 = (c.val + ('A'.val - 'a'.val)).toNat
    rw [UInt32.toNat_add]
    have : ('A'.val - 'a'.val).toNat = 4294967264 := by decide
    rw [this]
    omega
  · rw [if_neg (fun h' => h (e1.1 h')), dif_neg h]

theorem lower_char (c : Char) : (if 'A' ≤ c ∧ c ≤ 'Z' then Char.ofNat (c.toNat + 32) else c) = c.toLower := by
  have e1 : ('A' ≤ c ∧ c ≤ 'Z') ↔ ('A'.val ≤ c.val ∧ c.val ≤ 'Z'.val) := Iff.rfl
  unfold Char.toLower
  by_cases h : 'A'.val ≤ c.val ∧ c.val ≤ 'Z'.val
  · rw [if_pos (e1.2 h), dif_pos h]
    have h1 : 65 ≤ c.val.toNat := by simpa using UInt32.le_iff_toNat_le.1 h.1
    have h2 : c.val.toNat ≤ 90 := by simpa using UInt32.le_iff_toNat_le.1 h.2
    apply Char.ext
    apply UInt32.toNat_inj.1
    rw [ofNat_val (by show c.val.toNat + 32 < _; omega)]
    show c.val.toNat + 32 = (c.val + ('a'.val - 'A'.val)).toNat
    rw [UInt32.toNat_add]
    have : ('a'.val - 'A'.val).toNat = 32 := by decide
    rw [this]
    omega
  · rw [if_neg (fun h' => h (e1.1 h')), dif_neg h]

theorem capital_goName (x : List Char) : capital x = goName x := by
  have hl : lower x = x.map Char.toLower := List.map_congr_left fun c _ => lower_char c
  have hu : upper x = x.map Char.toUpper := List.map_congr_left fun c _ => upper_char c
  have hi : commonInitialisms = abbreviations := by decide +kernel
  have ht : Grpc.title x = match x with
      | [] => []
      | c :: cs => c.toUpper :: cs := by
    cases x with
    | nil => rfl
    | cons c cs => simp only [Grpc.title, upper_char]
  unfold capital goName
  rw [hl, hu, hi, ht]
  cases x <;> rfl

end Verif.Thrift
