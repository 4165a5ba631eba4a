import Verif.Grpc.Settle
import Verif.Thrift.Lemmas
/-
Generation ends, also for structs that mention themselves; and it ends with an error only if a
type is not supported.
-/
namespace Verif.Thrift
open Verif.Grpc hiding marshallable makeFieldList generate

theorem loop_settles {env : Structs} {U : List UserTy} {k : Nat}
    (ih : ∀ vis τ, missing U vis ≤ k → Settles fun n => visit env n vis τ) :
    ∀ (τs : List Ty) (vis : List UserTy), missing U vis ≤ k → Settles fun n => loop (visit env n) τs vis
  | [], vis, _ => ⟨0, .ok vis, by simp, fun _ _ => rfl⟩
  | τ :: τs, vis, hv => by
    obtain ⟨N, r, hr, hN⟩ := ih vis τ hv
    match r, hr, hN with
    | .ok v1, _, hN =>
      have hk := (visit_spec env N _ _ _ (hN N (Nat.le_refl _))).keep
      obtain ⟨N', r', hr', hN'⟩ := loop_settles ih τs v1 (Nat.le_trans (missing_le hk) hv)
      refine ⟨max N N', r', hr', fun n hn => ?_⟩
      simp only [loop, hN n (by omega)]
      exact hN' n (by omega)
    | .error, _, hN => exact ⟨N, .error, by simp, fun n hn => by simp only [loop, hN n hn]⟩

theorem visit_settles {env : Structs} {U : List UserTy} (hU : ∀ t, env t ≠ none → t ∈ U) :
    ∀ k vis τ, missing U vis ≤ k → Settles fun n => visit env n vis τ := by
  intro k
  induction k with
  | zero => exact fun b ty h => go hU (fun _ h => absurd h (by omega)) b ty h
  | succ k ih => exact fun b ty h => go hU (fun j hj b ty hb => ih b ty (by omega)) b ty h
where
  go {env : Structs} {U : List UserTy} (hU : ∀ t, env t ≠ none → t ∈ U) {k : Nat}
      (ih : ∀ j, j < k → ∀ vis τ, missing U vis ≤ j → Settles fun n => visit env n vis τ) :
      ∀ vis τ, missing U vis ≤ k → Settles fun n => visit env n vis τ := by
    intro vis τ hv
    induction τ generalizing vis with
    | user t =>
      by_cases hin : t ∈ vis
      · refine ⟨1, .ok vis, by simp, fun n hn => ?_⟩
        match n, hn with
        | n + 1, _ => simp only [visit, if_pos hin]
      · cases hds : env t with
        | none =>
          refine ⟨1, .error, by simp, fun n hn => ?_⟩
          match n, hn with
          | n + 1, _ => simp only [visit, if_neg hin, hds]
        | some ds =>
          have hlt : missing U (vis ++ [t]) < missing U vis :=
            missing_lt (t := t) (fun u hu => List.mem_append.2 (Or.inl hu)) (hU t (by rw [hds]; simp)) hin (by simp)
          obtain ⟨N, r, hr, hN⟩ := loop_settles (ih (k - 1) (by omega)) ((namedFields ds).map (·.2)) (vis ++ [t])
            (by omega)
          refine ⟨N + 1, r, hr, fun n hn => ?_⟩
          match n, hn with
          | n + 1, hn =>
            simp only [visit, if_neg hin, hds]
            exact hN n (by omega)
    | basic b =>
      by_cases hb : (basicToThrift b).isSome = true
      · refine ⟨1, .ok vis, by simp, fun n hn => ?_⟩
        match n, hn with
        | n + 1, _ => simp only [visit, if_pos hb]
      · refine ⟨1, .error, by simp, fun n hn => ?_⟩
        match n, hn with
        | n + 1, _ => simp only [visit, if_neg hb]
    | pointer t ih' =>
      obtain ⟨N, r, hr, hN⟩ := ih' vis hv
      refine ⟨N + 1, r, hr, fun n hn => ?_⟩
      match n, hn with
      | n + 1, hn => exact hN n (by omega)
    | slice t ih' =>
      obtain ⟨N, r, hr, hN⟩ := ih' vis hv
      refine ⟨N + 1, r, hr, fun n hn => ?_⟩
      match n, hn with
      | n + 1, hn => exact hN n (by omega)
    | map κ σ ih1 ih2 =>
      obtain ⟨N, r, hr, hN⟩ := ih1 vis hv
      match r, hr, hN with
      | .ok v1, _, hN =>
        have hk := (visit_spec env N _ _ _ (hN N (Nat.le_refl _))).keep
        obtain ⟨N', r', hr', hN'⟩ := ih2 v1 (Nat.le_trans (missing_le hk) hv)
        refine ⟨max N N' + 1, r', hr', fun n hn => ?_⟩
        match n, hn with
        | n + 1, hn =>
          simp only [visit, hN n (by omega)]
          exact hN' n (by omega)
      | .error, _, hN =>
        refine ⟨N + 1, .error, by simp, fun n hn => ?_⟩
        match n, hn with
        | n + 1, hn => simp only [visit, hN n (by omega)]
    | other =>
      refine ⟨1, .error, by simp, fun n hn => ?_⟩
      match n, hn with
      | n + 1, _ => rfl

theorem generate_settles {env : Structs} {U : List UserTy} (hU : ∀ t, env t ≠ none → t ∈ U)
    (ms : List Method) : Settles fun n => generate env n ms := by
  obtain ⟨N, r, hr, hN⟩ := loop_settles (U := U) (k := missing U []) (visit_settles hU _)
    (ms.flatMap Method.types) [] (Nat.le_refl _)
  simp only at hN
  refine ⟨N, generate env N ms, ?_, fun n hn => ?_⟩
  · unfold generate
    rw [hN N (Nat.le_refl _)]
    match r, hr with
    | .ok vis, _ =>
      simp only
      cases structDecls env vis <;> cases methodDecls ms <;> simp only [ne_eq, reduceCtorEq, not_false_eq_true]
      split <;> simp
    | .error, _ => simp
  · simp only [generate]
    rw [hN N (Nat.le_refl _), hN n hn]

theorem everywhere_field {env : Structs} {P : Ty → Prop} {t : UserTy} {ds : List FieldDecl}
    (h : Everywhere env P (.user t)) (hds : env t = some ds) {f : List Char × Ty} (hf : f ∈ namedFields ds) :
    Everywhere env P f.2 := by
  obtain ⟨d, hd, hne, _, hty⟩ := mem_namedFields hf
  obtain ⟨ds', hds', hP⟩ := h.2 t (.here rfl)
  rw [hds] at hds'
  cases hds'
  refine ⟨hty ▸ hP d hd hne, fun u hu => h.2 u ?_⟩
  rw [← hty] at hu
  exact Reach.of_field hds hd hne hu

theorem everywhere_sub {env : Structs} {σ τ : Ty} (h : Everywhere env Known τ)
    (hk : Known τ → Known σ) (hm : ∀ t, Mentions t σ → Mentions t τ) : Everywhere env Known σ :=
  ⟨hk h.1, fun u hu => h.2 u (Reach.of_mentions hm hu)⟩

theorem loop_error {env : Structs} {n : Nat}
    (hrec : ∀ vis τ, Everywhere env Known τ → visit env n vis τ ≠ .error) :
    ∀ {τs : List Ty} {vis : List UserTy}, (∀ τ ∈ τs, Everywhere env Known τ) → loop (visit env n) τs vis ≠ .error
  | [], vis, _ => by simp [loop]
  | τ :: τs, vis, h => by
    simp only [loop]
    cases h1 : visit env n vis τ with
    | error => exact absurd h1 (hrec _ _ (h τ List.mem_cons_self))
    | stuck => simp
    | ok v1 => exact loop_error hrec fun σ hσ => h σ (List.mem_cons_of_mem _ hσ)

theorem visit_error (env : Structs) : ∀ (n : Nat) (vis : List UserTy) (τ : Ty), Everywhere env Known τ →
    visit env n vis τ ≠ .error
  | 0, _, _, _ => by simp [visit]
  | n + 1, vis, .user t, h => by
    simp only [visit]
    split
    · simp
    · obtain ⟨ds, hds, _⟩ := h.2 t (.here rfl)
      rw [hds]
      refine loop_error (visit_error env n) fun τ hτ => ?_
      obtain ⟨f, hf, rfl⟩ := List.mem_map.1 hτ
      exact everywhere_field h hds hf
  | _ + 1, vis, .basic b, h => by
    simp only [visit, if_pos (known_iff.1 h.1)]
    simp
  | n + 1, vis, .pointer t, h => visit_error env n vis t (everywhere_sub h id fun _ h => h)
  | n + 1, vis, .slice t, h => visit_error env n vis t (everywhere_sub h id fun _ h => h)
  | n + 1, vis, .map k v, h => by
    simp only [visit]
    cases h1 : visit env n vis k with
    | error => exact absurd h1 (visit_error env n vis k (everywhere_sub h And.left fun _ h => Or.inl h))
    | stuck => simp
    | ok v1 => exact visit_error env n v1 v (everywhere_sub h And.right fun _ h => Or.inr h)
  | _ + 1, _, .other, h => h.1.elim

theorem Supported.known {τ : Ty} (h : Supported τ) : Known τ := by
  obtain ⟨r, hr, _⟩ := supported_iff.1 h
  exact getThriftType_isSome.1 (by simp [hr])

theorem everywhere_known {env : Structs} {τ : Ty} (h : Everywhere env Supported τ) : Everywhere env Known τ :=
  ⟨h.1.known, fun t ht => by
    obtain ⟨ds, hds, hP⟩ := h.2 t ht
    exact ⟨ds, hds, fun d hd hne => (hP d hd hne).known⟩⟩

/-- The type of a field is that of an argument or result, or of a field of a reachable
struct. -/
theorem FileOk.field_types {env : Structs} {ms : List Method} {file : File} (h : FileOk env ms file)
    {P : Ty → Prop} : (∀ τ ∈ methodTypes ms, Everywhere env P τ) ↔ ∀ fs ∈ file.fieldLists, ∀ f ∈ fs, P f.src := by
  have key : ∀ (vars : List (List Char × Ty)) (fs : List Field),
      fs.map (fun f => (f.name, f.src)) = named 0 vars → fs.map (·.src) = vars.map (·.2) := by
    intro vars fs h
    rw [← named_types vars 0, ← h, List.map_map]
    rfl
  constructor
  · intro hP fs hfs f hf
    rcases mem_fieldLists.1 hfs with ⟨e, he, hh⟩ | ⟨e, he, rfl⟩
    · obtain ⟨m, hm, h1, h2, h3⟩ := h.vars e he
      have : f.src ∈ m.args.map (·.2) ++ m.rets.map (·.2) := by
        rw [← key _ _ h2, ← key _ _ h3]
        rcases hh with rfl | rfl
        · exact List.mem_append.2 (Or.inl (List.mem_map.2 ⟨f, hf, rfl⟩))
        · exact List.mem_append.2 (Or.inr (List.mem_map.2 ⟨f, hf, rfl⟩))
      exact (hP _ (List.mem_flatMap.2 ⟨m, hm, this⟩)).1
    · obtain ⟨ds, hds, hfs⟩ := h.structs e he
      obtain ⟨τ, hτ, hr⟩ := (h.reach e.1).1 (List.mem_map.2 ⟨e, he, rfl⟩)
      obtain ⟨ds', hds', hd⟩ := (hP τ hτ).2 _ hr
      rw [hds] at hds'
      cases hds'
      have : (f.name, f.src) ∈ namedFields ds := hfs ▸ List.mem_map.2 ⟨f, hf, rfl⟩
      obtain ⟨d, hd1, hd2, _, hd4⟩ := mem_namedFields this
      have := hd d hd1 hd2
      rwa [hd4] at this
  · intro hP τ hτ
    refine ⟨?_, ?_⟩
    · obtain ⟨m, hm, hmem⟩ := List.mem_flatMap.1 hτ
      obtain ⟨e, he, _, h2, h3⟩ := h.all m hm
      rw [← key _ _ h2, ← key _ _ h3] at hmem
      rcases List.mem_append.1 hmem with hh | hh
      · obtain ⟨f, hf, rfl⟩ := List.mem_map.1 hh
        exact hP _ (mem_fieldLists.2 (Or.inl ⟨e, he, Or.inl rfl⟩)) f hf
      · obtain ⟨f, hf, rfl⟩ := List.mem_map.1 hh
        exact hP _ (mem_fieldLists.2 (Or.inl ⟨e, he, Or.inr rfl⟩)) f hf
    · intro t ht
      obtain ⟨e, he, rfl⟩ := List.mem_map.1 ((h.reach t).2 ⟨τ, hτ, ht⟩)
      obtain ⟨ds, hds, hfs⟩ := h.structs e he
      refine ⟨ds, hds, fun d hd hne => ?_⟩
      obtain ⟨x, hx⟩ := namedFields_mem hd hne
      rw [← hfs] at hx
      obtain ⟨f, hf, hfe⟩ := List.mem_map.1 hx
      have := hP e.2 (mem_fieldLists.2 (Or.inr ⟨e, he, rfl⟩)) f hf
      rw [(Prod.mk.inj hfe).2] at this
      exact this

end Verif.Thrift
