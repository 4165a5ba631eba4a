import Verif.Grpc.Settle
/-
What a generated file declares.
-/
namespace Verif.Grpc

/-- The fields of a request or response, without the builder. -/
def varFields (base : Str) : Nat → List (Str × Ty) → Option (List Field)
  | _, [] => some []
  | i, (x, ty) :: vars => match protoOf base ty with
    | none => none
    | some r => (varFields base (i + 1) vars).map (⟨ty, r.1, r.2, argName i x, i + 1⟩ :: ·)

theorem makeFieldList_good {env : Structs} {n : Nat} {R : UserTy → Prop} :
    ∀ (vars : List (Str × Ty)) (i : Nat) (b b' : Builder) (fs : List Field),
    makeFieldList env n i b vars = .ok (b', fs) → (∀ v ∈ vars, ∀ u, Reach env v.2 u → R u) →
    varFields b.name i vars = some fs ∧ Ext env R b b' ∧
      ∀ v ∈ vars, ∀ u, Mentions u v.2 → u ∈ keys b'
  | [], i, b, b', fs, h, _ => by
    simp only [makeFieldList, Res.ok.injEq, Prod.mk.injEq] at h
    obtain ⟨rfl, rfl⟩ := h
    exact ⟨rfl, .refl, by simp⟩
  | (x, ty) :: vars, i, b, b', fs, h, hR => by
    rw [makeFieldList] at h
    split at h
    · rename_i b1 p g hr
      obtain ⟨r1, r2, r3⟩ := getGRPCType_good env n _ _ _ _ _ hr
      split at h
      · rename_i b2 fs2 hr2
        simp only [Res.ok.injEq, Prod.mk.injEq] at h
        obtain ⟨rfl, rfl⟩ := h
        obtain ⟨k1, k2, k3⟩ := makeFieldList_good vars (i + 1) b1 b2 fs2 hr2
          fun v hv => hR v (List.mem_cons_of_mem _ hv)
        rw [r2.1] at k1
        refine ⟨by simp [varFields, r1, k1], (r2.mono (hR _ List.mem_cons_self)).trans k2, ?_⟩
        intro v hv
        rcases List.mem_cons.1 hv with rfl | hv
        · exact fun u hu => k2.keys u (r3 u hu)
        · exact k3 v hv
      · cases h
      · cases h
    · cases h
    · cases h

theorem addService_good {env : Structs} {n : Nat} {R : UserTy → Prop} :
    ∀ (ms : List Method) (b : Builder) (file : File),
    addService env n b ms = .ok file → (∀ τ ∈ methodTypes ms, ∀ u, Reach env τ u → R u) →
    Ext env R b file.builder ∧
    (∀ τ ∈ methodTypes ms, ∀ u, Mentions u τ → u ∈ keys file.builder) ∧
    file.methods.map (·.1) = ms.map (·.name) ∧
    (∀ e ∈ file.methods, ∃ m ∈ ms, e.1 = m.name ∧ varFields b.name 0 m.args = some e.2.1 ∧
      varFields b.name 0 m.rets = some e.2.2) ∧
    (∀ m ∈ ms, ∃ req rsp, (m.name, req, rsp) ∈ file.methods ∧ varFields b.name 0 m.args = some req ∧
      varFields b.name 0 m.rets = some rsp)
  | [], b, file, h, _ => by
    simp only [addService, Res.ok.injEq] at h
    subst h
    exact ⟨.refl, by simp [methodTypes], rfl, by simp, by simp⟩
  | m :: ms, b, file, h, hR => by
    rw [addService] at h
    split at h
    · rename_i b1 req hr
      split at h
      · rename_i b2 rsp hr2
        split at h
        · rename_i file' hr3
          simp only [Res.ok.injEq] at h
          subst h
          have hmem : ∀ v, v ∈ m.args ∨ v ∈ m.rets → v.2 ∈ methodTypes (m :: ms) := by
            intro v hv
            simp only [methodTypes, List.flatMap_cons, List.mem_append, List.mem_map]
            rcases hv with hv | hv
            · exact Or.inl (Or.inl ⟨v, hv, rfl⟩)
            · exact Or.inl (Or.inr ⟨v, hv, rfl⟩)
          obtain ⟨r1, r2, r3⟩ := makeFieldList_good (R := R) _ _ _ _ _ hr
            fun v hv => hR _ (hmem v (Or.inl hv))
          obtain ⟨s1, s2, s3⟩ := makeFieldList_good (R := R) _ _ _ _ _ hr2
            fun v hv => hR _ (hmem v (Or.inr hv))
          obtain ⟨t1, t2, t3, t4, t5⟩ := addService_good (R := R) ms b2 file' hr3 (by
            intro τ hτ
            refine hR τ ?_
            simp only [methodTypes, List.flatMap_cons, List.mem_append]
            exact Or.inr hτ)
          rw [r2.1] at s1
          rw [s2.1, r2.1] at t4 t5
          refine ⟨(r2.trans s2).trans t1, ?_, by simp [t3], ?_, ?_⟩
          · intro τ hτ u hu
            simp only [methodTypes, List.flatMap_cons, List.mem_append, List.mem_map] at hτ
            rcases hτ with (⟨v, hv, rfl⟩ | ⟨v, hv, rfl⟩) | hτ
            · exact t1.keys _ (s2.keys _ (r3 v hv u hu))
            · exact t1.keys _ (s3 v hv u hu)
            · exact t2 τ hτ u hu
          · intro e he
            rcases List.mem_cons.1 he with rfl | he
            · exact ⟨m, List.mem_cons_self, rfl, r1, s1⟩
            · obtain ⟨m', hm', h'⟩ := t4 e he
              exact ⟨m', List.mem_cons_of_mem _ hm', h'⟩
          · intro m' hm'
            rcases List.mem_cons.1 hm' with rfl | hm'
            · exact ⟨req, rsp, List.mem_cons_self, r1, s1⟩
            · obtain ⟨req', rsp', h1, h2⟩ := t5 m' hm'
              exact ⟨req', rsp', List.mem_cons_of_mem _ h1, h2⟩
        · cases h
        · cases h
      · cases h
      · cases h
    · cases h
    · cases h

/-- What a generated file declares: the messages of all methods, and the messages of exactly
the structs that their types contain. -/
structure FileOk (env : Structs) (base : Str) (ms : List Method) (file : File) : Prop where
  name : file.builder.name = base
  names : file.methods.map (·.1) = ms.map (·.name)
  sound : ∀ e ∈ file.methods, ∃ m ∈ ms, e.1 = m.name ∧ varFields base 0 m.args = some e.2.1 ∧
      varFields base 0 m.rets = some e.2.2
  methods : ∀ m ∈ ms, ∃ req rsp, (m.name, req, rsp) ∈ file.methods ∧ varFields base 0 m.args = some req ∧
      varFields base 0 m.rets = some rsp
  nodup : (keys file.builder).Nodup
  structs : ∀ e ∈ file.builder.structs, ∃ ds, env e.1 = some ds ∧
      fieldsFor base (parseFields ds) [] = some e.2
  reach : ∀ t, t ∈ keys file.builder ↔ ∃ τ ∈ methodTypes ms, Reach env τ t

theorem fieldsFor_srcs {base : Str} : ∀ (fs : List ParsedField) (acc out : List Field),
    fieldsFor base fs acc = some out →
    (∀ f ∈ acc, f ∈ out) ∧ ∀ p ∈ fs, p.name.isSome = true → ∃ f ∈ out, f.src = p.ty
  | [], acc, out, h => by
    simp only [fieldsFor, Option.some.injEq] at h
    subst h
    exact ⟨fun f hf => hf, by simp⟩
  | ⟨none, ty⟩ :: fs, acc, out, h => by
    rw [fieldsFor] at h
    obtain ⟨h1, h2⟩ := fieldsFor_srcs fs acc out h
    refine ⟨h1, ?_⟩
    intro p hp hs
    rcases List.mem_cons.1 hp with rfl | hp
    · cases hs
    · exact h2 p hp hs
  | ⟨some x, ty⟩ :: fs, acc, out, h => by
    rw [fieldsFor] at h
    split at h
    · rename_i r hr
      obtain ⟨h1, h2⟩ := fieldsFor_srcs fs _ out h
      refine ⟨fun f hf => h1 f (List.mem_append.2 (Or.inl hf)), ?_⟩
      intro p hp hs
      rcases List.mem_cons.1 hp with rfl | hp
      · exact ⟨_, h1 _ (List.mem_append.2 (Or.inr (List.mem_singleton.2 rfl))), rfl⟩
      · exact h2 p hp hs
    · cases h

theorem addService_fileOk {env : Structs} {n : Nat} {base : Str} {ms : List Method} {file : File}
    (h : addService env n ⟨base, []⟩ ms = .ok file) : FileOk env base ms file := by
  obtain ⟨⟨h1, new, h2, h3⟩, h4, h5, h6, h7⟩ := addService_good
    (R := fun t => ∃ τ ∈ methodTypes ms, Reach env τ t) ms _ file h fun τ hτ u hu => ⟨τ, hτ, hu⟩
  simp only [List.nil_append] at h2
  refine ⟨h1, h5, h6, h7, ?_, ?_, ?_⟩
  · rw [keys, h2]
    exact h3.nodup
  · intro e he
    rw [h2] at he
    exact h3.complete e he
  · intro t
    constructor
    · intro ht
      obtain ⟨e, he, rfl⟩ := List.mem_map.1 ht
      rw [h2] at he
      exact h3.reach e he
    · rintro ⟨τ, hτ, hr⟩
      induction hr with
      | here hm => exact h4 τ hτ _ hm
      | @field t ds d u _ hds hd hdn hm ih =>
        obtain ⟨e, he, rfl⟩ := List.mem_map.1 ih
        rw [h2] at he
        obtain ⟨ds', hds', hf⟩ := h3.complete e he
        have : ds' = ds := Option.some.inj (hds'.symm.trans hds)
        subst this
        have hp : (⟨d.names.head?, d.ty⟩ : ParsedField) ∈ parseFields ds' := List.mem_map.2 ⟨d, hd, rfl⟩
        obtain ⟨f, hf', hsrc⟩ := (fieldsFor_srcs _ _ _ hf).2 _ hp (by
          cases hn : d.names with
          | nil => exact absurd hn hdn
          | cons a l => rfl)
        exact h3.closed e he f hf' _ (hsrc ▸ hm)

theorem generate_ok {env : Structs} {n : Nat} {base : Str} {ms : List Method} {file : File}
    (h : generate env n base ms = .ok file) : FileOk env base ms file ∧
      ∀ fs ∈ file.fieldLists, ∀ f ∈ fs, f.marshall.isSome = true ∧ f.unmarshall.isSome = true := by
  rw [generate] at h
  split at h
  · rename_i file' hf
    split at h
    · rename_i hall
      simp only [Res.ok.injEq] at h
      subst h
      refine ⟨addService_fileOk hf, ?_⟩
      intro fs hfs f hf'
      have := List.all_eq_true.1 (List.all_eq_true.1 hall fs hfs) f hf'
      simpa [Bool.and_eq_true] using this
    · cases h
  · cases h
  · cases h

/-! ### Which types are supported -/

theorem knownBasic_iff {b : Basic} : KnownBasic b ↔ ∃ s, basicToGrpc b = some s := by
  cases b <;> simp [KnownBasic, basicToGrpc]

/-- Statements are generated for a Go type. -/
def marshallable : GTy → Bool
  | .user _ | .basic _ | .pointer (.user _) | .pointer (.basic _) | .map _ (.user _) | .map _ (.basic _)
  | .slice (.user _) | .slice (.basic _) => true
  | _ => false

theorem marshall_isSome (f : Field) : f.marshall.isSome = marshallable f.grpc := by
  unfold Field.marshall
  split <;> (rename_i h; simp [h, marshallable]) <;> grind [marshallable]

theorem unmarshall_isSome (f : Field) : f.unmarshall.isSome = marshallable f.grpc := by
  unfold Field.unmarshall
  split <;> (rename_i h; simp [h, marshallable]) <;> grind [marshallable]

theorem protoOf_slice {base : Str} {t : Ty} (hb : t ≠ .basic .byte) (hm : ∀ k v, t ≠ .map k v) :
    protoOf base (.slice t) = (protoOf base t).map fun r => (.repeated r.1, .slice r.2) := by
  rw [protoOf, if_neg hb]
  exact fun k v h => hm k v h

theorem protoOf_slice_map {base : Str} {k v : Ty} : protoOf base (.slice (.map k v)) = none := by
  rw [protoOf]
  simp

theorem simple_iff {base : Str} {τ : Ty} : Simple τ ↔
    ∃ p g, protoOf base τ = some (p, g) ∧ ((∃ t, g = .user t) ∨ ∃ b, g = .basic b) := by
  cases τ with
  | user t => exact iff_of_true trivial ⟨_, _, rfl, Or.inl ⟨_, rfl⟩⟩
  | basic b =>
    simp only [Simple, knownBasic_iff, protoOf]
    constructor
    · rintro ⟨s, hs⟩
      exact ⟨_, _, by rw [hs]; rfl, Or.inr ⟨_, rfl⟩⟩
    · rintro ⟨p, g, h, _⟩
      obtain ⟨s, hs, _⟩ := Option.map_eq_some_iff.1 h
      exact ⟨s, hs⟩
  | pointer t =>
    simp only [Simple, protoOf, false_iff, not_exists, not_and, not_or]
    intro p g h
    obtain ⟨r, _, hr⟩ := Option.map_eq_some_iff.1 h
    obtain ⟨_, rfl⟩ := Prod.mk.inj hr
    exact ⟨by simp, by simp⟩
  | map k v =>
    simp only [Simple, protoOf, false_iff, not_exists, not_and, not_or]
    intro p g h
    obtain ⟨s, _, h⟩ := Option.bind_eq_some_iff.1 h
    obtain ⟨r, _, hr⟩ := Option.map_eq_some_iff.1 h
    obtain ⟨_, rfl⟩ := Prod.mk.inj hr
    exact ⟨by simp, by simp⟩
  | slice t =>
    simp only [Simple, false_iff, not_exists, not_and, not_or]
    intro p g h
    have : ∃ g', g = .slice g' := by
      by_cases hb : t = .basic .byte
      · subst hb
        simp only [protoOf, if_true, Option.some.injEq, Prod.mk.injEq] at h
        exact ⟨_, h.2.symm⟩
      · cases t with
        | map k v => rw [protoOf_slice_map] at h; cases h
        | _ =>
          rw [protoOf_slice hb (by simp)] at h
          obtain ⟨r, _, hr⟩ := Option.map_eq_some_iff.1 h
          exact ⟨_, (Prod.mk.inj hr).2.symm⟩
    obtain ⟨g', rfl⟩ := this
    exact ⟨by simp, by simp⟩
  | other => simp [Simple, protoOf]

theorem mapKey_iff {κ : Ty} : (∃ s, getMapKeyType κ = some s) ↔
    ∃ b, κ = .basic b ∧ KnownBasic b ∧ b ≠ .byte ∧ b ≠ .rune ∧ b ≠ .float32 ∧ b ≠ .float64 := by
  cases κ with
  | basic b => cases b <;> simp [getMapKeyType, basicToGrpc, KnownBasic]
  | _ => simp [getMapKeyType]

theorem marshallable_wrap {g : GTy} : ((∃ t, g = .user t) ∨ ∃ b, g = .basic b) ↔
    marshallable (.pointer g) = true := by
  cases g <;> simp [marshallable]

theorem supported_iff {base : Str} {τ : Ty} : Supported τ ↔
    ∃ p g, protoOf base τ = some (p, g) ∧ marshallable g = true := by
  cases τ with
  | user t => exact iff_of_true trivial ⟨_, _, rfl, rfl⟩
  | basic b =>
    show Simple (.basic b) ↔ _
    rw [simple_iff (base := base)]
    constructor
    · rintro ⟨p, g, h, h' | h'⟩ <;> obtain ⟨_, rfl⟩ := h' <;> exact ⟨p, _, h, rfl⟩
    · rintro ⟨p, g, h, _⟩
      obtain ⟨s, _, hs⟩ := Option.map_eq_some_iff.1 h
      exact ⟨p, g, h, Or.inr ⟨_, (Prod.mk.inj hs).2.symm⟩⟩
  | pointer t =>
    show Simple t ↔ _
    rw [simple_iff (base := base)]
    constructor
    · rintro ⟨p, g, h, h'⟩
      exact ⟨p, .pointer g, by simp [protoOf, h], marshallable_wrap.1 h'⟩
    · rintro ⟨p, g, h, h'⟩
      obtain ⟨⟨p', g'⟩, hr, hs⟩ := Option.map_eq_some_iff.1 h
      obtain ⟨rfl, rfl⟩ := Prod.mk.inj hs
      exact ⟨_, _, hr, marshallable_wrap.2 h'⟩
  | map κ v =>
    have hs : Supported (.map κ v) ↔ (∃ s, getMapKeyType κ = some s) ∧ Simple v := by
      rw [mapKey_iff]
      cases κ with
      | basic b => simp [Supported, and_assoc]
      | _ => simp [Supported, Simple]
    rw [hs, simple_iff (base := base)]
    constructor
    · rintro ⟨⟨s, hs⟩, p, g, h, h'⟩
      refine ⟨.map s p, .map κ g, by simp [protoOf, hs, h], ?_⟩
      rcases h' with ⟨_, rfl⟩ | ⟨_, rfl⟩ <;> rfl
    · rintro ⟨p, g, h, h'⟩
      obtain ⟨s, hs, h⟩ := Option.bind_eq_some_iff.1 h
      obtain ⟨⟨p', g'⟩, hr, hs'⟩ := Option.map_eq_some_iff.1 h
      obtain ⟨rfl, rfl⟩ := Prod.mk.inj hs'
      refine ⟨⟨s, hs⟩, p', g', hr, ?_⟩
      cases g' <;> simp [marshallable] at h' ⊢
  | slice t =>
    show Simple t ↔ _
    by_cases hb : t = .basic .byte
    · subst hb
      exact iff_of_true (by simp [Simple, KnownBasic]) ⟨_, _, rfl, rfl⟩
    · cases t with
      | map k v => simp [protoOf_slice_map, Simple]
      | _ =>
        rw [simple_iff (base := base)]
        constructor
        · rintro ⟨p, g, h, h'⟩
          refine ⟨.repeated p, .slice g, by rw [protoOf_slice hb (by simp), h]; rfl, ?_⟩
          rcases h' with ⟨_, rfl⟩ | ⟨_, rfl⟩ <;> rfl
        · rintro ⟨p, g, h, h'⟩
          rw [protoOf_slice hb (by simp)] at h
          obtain ⟨⟨p', g'⟩, hr, hs⟩ := Option.map_eq_some_iff.1 h
          obtain ⟨rfl, rfl⟩ := Prod.mk.inj hs
          refine ⟨p', g', hr, ?_⟩
          cases g' <;> simp [marshallable] at h' ⊢
  | other => simp [Supported, Simple, protoOf]

/-! ### Generation succeeds for exactly the supported types -/

theorem addFields_not_error {env : Structs} {n : Nat} {t : UserTy} {P : Ty → Prop}
    (hrec : ∀ b ty, P ty → getGRPCType env n b ty ≠ .error) : ∀ (fs : List ParsedField) (b : Builder),
    (∀ p ∈ fs, p.name.isSome = true → P p.ty) → addFields (getGRPCType env n) t fs b ≠ .error
  | [], b, _ => by simp [addFields]
  | ⟨none, ty⟩ :: fs, b, h => by
    rw [addFields]
    exact addFields_not_error hrec fs b fun p hp => h p (List.mem_cons_of_mem _ hp)
  | ⟨some x, ty⟩ :: fs, b, h => by
    rw [addFields]
    split
    · exact addFields_not_error hrec fs _ fun p hp => h p (List.mem_cons_of_mem _ hp)
    · rename_i he
      exact absurd he (hrec b ty (h _ List.mem_cons_self rfl))
    · simp

/-- All types translate. -/
def Translates (env : Structs) (base : Str) (τ : Ty) : Prop :=
  Everywhere env (fun τ => protoOf base τ ≠ none) τ

theorem protoOf_name {base base' : Str} {τ : Ty} (h : protoOf base τ ≠ none) : protoOf base' τ ≠ none := by
  induction τ with
  | user t => simp [protoOf]
  | basic b => simpa [protoOf] using h
  | pointer t ih =>
    simp only [protoOf, ne_eq, Option.map_eq_none_iff] at h ⊢
    exact ih h
  | map k v _ ih =>
    simp only [protoOf] at h ⊢
    cases hk : getMapKeyType k with
    | none => simp [hk] at h
    | some s =>
      simp only [hk, Option.bind_some, ne_eq, Option.map_eq_none_iff] at h ⊢
      exact ih h
  | slice t ih =>
    by_cases hb : t = .basic .byte
    · subst hb; simp [protoOf]
    · cases t with
      | map k v => rw [protoOf_slice_map] at h; exact absurd rfl h
      | _ =>
        rw [protoOf_slice hb (by simp)] at h ⊢
        simp only [ne_eq, Option.map_eq_none_iff] at h ih ⊢
        exact ih h
  | other => exact h

theorem getGRPCType_not_error {env : Structs} {base : Str} : ∀ (n : Nat) (b : Builder) (ty : Ty),
    Translates env base ty → getGRPCType env n b ty ≠ .error
  | 0, b, ty, _ => by simp [getGRPCType]
  | n + 1, b, ty, h => by
    have ih := getGRPCType_not_error (env := env) (base := base) n
    cases ty with
    | user t =>
      rw [getGRPCType]
      obtain ⟨ds, hds, hd⟩ := h.2 t (.here rfl)
      split
      · simp
      · simp only [hds]
        have := addFields_not_error (t := t) (P := Translates env base) ih (parseFields ds)
          { b with structs := b.structs ++ [(t, [])] } (by
          intro p hp hs
          obtain ⟨d, hd', hdn, hty⟩ := parseFields_mem hp hs
          rw [hty]
          exact ⟨hd d hd' hdn, fun u hu => h.2 u (Reach.of_field hds hd' hdn hu)⟩)
        split <;> simp_all
    | basic s =>
      have := h.1
      simp only [protoOf, ne_eq, Option.map_eq_none_iff] at this
      rw [getGRPCType]
      split <;> simp_all
    | pointer t =>
      have h1 := h.1
      simp only [protoOf, ne_eq, Option.map_eq_none_iff] at h1
      have := ih b t ⟨h1, fun u hu => h.2 u (Reach.of_mentions (by intro _ h; exact h) hu)⟩
      rw [getGRPCType]
      split <;> simp_all
    | map k v =>
      have h1 := h.1
      simp only [protoOf] at h1
      rw [getGRPCType]
      cases hk : getMapKeyType k with
      | none => simp [hk] at h1
      | some s =>
        simp only [hk, Option.bind_some, ne_eq, Option.map_eq_none_iff] at h1 ⊢
        have := ih b v ⟨h1, fun u hu => h.2 u (Reach.of_mentions (fun _ h => Or.inr h) hu)⟩
        split <;> simp_all
    | slice t =>
      have h1 := h.1
      by_cases hb : t = .basic .byte
      · subst hb; simp [getGRPCType]
      · cases t with
        | map k v => rw [protoOf_slice_map] at h1; exact absurd rfl h1
        | _ =>
          rw [protoOf_slice hb (by simp)] at h1
          simp only [ne_eq, Option.map_eq_none_iff] at h1
          have := ih b _ ⟨h1, fun u hu => h.2 u (Reach.of_mentions (by intro _ h; exact h) hu)⟩
          simp only [getGRPCType, if_neg hb]
          split <;> simp_all
    | other => exact absurd rfl h.1

theorem makeFieldList_not_error {env : Structs} {base : Str} {n : Nat} :
    ∀ (vars : List (Str × Ty)) (i : Nat) (b : Builder), (∀ v ∈ vars, Translates env base v.2) →
    makeFieldList env n i b vars ≠ .error
  | [], i, b, _ => by simp [makeFieldList]
  | (x, ty) :: vars, i, b, h => by
    rw [makeFieldList]
    split
    · rename_i b1 p g _
      have := makeFieldList_not_error (env := env) (base := base) (n := n) vars (i + 1) b1
        fun v hv => h v (List.mem_cons_of_mem _ hv)
      split <;> simp_all
    · rename_i he
      exact absurd he (getGRPCType_not_error n b ty (h _ List.mem_cons_self))
    · simp

theorem addService_not_error {env : Structs} {base : Str} {n : Nat} :
    ∀ (ms : List Method) (b : Builder), (∀ τ ∈ methodTypes ms, Translates env base τ) →
    addService env n b ms ≠ .error
  | [], b, _ => by simp [addService]
  | m :: ms, b, h => by
    have hm : ∀ v, v ∈ m.args ∨ v ∈ m.rets → Translates env base v.2 := by
      intro v hv
      refine h _ ?_
      simp only [methodTypes, List.flatMap_cons, List.mem_append, List.mem_map]
      rcases hv with hv | hv
      · exact Or.inl (Or.inl ⟨v, hv, rfl⟩)
      · exact Or.inl (Or.inr ⟨v, hv, rfl⟩)
    rw [addService]
    split
    · split
      · rename_i b2 _ _
        have := addService_not_error (env := env) (base := base) (n := n) ms b2 (by
          intro τ hτ
          refine h τ ?_
          simp only [methodTypes, List.flatMap_cons, List.mem_append]
          exact Or.inr hτ)
        split <;> simp_all
      · rename_i he
        exact absurd he (makeFieldList_not_error _ _ _ fun v hv => hm v (Or.inr hv))
      · simp
    · rename_i he
      exact absurd he (makeFieldList_not_error _ _ _ fun v hv => hm v (Or.inl hv))
    · simp

theorem fieldsFor_proto {base : Str} : ∀ (fs : List ParsedField) (acc out : List Field),
    fieldsFor base fs acc = some out → (∀ f ∈ acc, protoOf base f.src = some (f.proto, f.grpc)) →
    ∀ f ∈ out, protoOf base f.src = some (f.proto, f.grpc)
  | [], acc, out, h, ha => by
    simp only [fieldsFor, Option.some.injEq] at h
    exact h ▸ ha
  | ⟨none, ty⟩ :: fs, acc, out, h, ha => by
    rw [fieldsFor] at h
    exact fieldsFor_proto fs acc out h ha
  | ⟨some x, ty⟩ :: fs, acc, out, h, ha => by
    rw [fieldsFor] at h
    split at h
    · rename_i r hr
      refine fieldsFor_proto fs _ out h ?_
      intro f hf
      rcases List.mem_append.1 hf with h' | h'
      · exact ha f h'
      · rw [List.mem_singleton.1 h']
        exact hr
    · cases h

theorem varFields_spec {base : Str} : ∀ (vars : List (Str × Ty)) (i : Nat) (fs : List Field),
    varFields base i vars = some fs →
    (∀ f ∈ fs, protoOf base f.src = some (f.proto, f.grpc) ∧ ∃ v ∈ vars, f.src = v.2) ∧
    (∀ v ∈ vars, ∃ f ∈ fs, f.src = v.2) ∧
    fs.map (fun f => (f.name, f.src)) = named i vars
  | [], i, fs, h => by
    simp only [varFields, Option.some.injEq] at h
    subst h
    simp [named]
  | (x, ty) :: vars, i, fs, h => by
    rw [varFields] at h
    split at h
    · cases h
    · rename_i r hr
      obtain ⟨fs', hfs', rfl⟩ := Option.map_eq_some_iff.1 h
      obtain ⟨h1, h2, h3⟩ := varFields_spec vars (i + 1) fs' hfs'
      refine ⟨?_, ?_, ?_⟩
      · intro f hf
        rcases List.mem_cons.1 hf with rfl | hf
        · exact ⟨hr, _, List.mem_cons_self, rfl⟩
        · obtain ⟨k1, v, k2, k3⟩ := h1 f hf
          exact ⟨k1, v, List.mem_cons_of_mem _ k2, k3⟩
      · intro v hv
        rcases List.mem_cons.1 hv with rfl | hv
        · exact ⟨_, List.mem_cons_self, rfl⟩
        · obtain ⟨f, k1, k2⟩ := h2 v hv
          exact ⟨f, List.mem_cons_of_mem _ k1, k2⟩
      · simp only [List.map_cons, h3, named, argName]
        rfl

/-- The lists of fields of a file. -/
theorem mem_fieldLists {file : File} {fs : List Field} : fs ∈ file.fieldLists ↔
    (∃ e ∈ file.methods, fs = e.2.1 ∨ fs = e.2.2) ∨ ∃ e ∈ file.builder.structs, fs = e.2 := by
  simp only [File.fieldLists, List.mem_append, List.mem_flatMap, List.mem_cons, List.not_mem_nil, or_false,
    List.mem_map, eq_comm (a := fs)]

/-- The fields of a file translate the types of the methods, and of the fields of their
structs. -/
theorem FileOk.field {env : Structs} {base : Str} {ms : List Method} {file : File}
    (h : FileOk env base ms file) {fs : List Field} (hfs : fs ∈ file.fieldLists) {f : Field} (hf : f ∈ fs) :
    protoOf base f.src = some (f.proto, f.grpc) ∧
    (f.src ∈ methodTypes ms ∨ ∃ t ds d, (∃ τ ∈ methodTypes ms, Reach env τ t) ∧ env t = some ds ∧ d ∈ ds ∧
      d.names ≠ [] ∧ f.src = d.ty) := by
  rcases mem_fieldLists.1 hfs with ⟨e, he, hor⟩ | ⟨e, he, rfl⟩
  · obtain ⟨m, hm, _, ha, hr⟩ := h.sound e he
    have hmem : ∀ v, v ∈ m.args ∨ v ∈ m.rets → v.2 ∈ methodTypes ms := by
      intro v hv
      refine List.mem_flatMap.2 ⟨m, hm, ?_⟩
      simp only [List.mem_append, List.mem_map]
      rcases hv with hv | hv
      · exact Or.inl ⟨v, hv, rfl⟩
      · exact Or.inr ⟨v, hv, rfl⟩
    rcases hor with rfl | rfl
    · obtain ⟨k1, v, k2, k3⟩ := (varFields_spec _ _ _ ha).1 f hf
      exact ⟨k1, Or.inl (k3 ▸ hmem v (Or.inl k2))⟩
    · obtain ⟨k1, v, k2, k3⟩ := (varFields_spec _ _ _ hr).1 f hf
      exact ⟨k1, Or.inl (k3 ▸ hmem v (Or.inr k2))⟩
  · obtain ⟨ds, hds, hff⟩ := h.structs e he
    refine ⟨fieldsFor_proto _ _ _ hff (by simp) f hf, Or.inr ?_⟩
    obtain ⟨d, hd, hdn, hty⟩ := fieldsFor_src (R := fun ty => ∃ d ∈ ds, d.names ≠ [] ∧ ty = d.ty) _ _ _ hff
      (by simp) (fun p hp hs => parseFields_mem hp hs) f hf
    exact ⟨e.1, ds, d, (h.reach e.1).1 (List.mem_map.2 ⟨e, he, rfl⟩), hds, hd, hdn, hty⟩

theorem FileOk.supported {env : Structs} {base : Str} {ms : List Method} {file : File}
    (h : FileOk env base ms file)
    (hm : ∀ fs ∈ file.fieldLists, ∀ f ∈ fs, f.marshall.isSome = true ∧ f.unmarshall.isSome = true) :
    ∀ τ ∈ methodTypes ms, Everywhere env Supported τ := by
  have hsup : ∀ fs ∈ file.fieldLists, ∀ f ∈ fs, Supported f.src := by
    intro fs hfs f hf
    have := (hm fs hfs f hf).1
    rw [marshall_isSome] at this
    exact (supported_iff (base := base)).2 ⟨_, _, (h.field hfs hf).1, this⟩
  intro τ hτ
  refine ⟨?_, ?_⟩
  · obtain ⟨m, hm', hτ'⟩ := List.mem_flatMap.1 hτ
    obtain ⟨req, rsp, hmem, h1, h2⟩ := h.methods m hm'
    rcases List.mem_append.1 hτ' with h' | h'
    · obtain ⟨v, hv, rfl⟩ := List.mem_map.1 h'
      obtain ⟨f, hf, hsrc⟩ := (varFields_spec _ _ _ h1).2.1 v hv
      exact hsrc ▸ hsup req (mem_fieldLists.2 (Or.inl ⟨_, hmem, Or.inl rfl⟩)) f hf
    · obtain ⟨v, hv, rfl⟩ := List.mem_map.1 h'
      obtain ⟨f, hf, hsrc⟩ := (varFields_spec _ _ _ h2).2.1 v hv
      exact hsrc ▸ hsup rsp (mem_fieldLists.2 (Or.inl ⟨_, hmem, Or.inr rfl⟩)) f hf
  · intro t ht
    obtain ⟨e, he, rfl⟩ := List.mem_map.1 ((h.reach t).2 ⟨τ, hτ, ht⟩)
    obtain ⟨ds, hds, hff⟩ := h.structs e he
    refine ⟨ds, hds, ?_⟩
    intro d hd hdn
    have hp : (⟨d.names.head?, d.ty⟩ : ParsedField) ∈ parseFields ds := List.mem_map.2 ⟨d, hd, rfl⟩
    obtain ⟨f, hf', hsrc⟩ := (fieldsFor_srcs _ _ _ hff).2 _ hp (by
      cases hn : d.names with
      | nil => exact absurd hn hdn
      | cons a l => rfl)
    exact (show f.src = d.ty from hsrc) ▸ hsup e.2 (mem_fieldLists.2 (Or.inr ⟨e, he, rfl⟩)) f hf'

theorem supported_translates {env : Structs} {base : Str} {τ : Ty} (h : Everywhere env Supported τ) :
    Translates env base τ := by
  have hs : ∀ σ, Supported σ → protoOf base σ ≠ none := by
    intro σ hσ
    obtain ⟨p, g, hp, _⟩ := (supported_iff (base := base)).1 hσ
    rw [hp]
    simp
  refine ⟨hs _ h.1, ?_⟩
  intro t ht
  obtain ⟨ds, h1, h2⟩ := h.2 t ht
  exact ⟨ds, h1, fun d hd hdn => hs _ (h2 d hd hdn)⟩

theorem generate_not_error {env : Structs} {base : Str} {ms : List Method} {n : Nat}
    (h : ∀ τ ∈ methodTypes ms, Everywhere env Supported τ) : generate env n base ms ≠ .error := by
  have h1 := addService_not_error (n := n) ms ⟨base, []⟩ fun τ hτ => supported_translates (base := base) (h τ hτ)
  rw [generate]
  split
  · rename_i file hf
    have hok := addService_fileOk hf
    rw [if_pos]
    · simp
    refine List.all_eq_true.2 fun fs hfs => List.all_eq_true.2 fun f hf' => ?_
    rw [marshall_isSome, unmarshall_isSome, Bool.and_self]
    obtain ⟨hp, hsrc⟩ := hok.field hfs hf'
    have : Supported f.src := by
      rcases hsrc with hsrc | ⟨t, ds, d, ⟨τ, hτ, hr⟩, hds, hd, hdn, hty⟩
      · exact (h _ hsrc).1
      · obtain ⟨ds', hds', k⟩ := (h τ hτ).2 t hr
        have : ds' = ds := Option.some.inj (hds'.symm.trans hds)
        subst this
        exact hty ▸ k d hd hdn
    obtain ⟨p, g, hp', hg⟩ := (supported_iff (base := base)).1 this
    have := (Prod.mk.inj (Option.some.inj (hp'.symm.trans hp))).2
    exact this ▸ hg
  · rename_i he
    exact absurd he h1
  · simp

end Verif.Grpc
