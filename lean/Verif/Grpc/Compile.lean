import Verif.Grpc.Exec
/-
Names of fields, and which files protoc and the Go compiler accept.
-/
namespace Verif.Grpc

theorem unique_spec {used : List Str} : ∀ {n : Nat} {s y : Str}, unique used n s = some y →
    y ∉ used ∧ getter y ∉ used
  | n + 1, s, y, h => by
    rw [unique] at h
    split at h
    · exact unique_spec h
    · rename_i hn
      simp only [Option.some.injEq] at h
      subst h
      exact ⟨fun h => hn (Or.inl h), fun h => hn (Or.inr h)⟩

theorem goNames_spec : ∀ {xs used ys : List Str}, goNames used xs = some ys →
    ys.Nodup ∧ ∀ y ∈ ys, y ∉ used
  | [], used, ys, h => by
    simp only [goNames, Option.some.injEq] at h
    subst h
    simp
  | x :: xs, used, ys, h => by
    rw [goNames] at h
    split at h
    · cases h
    · rename_i y hy
      obtain ⟨ys', hys, rfl⟩ := Option.map_eq_some_iff.1 h
      obtain ⟨h1, h2⟩ := goNames_spec hys
      refine ⟨List.nodup_cons.2 ⟨?_, h1⟩, ?_⟩
      · intro hm
        exact h2 y hm List.mem_cons_self
      · intro z hz
        rcases List.mem_cons.1 hz with rfl | hz
        · exact (unique_spec hy).1
        · exact fun hu => h2 z hz (List.mem_cons_of_mem _ (List.mem_cons_of_mem _ hu))

theorem messageOk_spec {fs : List Field} (h : messageOk fs = true) :
    (fs.map (·.name)).Nodup ∧ (fs.map fun f => title f.name).Nodup ∧
    ∀ f ∈ fs, protoOk f.proto = true ∧ goOk f = true := by
  simp only [messageOk, Bool.and_eq_true, List.all_eq_true, decide_eq_true_eq] at h
  exact ⟨h.1.1, (goNames_spec h.1.2).1, h.2⟩

theorem nodup_find {β : Type} {g : β → Str} : ∀ {l : List β}, (l.map g).Nodup → ∀ {e : β}, e ∈ l →
    l.find? (fun d => decide (g d = g e)) = some e
  | d :: l, hn, e, he => by
    simp only [List.map_cons, List.nodup_cons] at hn
    rcases List.mem_cons.1 he with rfl | he
    · simp
    · have : g d ≠ g e := fun h => hn.1 (h ▸ List.mem_map.2 ⟨e, he, rfl⟩)
      rw [List.find?_cons, decide_eq_false this]
      exact nodup_find hn.2 he

theorem accepted_spec {file : File} {svc : Str} (h : file.accepted svc = true) :
    (file.names svc).Nodup ∧ (∀ fs ∈ file.fieldLists, messageOk fs = true) := by
  simp only [File.accepted, Bool.and_eq_true, List.all_eq_true, decide_eq_true_eq] at h
  exact ⟨h.1.1.1, h.1.1.2⟩

theorem accepted_code {file : File} {svc : Str} (h : file.accepted svc = true) {e : UserTy × List Field}
    (he : e ∈ file.builder.structs) : file.builder.code (msgName file.builder.name e.1) = some e.2 := by
  have hn := (List.nodup_append.1 (accepted_spec h).1).2.1
  rw [Builder.code, nodup_find (g := fun e : UserTy × List Field => msgName file.builder.name e.1) hn he]
  rfl

theorem flatMap_nodup {β : Type} {a b : β → Str} : ∀ {l : List β}, (l.flatMap fun e => [a e, b e]).Nodup →
    (l.map a).Nodup
  | [], _ => by simp
  | e :: l, h => by
    simp only [List.flatMap_cons, List.cons_append, List.nil_append, List.nodup_cons, List.mem_cons,
      List.mem_flatMap, not_or, not_exists, not_and] at h
    refine List.nodup_cons.2 ⟨?_, flatMap_nodup h.2.2⟩
    intro hm
    obtain ⟨d, hd, hde⟩ := List.mem_map.1 hm
    exact (h.1.2 d hd).1 hde.symm

theorem accepted_methods {file : File} {svc : Str} (h : file.accepted svc = true) :
    (file.methods.map (·.1)).Nodup := by
  have hn := flatMap_nodup (List.nodup_append.1 (accepted_spec h).1).1
  refine List.pairwise_map.2 ((List.pairwise_map.1 hn).imp ?_)
  intro a b hab heq
  exact hab (by rw [heq])

theorem nodup_names_eq {ms : List Method} (hn : (ms.map (·.name)).Nodup) {m m' : Method} (hm : m ∈ ms)
    (hm' : m' ∈ ms) (h : m.name = m'.name) : m = m' := by
  induction ms with
  | nil => cases hm
  | cons a ms ih =>
    simp only [List.map_cons, List.nodup_cons] at hn
    rcases List.mem_cons.1 hm with h1 | h1 <;> rcases List.mem_cons.1 hm' with h2 | h2
    · rw [h1, h2]
    · subst h1
      exact absurd (List.mem_map.2 ⟨m', h2, h.symm⟩) hn.1
    · subst h2
      exact absurd (List.mem_map.2 ⟨m, h1, h⟩) hn.1
    · exact ih hn.2 h1 h2

/-- The fields of a method's messages. -/
theorem method_fields {env : Structs} {base svc : Str} {ms : List Method} {file : File}
    (h : FileOk env base ms file) (ha : file.accepted svc = true) {m : Method} (hm : m ∈ ms)
    {req rsp : List Field} (he : (m.name, req, rsp) ∈ file.methods) :
    varFields base 0 m.args = some req ∧ varFields base 0 m.rets = some rsp := by
  obtain ⟨m', hm', hn, h1, h2⟩ := h.sound _ he
  have : m = m' := nodup_names_eq (h.names ▸ accepted_methods ha) hm hm' hn
  subst this
  exact ⟨h1, h2⟩

/-! ### Plain types -/

theorem fieldsFor_names {base : Str} : ∀ (ds : List FieldDecl) (acc out : List Field),
    fieldsFor base (parseFields ds) acc = some out → OneFieldPerLine ds →
    out.map (fun f => (f.name, f.src)) = acc.map (fun f => (f.name, f.src)) ++ structFields ds
  | [], acc, out, h, _ => by
    simp only [parseFields, List.map_nil, fieldsFor, Option.some.injEq] at h
    subst h
    simp [structFields]
  | d :: ds, acc, out, h, ho => by
    obtain ⟨names, ty⟩ := d
    have h1 := ho _ List.mem_cons_self
    match names, h1 with
    | [x], _ =>
      simp only [parseFields, List.map_cons, List.head?_cons, fieldsFor] at h
      split at h
      · rename_i r hr
        have := fieldsFor_names ds _ out h fun d hd => ho d (List.mem_cons_of_mem _ hd)
        rw [this]
        simp [structFields]
      · cases h

theorem ctx {env : Structs} {base svc : Str} {ms : List Method} {file : File} {n : Nat}
    (hg : generate env n base ms = .ok file) (ha : file.accepted svc = true)
    {vars : List (Str × Ty)} (hv : ∀ v ∈ vars, v.2 ∈ methodTypes ms) (hf : ∀ v ∈ vars, Faithful env v.2) :
    Ctx env file.builder.code base fun u => ∃ v ∈ vars, Reach env v.2 u := by
  obtain ⟨hok, hgen⟩ := generate_ok hg
  refine ⟨?_⟩
  rintro t ds ⟨v, hvm, hr⟩ hds
  obtain ⟨e, he, rfl⟩ := List.mem_map.1 ((hok.reach t).2 ⟨v.2, hv v hvm, hr⟩)
  obtain ⟨ds', hds', hff⟩ := hok.structs e he
  have : ds' = ds := Option.some.inj (hds'.symm.trans hds)
  subst this
  have hmem : e.2 ∈ file.fieldLists := mem_fieldLists.2 (Or.inr ⟨e, he, rfl⟩)
  obtain ⟨m1, m2, m3⟩ := messageOk_spec ((accepted_spec ha).2 _ hmem)
  have hcode := accepted_code ha he
  rw [hok.name] at hcode
  refine ⟨e.2, hcode, ?_, ?_, m1, m2⟩
  · have := fieldsFor_names ds' [] e.2 hff ((hf v hvm).2 _ _ hr hds)
    simpa using this
  · intro f hfm
    obtain ⟨d, hd, hdn, hty⟩ := fieldsFor_src (R := fun ty => ∃ d ∈ ds', d.names ≠ [] ∧ ty = d.ty) _ _ _ hff
      (by simp) (fun p hp hs => parseFields_mem hp hs) f hfm
    obtain ⟨ds'', hds'', hpl⟩ := (hf v hvm).1.2 _ hr
    have : ds'' = ds' := Option.some.inj (hds''.symm.trans hds)
    subst this
    refine ⟨(hok.field hmem hfm).1, (m3 f hfm).1, ?_, ?_, ?_⟩
    · have := (hgen _ hmem f hfm).1
      rwa [marshall_isSome] at this
    · rw [hty]
      exact hpl d hd hdn
    · intro u hu
      rw [hty] at hu
      exact ⟨v, hvm, .field hr hds hd hdn hu⟩

/-- The arguments (or results) of a method survive. -/
theorem vars_rt {env : Structs} {base svc : Str} {ms : List Method} {file : File} {n : Nat}
    (hg : generate env n base ms = .ok file) (ha : file.accepted svc = true)
    {vars : List (Str × Ty)} (hv : ∀ v ∈ vars, v.2 ∈ methodTypes ms) (hf : ∀ v ∈ vars, Faithful env v.2)
    {fs : List Field} (hfs : fs ∈ file.fieldLists) (hvf : varFields base 0 vars = some fs)
    {vals : List (Str × Val)} (ht : Typed env (named 0 vars) vals) :
    ∃ msg N, ∀ n, N ≤ n → pack file.builder n fs vals = .ok msg ∧ unpack file.builder n fs msg = .ok vals := by
  have hc := ctx hg ha hv hf
  obtain ⟨hok, hgen⟩ := generate_ok hg
  obtain ⟨m1, m2, m3⟩ := messageOk_spec ((accepted_spec ha).2 _ hfs)
  obtain ⟨v1, v2, v3⟩ := varFields_spec _ _ _ hvf
  refine fields_rt (C := file.builder.code) (base := base) (K := fun u => ∃ v ∈ vars, Reach env v.2 u) ?_ ?_ m1 m2 ?_
  · rw [ht.1, ← v3, List.map_map]
    rfl
  · intro f hf'
    obtain ⟨k1, v, k2, k3⟩ := v1 f hf'
    refine ⟨k1, (m3 f hf').1, ?_, ?_, ?_⟩
    · have := (hgen _ hfs f hf').1
      rwa [marshall_isSome] at this
    · rw [k3]
      exact (hf v k2).1.1
    · intro u hu
      rw [k3] at hu
      exact ⟨v, k2, .here hu⟩
  · intro f hf' w hw
    obtain ⟨k1, v, k2, k3⟩ := v1 f hf'
    have hm : (f.name, f.src) ∈ named 0 vars := v3 ▸ List.mem_map.2 ⟨f, hf', rfl⟩
    refine hasType_good hc (ht.2 _ _ _ hm hw) ?_
    intro u hu
    rw [k3] at hu
    exact ⟨v, k2, .here hu⟩

/-! ### Files that compile -/

theorem goCamelCase_rest : ∀ (cs : Str) (l : Bool), LettersDigits cs →
    (l = false → ∀ d ∈ cs.head?, ¬('a' ≤ d ∧ d ≤ 'z')) → goCamelCase false l cs = cs
  | [], l, _, _ => by cases l <;> rfl
  | c :: cs, l, h, hl => by
    obtain ⟨h1, h2⟩ := h
    rw [goCamelCase]
    rcases h1 with h1 | ⟨h1, h1', h3⟩
    · have hu : c ≠ '_' := by rintro rfl; revert h1; simp only [IsLetter]; decide
      have hd : isDigit c = false := by
        simp only [isDigit, Bool.and_eq_false_iff, decide_eq_false_iff_not, Char.not_le]
        rcases h1 with ⟨h1, _⟩ | ⟨h1, _⟩
        · exact Or.inr (Std.lt_of_lt_of_le (by decide) h1)
        · exact Or.inr (Std.lt_of_lt_of_le (by decide) h1)
      have ih := goCamelCase_rest cs true h2 (by simp)
      by_cases hlow : isLower c = true
      · cases l with
        | true => simp only [hlow, Bool.and_self, if_true, ih]
        | false =>
          exfalso
          refine hl rfl c rfl ?_
          simpa [isLower] using hlow
      · simp only [Bool.not_eq_true] at hlow
        simp [hlow, hu, hd, ih]
    · have hlow : isLower c = false := by
        simp only [isLower, Bool.and_eq_false_iff, decide_eq_false_iff_not, Char.not_le]
        exact Or.inl (Std.lt_of_le_of_lt h1' (by decide))
      have hu : c ≠ '_' := by rintro rfl; exact absurd h1' (by decide)
      have hd : isDigit c = true := by simp [isDigit, h1, h1']
      have ih := goCamelCase_rest cs false h2 fun _ => h3
      simp [hlow, hu, hd, ih]

theorem goCamelCase_title {x : Str} (h : PlainName x) : goCamelCase true false x = title x := by
  cases x with
  | nil => cases h
  | cons c cs =>
    obtain ⟨h1, h2⟩ := h
    have hu : c ≠ '_' := by rintro rfl; revert h1; simp only [IsLetter]; decide
    have hd : isDigit c = false := by
      simp only [isDigit, Bool.and_eq_false_iff, decide_eq_false_iff_not, Char.not_le]
      rcases h1 with ⟨h1, _⟩ | ⟨h1, _⟩
      · exact Or.inr (Std.lt_of_lt_of_le (by decide) h1)
      · exact Or.inr (Std.lt_of_lt_of_le (by decide) h1)
    rw [goCamelCase, goCamelCase_rest cs true h2 (by simp)]
    simp [hu, hd, title, isLower]

theorem title_inj_of_nodup {xs : List Str} (h : (xs.map title).Nodup) : xs.Nodup :=
  (List.pairwise_map.1 h).imp fun hab heq => hab (by rw [heq])

theorem goNames_titles : ∀ {xs used : List Str},
    (∀ x ∈ xs, PlainName x ∧ title x ∉ used ∧ getter (title x) ∉ used) → (xs.map title).Nodup →
    (∀ x ∈ xs, ∀ y ∈ xs, title x ≠ getter (title y)) → goNames used xs = some (xs.map title)
  | [], used, _, _, _ => rfl
  | x :: xs, used, h, hn, hg => by
    simp only [List.map_cons, List.nodup_cons] at hn
    obtain ⟨h1, h2, h3⟩ := h x List.mem_cons_self
    rw [goNames, goCamelCase_title h1, unique, if_neg (not_or.2 ⟨h2, h3⟩)]
    simp only [List.map_cons]
    rw [goNames_titles ?_ hn.2 fun a ha b hb => hg a (List.mem_cons_of_mem _ ha) b (List.mem_cons_of_mem _ hb)]
    · rfl
    · intro y hy
      obtain ⟨k1, k2, k3⟩ := h y (List.mem_cons_of_mem _ hy)
      refine ⟨k1, ?_, ?_⟩
      · simp only [List.mem_cons, not_or]
        exact ⟨fun he => hn.1 (he ▸ List.mem_map.2 ⟨y, hy, rfl⟩),
          hg y (List.mem_cons_of_mem _ hy) x List.mem_cons_self, k2⟩
      · simp only [List.mem_cons, not_or]
        refine ⟨fun he => hg x List.mem_cons_self y (List.mem_cons_of_mem _ hy) he.symm, ?_, k3⟩
        intro he
        have : title y = title x := by simpa [getter] using he
        exact hn.1 (this ▸ List.mem_map.2 ⟨y, hy, rfl⟩)

theorem namesOk_goNames {xs : List Str} (h : NamesOk xs) : goNames reserved xs = some (xs.map title) := by
  obtain ⟨h1, h2, h3⟩ := h
  refine goNames_titles ?_ h2 fun x hx y hy => h3 x hx y hy
  intro x hx
  refine ⟨(h1 x hx).1, (h1 x hx).2, ?_⟩
  simp [reserved, getter]

theorem compilable_ok {base : Str} {f : Field} (h : protoOf base f.src = some (f.proto, f.grpc))
    (hc : Compilable f.src) : protoOk f.proto = true ∧ goOk f = true := by
  obtain ⟨src, proto, grpc, name, pos⟩ := f
  simp only at h hc
  cases src with
  | user t =>
    simp only [protoOf, Option.some.injEq, Prod.mk.injEq] at h
    obtain ⟨rfl, rfl⟩ := h
    simp [protoOk, goOk]
  | basic b =>
    cases b <;> simp [Compilable, KnownBasic] at hc <;>
      simp only [protoOf, basicToGrpc, Option.map_some, Option.map_none, Option.some.injEq, Prod.mk.injEq,
        reduceCtorEq] at h <;> obtain ⟨rfl, rfl⟩ := h <;> exact ⟨rfl, rfl⟩
  | pointer t =>
    cases t with
    | user t =>
      simp only [protoOf, Option.map_some, Option.some.injEq, Prod.mk.injEq] at h
      obtain ⟨rfl, rfl⟩ := h
      simp [protoOk, goOk]
    | _ => cases hc
  | slice t =>
    by_cases hb : t = .basic .byte
    · subst hb
      simp only [protoOf, if_true, Option.some.injEq, Prod.mk.injEq] at h
      obtain ⟨rfl, rfl⟩ := h
      simp [protoOk, goOk]
    · cases t with
      | user t =>
        rw [protoOf_slice hb (by simp)] at h
        simp only [protoOf, Option.map_some, Option.some.injEq, Prod.mk.injEq] at h
        obtain ⟨rfl, rfl⟩ := h
        simp [protoOk, goOk]
      | basic b =>
        rw [protoOf_slice hb (by simp)] at h
        rcases hc with rfl | hc
        · exact absurd rfl hb
        rcases hc with rfl | rfl | rfl | rfl | rfl | rfl | rfl | rfl <;>
          simp only [protoOf, basicToGrpc, Option.map_some, Option.some.injEq, Prod.mk.injEq] at h <;>
          obtain ⟨rfl, rfl⟩ := h <;> exact ⟨rfl, rfl⟩
      | _ => cases hc
  | map κ v =>
    cases κ with
    | basic k =>
      cases v with
      | user t =>
        obtain ⟨hk, h1, h2⟩ := hc
        rcases hk with rfl | rfl | rfl | rfl | rfl | rfl | rfl | rfl <;>
          first | exact absurd rfl h1 | exact absurd rfl h2 | skip
        all_goals
          simp only [protoOf, getMapKeyType, basicToGrpc, Option.bind_some, Option.map_some, Option.some.injEq,
            Prod.mk.injEq] at h
          obtain ⟨rfl, rfl⟩ := h
          exact ⟨rfl, rfl⟩
      | basic b =>
        obtain ⟨hk, h1, h2, hb⟩ := hc
        rcases hk with rfl | rfl | rfl | rfl | rfl | rfl | rfl | rfl <;>
          first | exact absurd rfl h1 | exact absurd rfl h2 | skip
        all_goals
          rcases hb with rfl | rfl | rfl | rfl | rfl | rfl | rfl | rfl <;>
            simp only [protoOf, getMapKeyType, basicToGrpc, Option.bind_some, Option.map_some, Option.some.injEq,
              Prod.mk.injEq] at h <;>
            obtain ⟨rfl, rfl⟩ := h <;> exact ⟨rfl, rfl⟩
      | _ => cases hc
    | _ => cases hc
  | other => cases hc

theorem fieldsFor_heads {base : Str} : ∀ (ds : List FieldDecl) (acc out : List Field),
    fieldsFor base (parseFields ds) acc = some out →
    out.map (·.name) = acc.map (·.name) ++ ds.filterMap fun d => d.names.head?
  | [], acc, out, h => by
    simp only [parseFields, List.map_nil, fieldsFor, Option.some.injEq] at h
    subst h
    simp
  | d :: ds, acc, out, h => by
    obtain ⟨names, ty⟩ := d
    match names with
    | [] =>
      simp only [parseFields, List.map_cons, List.head?_nil, fieldsFor] at h
      rw [fieldsFor_heads ds acc out h]
      simp [List.filterMap_cons]
    | x :: xs =>
      simp only [parseFields, List.map_cons, List.head?_cons, fieldsFor] at h
      split at h
      · rw [fieldsFor_heads ds _ out h]
        simp
      · cases h

theorem request_inj {svc a b : Str} (h : requestName svc a = requestName svc b) : a = b := by
  simp only [requestName, List.append_assoc, List.append_cancel_left_eq, List.cons_append, List.cons.injEq,
    true_and, List.append_cancel_right_eq] at h
  exact h

theorem response_inj {svc a b : Str} (h : responseName svc a = responseName svc b) : a = b := by
  simp only [responseName, List.append_assoc, List.append_cancel_left_eq, List.cons_append, List.cons.injEq,
    true_and, List.append_cancel_right_eq] at h
  exact h

theorem request_ne_response {svc a b : Str} : requestName svc a ≠ responseName svc b := by
  intro h
  have h1 : (requestName svc a).getLast? = some 't' := by
    simp [requestName, List.getLast?_append, List.getLast?_cons]
  have h2 : (responseName svc b).getLast? = some 'e' := by
    simp [responseName, List.getLast?_append, List.getLast?_cons]
  rw [h, h2] at h1
  exact absurd h1 (by decide)

theorem method_names_nodup {svc : Str} : ∀ {l : List (Str × List Field × List Field)}, (l.map (·.1)).Nodup →
    (l.flatMap fun m => [requestName svc m.1, responseName svc m.1]).Nodup
  | [], _ => by simp
  | e :: l, h => by
    simp only [List.map_cons, List.nodup_cons] at h
    have hne : ∀ d ∈ l, e.1 ≠ d.1 := fun d hd heq => h.1 (heq ▸ List.mem_map.2 ⟨d, hd, rfl⟩)
    simp only [List.flatMap_cons, List.cons_append, List.nil_append, List.nodup_cons, List.mem_cons,
      List.mem_flatMap, not_or, not_exists, not_and, List.not_mem_nil, not_false_eq_true, and_true]
    refine ⟨⟨request_ne_response, ?_⟩, ?_, method_names_nodup h.2⟩
    · intro d hd
      exact ⟨fun he => hne d hd (request_inj he), request_ne_response⟩
    · intro d hd
      exact ⟨fun he => request_ne_response he.symm, fun he => hne d hd (response_inj he)⟩

theorem accepted_of_clean {env : Structs} {base svc : Str} {ms : List Method} {file : File} {n : Nat}
    (hg : generate env n base ms = .ok file) (hc : ∀ τ ∈ methodTypes ms, Everywhere env Compilable τ)
    (hn : CleanNames env svc base ms) : file.accepted svc = true := by
  obtain ⟨hok, -⟩ := generate_ok hg
  have hmsg : ∀ fs ∈ file.fieldLists, NamesOk (fs.map (·.name)) → messageOk fs = true := by
    intro fs hfs hnm
    simp only [messageOk, Bool.and_eq_true, List.all_eq_true, decide_eq_true_eq]
    refine ⟨⟨title_inj_of_nodup hnm.2.1, ?_⟩, ?_⟩
    · rw [namesOk_goNames hnm, List.map_map]
      rfl
    · intro f hf
      obtain ⟨hp, hsrc⟩ := hok.field hfs hf
      have : Compilable f.src := by
        rcases hsrc with hsrc | ⟨t, ds, d, ⟨τ, hτ, hr⟩, hds, hd, hdn, hty⟩
        · exact (hc _ hsrc).1
        · obtain ⟨ds', hds', k⟩ := (hc τ hτ).2 t hr
          have : ds' = ds := Option.some.inj (hds'.symm.trans hds)
          subst this
          exact hty ▸ k d hd hdn
      exact compilable_ok hp this
  have hargs : ∀ e ∈ file.methods, ∃ m ∈ ms, e.2.1.map (·.name) = (named 0 m.args).map (·.1) ∧
      e.2.2.map (·.name) = (named 0 m.rets).map (·.1) := by
    intro e he
    obtain ⟨m, hm, _, h1, h2⟩ := hok.sound e he
    refine ⟨m, hm, ?_, ?_⟩
    · rw [← (varFields_spec _ _ _ h1).2.2, List.map_map]
      rfl
    · rw [← (varFields_spec _ _ _ h2).2.2, List.map_map]
      rfl
  simp only [File.accepted, Bool.and_eq_true, List.all_eq_true, decide_eq_true_eq]
  refine ⟨⟨⟨?_, ?_⟩, ?_⟩, ?_⟩
  · rw [File.names, hok.name]
    refine List.nodup_append.2 ⟨method_names_nodup (hok.names ▸ hn.methods), ?_, ?_⟩
    · have := hok.nodup
      rw [keys] at this
      refine List.pairwise_map.2 ((List.pairwise_map.1 this).imp_of_mem ?_)
      intro a b ha hb hab heq
      obtain ⟨τ, hτ, hr⟩ := (hok.reach a.1).1 (List.mem_map.2 ⟨a, ha, rfl⟩)
      obtain ⟨τ', hτ', hr'⟩ := (hok.reach b.1).1 (List.mem_map.2 ⟨b, hb, rfl⟩)
      refine hab (hn.structs τ hτ τ' hτ' _ _ hr hr' ?_)
      simpa [msgName] using heq
    · intro x hx y hy heq
      subst heq
      obtain ⟨m, hm, hx⟩ := List.mem_flatMap.1 hx
      obtain ⟨e, he, rfl⟩ := List.mem_map.1 hy
      obtain ⟨τ, hτ, hr⟩ := (hok.reach e.1).1 (List.mem_map.2 ⟨e, he, rfl⟩)
      obtain ⟨m', hm', hmn, _⟩ := hok.sound m hm
      have hd := hn.messages τ hτ e.1 hr m' hm'
      simp only [List.mem_cons, List.not_mem_nil, or_false] at hx
      rcases hx with hx | hx
      · exact hd.1 (by rw [msgName, requestName, hmn] at hx; exact hx)
      · exact hd.2 (by rw [msgName, responseName, hmn] at hx; exact hx)
  · intro fs hfs
    refine hmsg fs hfs ?_
    rcases mem_fieldLists.1 hfs with ⟨e, he, hor⟩ | ⟨e, he, rfl⟩
    · obtain ⟨m, hm, h1, h2⟩ := hargs e he
      obtain ⟨n1, n2, _⟩ := hn.args m hm
      rcases hor with rfl | rfl
      · rw [h1]; exact n1
      · rw [h2]; exact n2
    · obtain ⟨τ, hτ, hr⟩ := (hok.reach e.1).1 (List.mem_map.2 ⟨e, he, rfl⟩)
      obtain ⟨ds, hds, hff⟩ := hok.structs e he
      have := fieldsFor_heads ds [] e.2 hff
      simp only [List.map_nil, List.nil_append] at this
      rw [this]
      exact (hn.fields τ hτ e.1 ds hr hds).1
  · intro e he f hf
    obtain ⟨τ, hτ, hr⟩ := (hok.reach e.1).1 (List.mem_map.2 ⟨e, he, rfl⟩)
    obtain ⟨ds, hds, hff⟩ := hok.structs e he
    have hh := fieldsFor_heads ds [] e.2 hff
    simp only [List.map_nil, List.nil_append] at hh
    have hmem : f.name ∈ ds.filterMap fun d => d.names.head? := hh ▸ List.mem_map.2 ⟨f, hf, rfl⟩
    obtain ⟨n1, n2⟩ := hn.fields τ hτ e.1 ds hr hds
    obtain ⟨d, hd, hx⟩ := List.mem_filterMap.1 hmem
    have hpl := (n1.1 _ hmem).1
    cases hname : f.name with
    | nil => rw [hname] at hpl; cases hpl
    | cons c cs =>
      have := n2 d hd _ hx c (by simp [hname])
      simp [exported, this]
  · intro e he f hf
    obtain ⟨m, hm, h1, h2⟩ := hargs e he
    obtain ⟨_, _, n3⟩ := hn.args m hm
    have hmem : f.name ∈ (named 0 m.args ++ named 0 m.rets).map (·.1) := by
      rw [List.map_append, ← h1, ← h2, ← List.map_append]
      exact List.mem_map.2 ⟨f, hf, rfl⟩
    obtain ⟨v, hv, hvn⟩ := List.mem_map.1 hmem
    exact hvn ▸ n3 v hv

/-! ### What is lost -/

theorem get_put {x y : Str} {v : Val} : ∀ {l : List (Str × Val)},
    get y (put x v l) = if x = y then some v else get y l
  | [] => by simp [put, get]
  | e :: l => by
    by_cases hx : e.1 = x
    · subst hx
      by_cases hy : e.1 = y
      · simp [put, get, hy]
      · simp [put, get, hy]
    · by_cases hy : e.1 = y
      · subst hy
        simp [put, get, hx, Ne.symm hx]
      · simp only [put, get, if_neg hx, if_neg hy]
        exact get_put

theorem map_eq_ok {α β : Type} {g : α → β} {r : Out α} {b : β} (h : r.map g = .ok b) : ∃ a, r = .ok a ∧ g a = b := by
  cases r with
  | ok a => exact ⟨a, rfl, Out.ok.inj h⟩
  | panic => cases h
  | stuck => cases h

/-- The statement of a field changes only this field. -/
theorem execU_put {call : Str → Val → Val → Out Val} {f : Field} {msg obj obj' : List (Str × Val)} {ut : UStmt}
    (hu : f.unmarshall = some ut) (h : execU call f msg obj ut = .ok obj') :
    obj' = obj ∨ ∃ v, obj' = put f.name v obj := by
  unfold Field.unmarshall at hu
  split at hu <;> first | cases hu | skip
  all_goals
    simp only [execU] at h
    (repeat' split at h) <;> first
      | (cases h; done)
      | (obtain ⟨a, _, rfl⟩ := map_eq_ok h; exact Or.inr ⟨_, rfl⟩)
      | (simp only [Out.ok.injEq] at h; subst h; exact Or.inr ⟨_, rfl⟩)
      | (simp only [Out.ok.injEq] at h; subst h; exact Or.inl rfl)

theorem execAllU_frame {call : Str → Val → Val → Out Val} {msg : List (Str × Val)} {y : Str} :
    ∀ {fs : List Field} {obj obj' : List (Str × Val)}, execAllU call msg fs obj = .ok obj' →
    y ∉ fs.map (·.name) → get y obj' = get y obj
  | [], obj, obj', h, _ => by
    simp only [execAllU, Out.ok.injEq] at h
    rw [h]
  | f :: fs, obj, obj', h, hy => by
    simp only [List.map_cons, List.mem_cons, not_or] at hy
    rw [execAllU] at h
    split at h
    · cases h
    · rename_i st hst
      split at h
      · rename_i obj1 h1
        rw [execAllU_frame h hy.2]
        rcases execU_put hst h1 with rfl | ⟨v, rfl⟩
        · rfl
        · rw [get_put, if_neg (Ne.symm hy.1)]
      · cases h
      · cases h

/-- A field that is always lost or never received. -/
theorem execAllU_field {call : Str → Val → Val → Out Val} {msg : List (Str × Val)} {f : Field} {P : Option Val → Prop}
    (hP : ∀ obj obj' ut, get f.name obj = none → f.unmarshall = some ut → execU call f msg obj ut = .ok obj' →
      P (get f.name obj')) :
    ∀ {fs : List Field} {obj obj' : List (Str × Val)}, execAllU call msg fs obj = .ok obj' →
    (fs.map (·.name)).Nodup → f ∈ fs → get f.name obj = none → P (get f.name obj')
  | g :: fs, obj, obj', h, hn, hf, h0 => by
    simp only [List.map_cons, List.nodup_cons] at hn
    rw [execAllU] at h
    split at h
    · cases h
    · rename_i st hst
      split at h
      · rename_i obj1 h1
        rcases List.mem_cons.1 hf with rfl | hf
        · rw [execAllU_frame h hn.1]
          exact hP _ _ _ h0 hst h1
        · have hne : g.name ≠ f.name := fun he => hn.1 (he ▸ List.mem_map.2 ⟨f, hf, rfl⟩)
          refine execAllU_field hP h hn.2 hf ?_
          rcases execU_put hst h1 with rfl | ⟨v, rfl⟩
          · exact h0
          · rw [get_put, if_neg hne]
            exact h0
      · cases h
      · cases h

/-- A map arrives empty. -/
theorem map_lost {call : Str → Val → Val → Out Val} {msg obj obj' : List (Str × Val)} {f : Field} {ut : UStmt} {k : Ty}
    {g : GTy} (hg : f.grpc = .map k g) (h0 : get f.name obj = none) (hu : f.unmarshall = some ut)
    (h : execU call f msg obj ut = .ok obj') : get f.name obj' = none ∨ get f.name obj' = some (.map []) := by
  cases g with
  | user t =>
    simp only [Field.unmarshall, hg, Option.some.injEq] at hu
    subst hu
    simp only [execU] at h
    split at h
    · obtain ⟨a, _, rfl⟩ := map_eq_ok h
      exact Or.inr (by rw [get_put, if_pos rfl])
    · cases h
  | basic b =>
    simp only [Field.unmarshall, hg, Option.some.injEq] at hu
    subst hu
    simp only [execU, Out.ok.injEq] at h
    subst h
    exact Or.inl h0
  | _ => simp [Field.unmarshall, hg] at hu

/-- Unpacking into a nil pointer panics. -/
theorem pointer_panics {C : Code} {n : Nat} {msg obj obj' : List (Str × Val)} {f : Field} {ut : UStmt} {T : Str}
    (hg : f.grpc = .pointer (.user T)) (hT : C T ≠ some []) (h0 : get f.name obj = none)
    (hu : f.unmarshall = some ut) : execU (unmarshal C n) f msg obj ut ≠ .ok obj' := by
  intro h
  simp only [Field.unmarshall, hg, Option.some.injEq] at hu
  subst hu
  simp only [execU, hg, h0, Option.getD_none] at h
  split at h
  · rename_i m T' hm hT'
    obtain ⟨a, ha, _⟩ := map_eq_ok h
    simp only [GTy.pointer.injEq, GTy.user.injEq] at hT'
    subst hT'
    cases n with
    | zero => cases ha
    | succ n =>
      unfold unmarshal at ha
      split at ha
      · rename_i heq; cases heq
      · rename_i h' _; exact hT h'
      · cases ha
  · cases h

end Verif.Grpc
