import Verif.Thrift.Exec
/-
C95: what the generated conversion functions do with the arguments and results of methods.
C96: calls through the generated client and server.
-/
namespace Verif.Thrift
open Verif.Grpc (UserTy Ty Basic FieldDecl Method Val Prim Typed HasType Reach Everywhere Faithful named methodTypes
  InRange Settles Res)

variable {env : UserTy → Option (List FieldDecl)} {ms : List Method} {file : File}
  {pub : List Char → List Char} {svc : List Char}

/-- **C95** (generation).  For an application with finitely many structs, which may mention
each other and themselves: generation ends, and it succeeds exactly if all types of arguments,
results and fields are simple types, pointers to, slices of or maps to simple types. -/
theorem C95_generates {U : List UserTy} (hU : ∀ t, env t ≠ none → t ∈ U) (ms : List Method) :
    ∃ N r, r ≠ .stuck ∧ (∀ n, N ≤ n → generate env n ms = r) ∧
      ((∃ file, r = .ok file) ↔ ∀ τ ∈ methodTypes ms, Everywhere env Supported τ) := by
  obtain ⟨N, r, hr, hN⟩ := generate_settles hU ms
  refine ⟨N, r, hr, hN, ?_⟩
  have hgen := hN N (Nat.le_refl _)
  simp only at hgen
  constructor
  · rintro ⟨file, rfl⟩
    have F := generate_ok hgen
    rw [F.field_types]
    intro fs hfs f hf
    obtain ⟨h1, h2⟩ := F.types fs hfs f hf
    exact supported_iff.2 ⟨_, h1, h2⟩
  · intro h
    have hk : ∀ τ ∈ ms.flatMap Method.types, Everywhere env Known τ := fun τ hτ => everywhere_known (h τ hτ)
    have hne := loop_error (vis := []) (visit_error env N) hk
    rw [← hgen] at hr ⊢
    unfold generate at hr ⊢
    cases hl : loop (visit env N) (ms.flatMap Method.types) [] with
    | error => exact absurd hl hne
    | stuck => rw [hl] at hr; exact absurd rfl hr
    | ok vis =>
      have V := loop_spec (visit_spec env N) hl
      obtain ⟨ss, hss⟩ := structDecls_some (env := env) (ts := vis) fun t ht => by
        obtain ⟨_, ds, hds, hf⟩ := V.fresh t ht (by simp)
        exact ⟨ds, hds, fun f hf' => (hf f hf').1⟩
      obtain ⟨l, hl'⟩ := methodDecls_some (ms := ms) fun m hm v hv => V.known v.2 (by
        refine List.mem_flatMap.2 ⟨m, hm, ?_⟩
        simp only [Method.types, ← List.map_append]
        exact List.mem_map.2 ⟨v, hv, rfl⟩)
      simp only [hss, hl']
      refine ⟨⟨ss, l⟩, if_pos ?_⟩
      obtain ⟨s1, s2⟩ := structDecls_spec hss
      obtain ⟨_, _, m3⟩ := methodDecls_spec hl'
      have types : ∀ fs ∈ (⟨ss, l⟩ : File).fieldLists, ∀ f ∈ fs, getThriftType f.src = some (f.thrift, f.go) ∧
          Supported f.src := by
        intro fs hfs f hf
        rcases mem_fieldLists.1 hfs with ⟨e, he, hh⟩ | ⟨e, he, rfl⟩
        · obtain ⟨m, hm, _, h2, h3⟩ := m3 e he
          have var : ∀ {vars : List (List Char × Ty)} {fs : List Field}, makeFieldList vars = some fs →
              (∀ v ∈ vars, v.2 ∈ methodTypes ms) → ∀ f ∈ fs, getThriftType f.src = some (f.thrift, f.go) ∧
                Supported f.src := by
            intro vars fs hfl hv f hf
            obtain ⟨a, b⟩ := fieldList_spec hfl
            refine ⟨b f hf, ?_⟩
            have : f.src ∈ (named 0 vars).map (·.2) := by
              rw [← varNames_named, ← a, List.map_map]
              exact List.mem_map.2 ⟨f, hf, rfl⟩
            rw [named_types] at this
            obtain ⟨v, hvv, he⟩ := List.mem_map.1 this
            exact he ▸ (h v.2 (hv v hvv)).1
          rcases hh with rfl | rfl
          · exact var h2 (fun v hv => List.mem_flatMap.2 ⟨m, hm, List.mem_append.2 (Or.inl (List.mem_map.2 ⟨v, hv, rfl⟩))⟩) f hf
          · exact var h3 (fun v hv => List.mem_flatMap.2 ⟨m, hm, List.mem_append.2 (Or.inr (List.mem_map.2 ⟨v, hv, rfl⟩))⟩) f hf
        · obtain ⟨ds, hds, hfl⟩ := s2 e he
          obtain ⟨a, b⟩ := fieldList_spec hfl
          refine ⟨b f hf, ?_⟩
          have hmem : (f.name, f.src) ∈ namedFields ds := a ▸ List.mem_map.2 ⟨f, hf, rfl⟩
          obtain ⟨d, hd1, hd2, _, hd4⟩ := mem_namedFields hmem
          have hev : e.1 ∈ vis := s1 ▸ List.mem_map.2 ⟨e, he, rfl⟩
          obtain ⟨⟨τ, hτ, hreach⟩, _⟩ := V.fresh e.1 hev (by simp)
          obtain ⟨ds', hds', hP⟩ := (h τ hτ).2 _ hreach
          rw [hds] at hds'
          cases hds'
          have := hP d hd1 hd2
          rwa [hd4] at this
      refine List.all_eq_true.2 fun fs hfs => List.all_eq_true.2 fun f hf => ?_
      obtain ⟨h1, h2⟩ := types fs hfs f hf
      obtain ⟨r, hr1, hr2⟩ := supported_iff.1 h2
      rw [h1] at hr1
      cases hr1
      exact hr2

/-- **C95** (declarations).  A generated file declares exactly the structs that values of the
arguments and results may contain, each once, with their named fields in order, and a request
and a response for every method, with its arguments and results in order. -/
theorem C95_declares {n : Nat} (hg : generate env n ms = .ok file) :
    (file.structs.map (·.1)).Nodup ∧
    (∀ t, t ∈ file.structs.map (·.1) ↔ ∃ τ ∈ methodTypes ms, Reach env τ t) ∧
    (∀ e ∈ file.structs, ∃ ds, env e.1 = some ds ∧
      e.2.map (fun f => (f.name, f.src)) = ds.filterMap fun d => d.names.head?.map fun x => (x, d.ty)) ∧
    (∀ m ∈ ms, ∃ e ∈ file.methods, e.1 = m.name ∧
      e.2.1.map (fun f => (f.name, f.src)) = named 0 m.args ∧
      e.2.2.map (fun f => (f.name, f.src)) = named 0 m.rets) ∧
    file.methods.map (·.1) = ms.map (·.name) := by
  have F := generate_ok hg
  refine ⟨F.nodup, F.reach, fun e he => ?_, F.all, F.methods⟩
  obtain ⟨ds, h1, h2⟩ := F.structs e he
  exact ⟨ds, h1, h2.trans (namedFields_eq ds)⟩

theorem fieldList_positions : ∀ {l : List (List Char × Ty)} {i : Nat} {fs : List Field}, fieldList i l = some fs →
    fs.map (·.position) = (List.range l.length).map (· + i + 1)
  | [], i, fs, h => by
    simp only [fieldList, Option.some.injEq] at h
    subst h
    rfl
  | (x, τ) :: l, i, fs, h => by
    simp only [fieldList] at h
    cases h1 : getThriftType τ with
    | none => rw [h1] at h; cases h
    | some r =>
      cases h2 : fieldList (i + 1) l with
      | none => rw [h1, h2] at h; cases h
      | some fs' =>
        rw [h1, h2] at h
        simp only [Option.some.injEq] at h
        subst h
        simp only [List.map_cons, List.length_cons, List.range_succ_eq_map, fieldList_positions h2, List.map_map,
          Nat.zero_add, List.cons.injEq, true_and]
        refine List.map_congr_left fun a _ => ?_
        simp only [Function.comp]
        omega

/-- **C95** (positions).  The fields of every declaration are numbered from 1, so that no two
fields of a struct have the same number. -/
theorem C95_positions {n : Nat} (hg : generate env n ms = .ok file) {fs : List Field} (hfs : fs ∈ file.fieldLists) :
    fs.map (·.position) = (List.range fs.length).map (· + 1) := by
  unfold generate at hg
  cases hv : loop (visit env n) (ms.flatMap Method.types) [] with
  | error => rw [hv] at hg; cases hg
  | stuck => rw [hv] at hg; cases hg
  | ok vis =>
    rw [hv] at hg
    simp only at hg
    cases hs : structDecls env vis with
    | none => rw [hs] at hg; cases hg
    | some ss =>
      cases hm : methodDecls ms with
      | none => rw [hs, hm] at hg; cases hg
      | some l =>
        rw [hs, hm] at hg
        simp only at hg
        split at hg
        · simp only [Res.ok.injEq] at hg
          subst hg
          have key : ∀ {l : List (List Char × Ty)}, fieldList 0 l = some fs →
              fs.map (·.position) = (List.range fs.length).map (· + 1) := by
            intro l h
            have hlen : fs.length = l.length := by
              rw [← (fieldList_spec h).1, List.length_map]
            rw [fieldList_positions h, hlen]
          rcases mem_fieldLists.1 hfs with ⟨e, he, hh⟩ | ⟨e, he, rfl⟩
          · obtain ⟨m, hm, _, h2, h3⟩ := (methodDecls_spec hm).2.2 e he
            rcases hh with rfl | rfl
            · exact key h2
            · exact key h3
          · obtain ⟨ds, _, h⟩ := (structDecls_spec hs).2 e he
            exact key h
        · cases hg

/-- **C95** (which files compile).  If all types are of the kinds that compile, and no names
get in each other's way, then the declarations and conversion functions compile. -/
theorem C95_compiles {n : Nat} (hg : generate env n ms = .ok file)
    (hc : ∀ τ ∈ methodTypes ms, Everywhere env Compilable τ) (hn : CleanNames env pub svc ms) :
    file.accepted pub svc = true := by
  have F := generate_ok hg
  have hok := F.field_types.1 hc
  have hname : ∀ e ∈ file.structs, ∃ τ ∈ methodTypes ms, Reach env τ e.1 := fun e he =>
    (F.reach e.1).1 (List.mem_map.2 ⟨e, he, rfl⟩)
  have hfst : ∀ {fs : List Field} {l : List (List Char × Ty)}, fs.map (fun f => (f.name, f.src)) = l →
      fs.map (·.name) = l.map (·.1) := by
    intro fs l h
    rw [← h, List.map_map]
    rfl
  have hnamed : ∀ ds : List FieldDecl, (namedFields ds).map (·.1) = ds.filterMap fun d => d.names.head? := by
    intro ds
    rw [namedFields_eq, List.map_filterMap]
    congr 1
    funext d
    cases d.names.head? <;> rfl
  simp only [File.accepted, Bool.and_eq_true, decide_eq_true_eq, List.all_eq_true]
  refine ⟨⟨⟨?_, ?_⟩, ?_⟩, ?_⟩
  · -- names of structs
    have hreq : ∀ {a b : List Char}, requestName svc a = requestName svc b → a = b := by
      intro a b h
      simp only [requestName] at h
      simpa using h
    have hrsp : ∀ {a b : List Char}, responseName svc a = responseName svc b → a = b := by
      intro a b h
      simp only [responseName] at h
      simpa using h
    have hdiff : ∀ a b : List Char, requestName svc a ≠ responseName svc b := by
      intro a b h
      have := congrArg (fun l => l.reverse.head?) h
      simp [requestName, responseName] at this
    simp only [File.names]
    rw [List.nodup_append]
    refine ⟨?_, ?_, ?_⟩
    · have hnd : (file.methods.map (·.1)).Nodup := F.methods ▸ hn.methods
      clear hok hname
      generalize file.methods = l at hnd
      induction l with
      | nil => exact List.nodup_nil
      | cons e l ih =>
        simp only [List.map_cons, List.nodup_cons] at hnd
        simp only [List.flatMap_cons, List.cons_append, List.nil_append, List.nodup_cons, List.mem_cons, not_or,
          List.mem_flatMap]
        refine ⟨⟨hdiff _ _, ?_⟩, ?_, ih hnd.2⟩
        · rintro ⟨e', he', h⟩
          simp only [List.not_mem_nil, or_false] at h
          rcases h with h | h
          · exact hnd.1 (hreq h ▸ List.mem_map.2 ⟨e', he', rfl⟩)
          · exact hdiff _ _ h
        · rintro ⟨e', he', h⟩
          simp only [List.not_mem_nil, or_false] at h
          rcases h with h | h
          · exact hdiff _ _ h.symm
          · exact hnd.1 (hrsp h ▸ List.mem_map.2 ⟨e', he', rfl⟩)
    · have key : ∀ l : List (UserTy × List Field), (l.map (·.1)).Nodup →
          (∀ e ∈ l, ∃ τ ∈ methodTypes ms, Reach env τ e.1) → (l.map fun e => e.1.name).Nodup := by
        intro l
        induction l with
        | nil => intros; exact List.nodup_nil
        | cons e l ih =>
          intro h1 h2
          simp only [List.map_cons, List.nodup_cons] at h1 ⊢
          refine ⟨?_, ih h1.2 fun e he => h2 e (List.mem_cons_of_mem _ he)⟩
          intro hmem
          obtain ⟨e', he', heq⟩ := List.mem_map.1 hmem
          obtain ⟨τ, hτ, hr⟩ := h2 e List.mem_cons_self
          obtain ⟨τ', hτ', hr'⟩ := h2 e' (List.mem_cons_of_mem _ he')
          have := hn.structs τ' hτ' τ hτ _ _ hr' hr heq
          exact h1.1 (this ▸ List.mem_map.2 ⟨e', he', rfl⟩)
      exact key _ F.nodup hname
    · intro a ha b hb hab
      subst hab
      obtain ⟨e, he, heq⟩ := List.mem_map.1 hb
      obtain ⟨τ, hτ, hr⟩ := hname e he
      obtain ⟨e', he', hm'⟩ := List.mem_flatMap.1 ha
      obtain ⟨m, hm, h1, _⟩ := F.vars e' he'
      have := hn.messages τ hτ e.1 hr m hm
      simp only [List.mem_cons, List.not_mem_nil, or_false, h1] at hm'
      rcases hm' with h | h
      · exact this.1 (heq.trans h)
      · exact this.2 (heq.trans h)
  · intro fs hfs
    have hnames : NamesOk pub (fs.map (·.name)) := by
      rcases mem_fieldLists.1 hfs with ⟨e, he, hh⟩ | ⟨e, he, rfl⟩
      · obtain ⟨m, hm, _, h2, h3⟩ := F.vars e he
        obtain ⟨a1, a2, _⟩ := hn.args m hm
        rcases hh with rfl | rfl
        · rw [hfst h2]; exact a1
        · rw [hfst h3]; exact a2
      · obtain ⟨τ, hτ, hr⟩ := hname e he
        obtain ⟨ds, hds, h⟩ := F.structs e he
        rw [hfst h, hnamed]
        exact (hn.fields τ hτ _ ds hr hds).1
    simp only [fieldsOk, Bool.and_eq_true, decide_eq_true_eq, List.all_eq_true]
    refine ⟨⟨?_, hnames.1⟩, fun f hf => ⟨(compilable_iff (F.types fs hfs f hf).1).2 (hok fs hfs f hf),
      (hnames.2.2 _ (List.mem_map.2 ⟨f, hf, rfl⟩)).trans (capital_goName _).symm⟩⟩
    have := hnames.2.1
    rw [List.map_map] at this
    rwa [show (fun f : Field => capital f.name) = goName ∘ fun f : Field => f.name from funext fun f => capital_goName _]
  · intro e he f hf
    obtain ⟨τ, hτ, hr⟩ := hname e he
    obtain ⟨ds, hds, h⟩ := F.structs e he
    have hmem : (f.name, f.src) ∈ namedFields ds := h ▸ List.mem_map.2 ⟨f, hf, rfl⟩
    obtain ⟨d, hd1, _, hd3, _⟩ := mem_namedFields hmem
    obtain ⟨c, cs, hx, h1, h2⟩ := (hn.fields τ hτ _ ds hr hds).2 d hd1 f.name (by simpa using hd3)
    rw [hx]
    simp [Grpc.exported, h1, h2]
  · intro e he f hf
    obtain ⟨m, hm, _, h2, h3⟩ := F.vars e he
    refine (hn.args m hm).2.2 (f.name, f.src) ?_
    rw [← h2, ← h3, ← List.map_append]
    exact List.mem_map.2 ⟨f, hf, rfl⟩

/-- **C95** (which types compile).  A file that compiles has only types of these kinds. -/
theorem C95_compiled_types {n : Nat} (hg : generate env n ms = .ok file) (ha : file.accepted pub svc = true) :
    ∀ τ ∈ methodTypes ms, Everywhere env Compilable τ := by
  have F := generate_ok hg
  rw [F.field_types]
  intro fs hfs f hf
  exact (compilable_iff (F.types fs hfs f hf).1).1 (((accepted_spec ha).2 fs hfs).2.2 f hf)

/-- **C95** (arguments).  For every file that compiles, and every method whose arguments have
types without pointers, maps, embedded structs and lines with several fields: whatever the
arguments are, if their numbers of type `int` fit into 32 bits, what the server unpacks is what
the client packed.
Missing for the full property: larger numbers, pointers, maps, embedded structs and lines with
several fields, for which it is false (see the refutations). -/
theorem C95_arguments_partial {n : Nat} (hg : generate env n ms = .ok file) (ha : file.accepted pub svc = true)
    (hnd : (ms.map (·.name)).Nodup)
    {m : Method} (hm : m ∈ ms) {req rsp : List Field} (he : (m.name, req, rsp) ∈ file.methods)
    (hf : ∀ v ∈ m.args, Faithful env v.2) {args : List (List Char × Val)}
    (ht : SmallInts env (named 0 m.args) args) :
    ∃ msg N, ∀ n, N ≤ n → pack file n req args = .ok msg ∧ unpack file n req msg = .ok args := by
  have F := generate_ok hg
  obtain ⟨m', hm', h1, h2, _⟩ := F.vars _ he
  have := eq_of_name hnd hm hm' h1
  subst this
  exact vars_rt hg ha (fun v hv => List.mem_flatMap.2 ⟨m, hm, List.mem_append.2 (Or.inl (List.mem_map.2 ⟨v, hv, rfl⟩))⟩)
    hf (mem_fieldLists.2 (Or.inl ⟨_, he, Or.inl rfl⟩)) h2 ht
where
  eq_of_name {ms : List Method} (hnd : (ms.map (·.name)).Nodup) {a b : Method} (ha : a ∈ ms) (hb : b ∈ ms)
      (h : a.name = b.name) : a = b := by
    induction ms with
    | nil => cases ha
    | cons c ms ih =>
      simp only [List.map_cons, List.nodup_cons] at hnd
      rcases List.mem_cons.1 ha with h1 | h1 <;> rcases List.mem_cons.1 hb with h2 | h2
      · exact h1.trans h2.symm
      · exact absurd (h1 ▸ h ▸ List.mem_map.2 ⟨b, h2, rfl⟩) hnd.1
      · exact absurd (h2 ▸ h ▸ List.mem_map.2 ⟨a, h1, rfl⟩) hnd.1
      · exact ih hnd.2 h1 h2

/-- **C95** (results).  The same for the results of a method. -/
theorem C95_results_partial {n : Nat} (hg : generate env n ms = .ok file) (ha : file.accepted pub svc = true)
    (hnd : (ms.map (·.name)).Nodup)
    {m : Method} (hm : m ∈ ms) {req rsp : List Field} (he : (m.name, req, rsp) ∈ file.methods)
    (hf : ∀ v ∈ m.rets, Faithful env v.2) {rets : List (List Char × Val)}
    (ht : SmallInts env (named 0 m.rets) rets) :
    ∃ msg N, ∀ n, N ≤ n → pack file n rsp rets = .ok msg ∧ unpack file n rsp msg = .ok rets := by
  have F := generate_ok hg
  obtain ⟨m', hm', h1, _, h3⟩ := F.vars _ he
  have := C95_arguments_partial.eq_of_name hnd hm hm' h1
  subst this
  exact vars_rt hg ha (fun v hv => List.mem_flatMap.2 ⟨m, hm, List.mem_append.2 (Or.inr (List.mem_map.2 ⟨v, hv, rfl⟩))⟩)
    hf (mem_fieldLists.2 (Or.inl ⟨_, he, Or.inr rfl⟩)) h3 ht

/-- **C95** (numbers).  Numbers are declared with thrift types that hold them, apart from numbers of type `int`, `uint64`, `byte` and
`rune`. -/
theorem C95_numbers_partial {n : Nat} (hg : generate env n ms = .ok file) {fs : List Field} (hfs : fs ∈ file.fieldLists) {f : Field}
    (hf : f ∈ fs) {b : Basic} (hb : f.src = .basic b) (h1 : b ≠ .int) (h2 : b ≠ .uint64) (h3 : b ≠ .byte) (h4 : b ≠ .rune) {i : Int}
    (hi : InRange b i) : ∃ s, f.thrift = .base s ∧ ThriftHolds s i := by
  have ht := ((generate_ok hg).types fs hfs f hf).1
  rw [hb] at ht
  cases b <;> simp only [getThriftType, basicToThrift, Option.map_some, Option.map_none, Option.some.injEq, Prod.mk.injEq,
    reduceCtorEq] at ht <;> first | exact absurd hi id | (refine ⟨_, ht.1.symm, ?_⟩; simp only [InRange, ThriftHolds] at hi ⊢; omega) | simp_all

/-- **C95** (names).  The conversion functions of an accepted file use the Go names of thrift fields: abbreviations such as `Id` in
capitals, and other names with a capital first letter. -/
theorem C95_names (ha : file.accepted pub svc = true) {fs : List Field}
    (hfs : fs ∈ file.fieldLists) {f : Field} (hf : f ∈ fs) : pub f.name = goName f.name := by
  simp only [File.accepted, Bool.and_eq_true, decide_eq_true_eq, List.all_eq_true] at ha
  have := ha.1.1.2 fs hfs
  simp only [fieldsOk, Bool.and_eq_true, decide_eq_true_eq, List.all_eq_true] at this
  rw [(this.2 f hf).2, capital_goName]

end Verif.Thrift
