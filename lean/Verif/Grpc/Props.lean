import Verif.Grpc.Compile
/-
C51: arguments and results survive the conversion to gRPC messages and back.
C64: a call through the generated client does what a direct call does.
-/
namespace Verif.Grpc

deriving instance DecidableEq for File

variable {env : UserTy → Option (List FieldDecl)} {base svc : List Char} {ms : List Method} {file : File}

theorem fieldsFor_all : ∀ (ds : List FieldDecl) (acc out : List Field),
    fieldsFor base (parseFields ds) acc = some out →
    out.map (fun f => (f.name, f.src)) = acc.map (fun f => (f.name, f.src)) ++
      (ds.filterMap fun d => d.names.head?.map fun x => (x, d.ty)) ∧
    (acc.map (·.position) = List.range' 1 acc.length → out.map (·.position) = List.range' 1 out.length)
  | [], acc, out, h => by
    simp only [parseFields, List.map_nil, fieldsFor, Option.some.injEq] at h
    subst h
    simp
  | ⟨[], ty⟩ :: ds, acc, out, h => by
    simp only [parseFields, List.map_cons, List.head?_nil, fieldsFor] at h
    have := fieldsFor_all ds acc out h
    simpa [List.filterMap_cons] using this
  | ⟨x :: xs, ty⟩ :: ds, acc, out, h => by
    simp only [parseFields, List.map_cons, List.head?_cons, fieldsFor] at h
    split at h
    · obtain ⟨h1, h2⟩ := fieldsFor_all ds _ out h
      refine ⟨by rw [h1]; simp, fun ha => h2 ?_⟩
      simp only [List.map_append, ha, List.map_cons, List.map_nil, List.length_append, List.length_cons,
        List.length_nil, Nat.zero_add, List.range'_append_1]
      rw [List.range'_concat]
      simp [Nat.add_comm]
    · cases h

theorem varFields_positions : ∀ (vars : List (List Char × Ty)) (i : Nat) (fs : List Field),
    varFields base i vars = some fs → fs.map (·.position) = List.range' (i + 1) fs.length
  | [], i, fs, h => by
    simp only [varFields, Option.some.injEq] at h
    subst h
    rfl
  | v :: vars, i, fs, h => by
    rw [varFields] at h
    split at h
    · cases h
    · obtain ⟨fs', h1, rfl⟩ := Option.map_eq_some_iff.1 h
      simp [varFields_positions vars _ _ h1, List.range'_succ]

/-- **C51** (which interfaces code is generated for).  Generation always ends, also for types
that contain themselves; it succeeds for the supported types, and reports an error for all
others. -/
theorem C51_generates (hfin : ∃ U : List UserTy, ∀ t, env t ≠ none → t ∈ U) (base : List Char) (ms : List Method) :
    ∃ N r, (∀ n, N ≤ n → generate env n base ms = r) ∧
      ((∀ τ ∈ methodTypes ms, Everywhere env Supported τ) → ∃ file, r = .ok file) ∧
      ((¬ ∀ τ ∈ methodTypes ms, Everywhere env Supported τ) → r = .error) := by
  obtain ⟨U, hU⟩ := hfin
  obtain ⟨N, r, hr, hN⟩ := generate_settles hU base ms
  have hN' := hN N (Nat.le_refl _)
  refine ⟨N, r, hN, ?_, ?_⟩
  · intro h
    match r, hr, hN' with
    | .ok file, _, _ => exact ⟨file, rfl⟩
    | .error, _, hN' => exact absurd hN' (generate_not_error h)
  · intro h
    match r, hr, hN' with
    | .error, _, _ => rfl
    | .ok file, _, hN' =>
      obtain ⟨h1, h2⟩ := generate_ok hN'
      exact absurd (h1.supported h2) h

/-- **C51** (what is declared).  The file has a request and a response for every method, with
a field for every argument and result, numbered from one; and a message for exactly the
structs that the arguments and results contain, with a field for every line that declares
one. -/
theorem C51_declares {n : Nat} (hg : generate env n base ms = .ok file) :
    file.methods.map (·.1) = ms.map (·.name) ∧
    (∀ m ∈ ms, ∃ req rsp, (m.name, req, rsp) ∈ file.methods ∧
      req.map (fun f => (f.name, f.src)) = named 0 m.args ∧
      rsp.map (fun f => (f.name, f.src)) = named 0 m.rets) ∧
    (file.builder.structs.map (·.1)).Nodup ∧
    (∀ t, t ∈ file.builder.structs.map (·.1) ↔ ∃ τ ∈ methodTypes ms, Reach env τ t) ∧
    (∀ t fs, (t, fs) ∈ file.builder.structs → ∃ ds, env t = some ds ∧
      fs.map (fun f => (f.name, f.src)) = ds.filterMap fun d => d.names.head?.map fun x => (x, d.ty)) ∧
    ∀ fs ∈ file.fieldLists, fs.map (·.position) = List.range' 1 fs.length := by
  obtain ⟨h, -⟩ := generate_ok hg
  refine ⟨h.names, ?_, h.nodup, h.reach, ?_, ?_⟩
  · intro m hm
    obtain ⟨req, rsp, h1, h2, h3⟩ := h.methods m hm
    exact ⟨req, rsp, h1, (varFields_spec _ _ _ h2).2.2, (varFields_spec _ _ _ h3).2.2⟩
  · intro t fs he
    obtain ⟨ds, h1, h2⟩ := h.structs _ he
    refine ⟨ds, h1, ?_⟩
    simpa using (fieldsFor_all ds [] fs h2).1
  · intro fs hfs
    rcases mem_fieldLists.1 hfs with ⟨e, he, hfs⟩ | ⟨e, he, rfl⟩
    · obtain ⟨m, _, _, h2, h3⟩ := h.sound e he
      rcases hfs with rfl | rfl
      · exact varFields_positions _ 0 _ h2
      · exact varFields_positions _ 0 _ h3
    · obtain ⟨ds, _, h2⟩ := h.structs e he
      exact (fieldsFor_all ds [] _ h2).2 rfl

/-- **C51** (which files compile).  If all types are of the kinds that compile, and no names
get in each other's way, then protoc and the Go compiler accept the file. -/
theorem C51_compiles {n : Nat} (hg : generate env n base ms = .ok file)
    (hc : ∀ τ ∈ methodTypes ms, Everywhere env Compilable τ) (hn : CleanNames env svc base ms) :
    file.accepted svc = true := accepted_of_clean hg hc hn

/-- **C51** (arguments).  For every file that compiles, and every method whose arguments have
types without pointers, maps, embedded structs and lines with several fields: whatever the
arguments are, what the server unpacks is what the client packed.
Missing for the full property: pointers, maps, embedded structs and lines with several fields,
for which it is false (see the refutations below). -/
theorem C51_arguments_partial {n : Nat} (hg : generate env n base ms = .ok file) (ha : file.accepted svc = true)
    {m : Method} (hm : m ∈ ms) {req rsp : List Field} (he : (m.name, req, rsp) ∈ file.methods)
    (hf : ∀ v ∈ m.args, Faithful env v.2) {args : List (List Char × Val)}
    (ht : Typed env (named 0 m.args) args) :
    ∃ msg N, ∀ n, N ≤ n → pack file.builder n req args = .ok msg ∧
      unpack file.builder n req msg = .ok args := by
  refine vars_rt hg ha ?_ hf (mem_fieldLists.2 (Or.inl ⟨_, he, Or.inl rfl⟩))
    (method_fields (generate_ok hg).1 ha hm he).1 ht
  intro v hv
  exact List.mem_flatMap.2 ⟨m, hm, List.mem_append.2 (Or.inl (List.mem_map.2 ⟨v, hv, rfl⟩))⟩

/-- **C51** (results).  The same for the results of a method. -/
theorem C51_results_partial {n : Nat} (hg : generate env n base ms = .ok file) (ha : file.accepted svc = true)
    {m : Method} (hm : m ∈ ms) {req rsp : List Field} (he : (m.name, req, rsp) ∈ file.methods)
    (hf : ∀ v ∈ m.rets, Faithful env v.2) {rets : List (List Char × Val)}
    (ht : Typed env (named 0 m.rets) rets) :
    ∃ msg N, ∀ n, N ≤ n → pack file.builder n rsp rets = .ok msg ∧
      unpack file.builder n rsp msg = .ok rets := by
  refine vars_rt hg ha ?_ hf (mem_fieldLists.2 (Or.inl ⟨_, he, Or.inr rfl⟩))
    (method_fields (generate_ok hg).1 ha hm he).2 ht
  intro v hv
  exact List.mem_flatMap.2 ⟨m, hm, List.mem_append.2 (Or.inr (List.mem_map.2 ⟨v, hv, rfl⟩))⟩

/-- **C51** (maps).  The server never receives an entry of a map: whatever message arrives,
an argument whose type is a map is nil or empty. -/
theorem C51_maps_are_lost {n k : Nat} (hg : generate env n base ms = .ok file) (ha : file.accepted svc = true)
    {m : Method} (hm : m ∈ ms) {req rsp : List Field} (he : (m.name, req, rsp) ∈ file.methods)
    {x : List Char} {κ τ : Ty} (hx : (x, .map κ τ) ∈ named 0 m.args) {msg args : List (List Char × Val)}
    (hu : unpack file.builder k req msg = .ok args) :
    get x args = none ∨ get x args = some (.map []) := by
  obtain ⟨hok, -⟩ := generate_ok hg
  obtain ⟨v1, _, v3⟩ := varFields_spec _ _ _ (method_fields hok ha hm he).1
  rw [← v3] at hx
  obtain ⟨f, hf, hfe⟩ := List.mem_map.1 hx
  obtain ⟨rfl, hsrc⟩ := Prod.mk.inj hfe
  obtain ⟨m1, _, _⟩ := messageOk_spec ((accepted_spec ha).2 _ (mem_fieldLists.2 (Or.inl ⟨_, he, Or.inl rfl⟩)))
  have hgt : ∃ k g, f.grpc = .map k g := by
    have := (v1 f hf).1
    rw [hsrc] at this
    obtain ⟨s, _, h⟩ := Option.bind_eq_some_iff.1 this
    obtain ⟨r, _, hr⟩ := Option.map_eq_some_iff.1 h
    exact ⟨_, _, (Prod.mk.inj hr).2.symm⟩
  obtain ⟨k', g, hgt⟩ := hgt
  exact execAllU_field (P := fun o => o = none ∨ o = some (.map []))
    (fun obj obj' ut h0 hut h => map_lost hgt h0 hut h) hu m1 hf rfl

/-- **C51** (pointers).  Unpacking never succeeds for a method with an argument that is a
pointer to a struct with a field: the server crashes, whatever message arrives. -/
theorem C51_pointers_crash {n k : Nat} (hg : generate env n base ms = .ok file) (ha : file.accepted svc = true)
    {m : Method} (hm : m ∈ ms) {req rsp : List Field} (he : (m.name, req, rsp) ∈ file.methods)
    {x : List Char} {t : UserTy} {ds : List FieldDecl} (hx : (x, .pointer (.user t)) ∈ named 0 m.args)
    (hds : env t = some ds) (hd : ∃ d ∈ ds, d.names ≠ []) (msg args : List (List Char × Val)) :
    unpack file.builder k req msg ≠ .ok args := by
  intro hu
  obtain ⟨hok, -⟩ := generate_ok hg
  obtain ⟨v1, _, v3⟩ := varFields_spec _ _ _ (method_fields hok ha hm he).1
  rw [← v3] at hx
  obtain ⟨f, hf, hfe⟩ := List.mem_map.1 hx
  obtain ⟨rfl, hsrc⟩ := Prod.mk.inj hfe
  obtain ⟨m1, _, _⟩ := messageOk_spec ((accepted_spec ha).2 _ (mem_fieldLists.2 (Or.inl ⟨_, he, Or.inl rfl⟩)))
  have hgt : f.grpc = .pointer (.user (msgName base t)) := by
    have := (v1 f hf).1
    rw [hsrc] at this
    simp only [protoOf, Option.map_some, Option.some.injEq, Prod.mk.injEq] at this
    exact this.2.symm
  have hT : file.builder.code (msgName base t) ≠ some [] := by
    obtain ⟨v, hv, hvs⟩ := (v1 f hf).2
    have hr : Reach env v.2 t := by
      rw [← hvs, hsrc]
      exact .here rfl
    have hmt : v.2 ∈ methodTypes ms :=
      List.mem_flatMap.2 ⟨m, hm, List.mem_append.2 (Or.inl (List.mem_map.2 ⟨v, hv, rfl⟩))⟩
    obtain ⟨e, hes, rfl⟩ := List.mem_map.1 ((hok.reach t).2 ⟨v.2, hmt, hr⟩)
    have hcode := accepted_code ha hes
    rw [hok.name] at hcode
    rw [hcode]
    obtain ⟨ds', hds', hff⟩ := hok.structs e hes
    have : ds' = ds := Option.some.inj (hds'.symm.trans hds)
    subst this
    have hh := fieldsFor_heads ds' [] e.2 hff
    obtain ⟨d, hd1, hd2⟩ := hd
    intro h0
    simp only [Option.some.injEq] at h0
    rw [h0] at hh
    simp only [List.map_nil, List.nil_append] at hh
    have : d.names.head? = none := List.filterMap_eq_nil_iff.1 hh.symm d hd1
    exact hd2 (List.head?_eq_none_iff.1 this)
  exact execAllU_field (P := fun _ => False)
    (fun obj obj' ut h0 hut h => pointer_panics hgt hT h0 hut h) hu m1 hf rfl

/-- **C64**.  For every file that compiles, every method whose arguments and results have
types without pointers, maps, embedded structs and lines with several fields, every
implementation, state and arguments: if the call is delivered, the implementation is called
once, with the arguments of the client, and the client returns its results, or an error if it
returned one.  If the request is lost the implementation is not called; if the reply is lost
it is called once.  In both cases the client returns an error.
Missing for the full property: the types for which C51 is false, and the text of errors. -/
theorem C64_call_partial {σ : Type} {n : Nat} (hg : generate env n base ms = .ok file)
    (ha : file.accepted svc = true) {m : Method} (hm : m ∈ ms) {req rsp : List Field}
    (he : (m.name, req, rsp) ∈ file.methods)
    (hf : ∀ v ∈ m.args ++ m.rets, Faithful env v.2)
    (impl : σ → List (List Char × Val) → σ × Option (List (List Char × Val)))
    (himpl : ∀ s a rets, Typed env (named 0 m.args) a → (impl s a).2 = some rets →
      Typed env (named 0 m.rets) rets)
    (net : Net) (s : σ) {args : List (List Char × Val)} (ht : Typed env (named 0 m.args) args) :
    ∃ N, ∀ n, N ≤ n → remoteCall file.builder n req rsp impl net s args = some (match net with
      | .lostRequest => ⟨some s, [], .error⟩
      | .lostReply => ⟨some (impl s args).1, [args], .error⟩
      | .deliver => ⟨some (impl s args).1, [args], match (impl s args).2 with
        | some rets => .results rets
        | none => .error⟩) := by
  obtain ⟨msg, N, hN⟩ := C51_arguments_partial hg ha hm he
    (fun v hv => hf v (List.mem_append.2 (Or.inl hv))) ht
  cases hi : (impl s args).2 with
  | none =>
    refine ⟨N, fun n hn => ?_⟩
    obtain ⟨h1, h2⟩ := hN n hn
    have hi' : impl s args = ((impl s args).1, none) := by rw [← hi]
    simp only [remoteCall, h1, h2]
    cases net with
    | lostRequest => rfl
    | deliver => rw [hi']
    | lostReply => rw [hi']
  | some rets =>
    obtain ⟨rmsg, N', hN'⟩ := C51_results_partial hg ha hm he
      (fun v hv => hf v (List.mem_append.2 (Or.inr hv))) (himpl s args rets ht hi)
    refine ⟨max N N', fun n hn => ?_⟩
    obtain ⟨h1, h2⟩ := hN n (by omega)
    obtain ⟨h3, h4⟩ := hN' n (by omega)
    have hi' : impl s args = ((impl s args).1, some rets) := by rw [← hi]
    simp only [remoteCall, h1, h2]
    cases net with
    | lostRequest => rfl
    | deliver => rw [hi']; simp only [h3, h4]
    | lostReply => rw [hi']; simp only [h3]

/-- **C64** (at most once).  Whatever the types, the network and the implementation do, a call
of the client leads to at most one call of the implementation; and to exactly one if the
client returns results. -/
theorem C64_at_most_once {σ : Type} {b : Builder} {n : Nat} {req rsp : List Field}
    {impl : σ → List (List Char × Val) → σ × Option (List (List Char × Val))} {net : Net} {s : σ}
    {args : List (List Char × Val)} {r : Served σ} (h : remoteCall b n req rsp impl net s args = some r) :
    r.calls.length ≤ 1 ∧ (∀ vs, r.reply = .results vs → ∃ a, r.calls = [a] ∧ (impl s a).2 ≠ none ∧
      r.state = some (impl s a).1) := by
  unfold remoteCall at h
  repeat' split at h
  all_goals first
    | (cases h; done)
    | (simp only [Option.some.injEq] at h; subst h; refine ⟨by simp, ?_⟩; intro vs hvs; cases hvs; done)
    | (simp only [Option.some.injEq] at h
       subst h
       refine ⟨by simp, ?_⟩
       intro vs _
       have hi := ‹impl s _ = (_, some _)›
       exact ⟨_, rfl, by rw [hi]; simp, by rw [hi]⟩)

/-! ### A concrete case -/

/-- `type User struct { Name string; Age uint8 }` and
`type Item struct { Id int64; Tags []string; Owner User; Parts []Item }`. -/
def exUser : UserTy := ⟨"app".toList, "User".toList⟩
def exItem : UserTy := ⟨"app".toList, "Item".toList⟩
def exUserFields : List FieldDecl :=
  [⟨["Name".toList], .basic .string⟩, ⟨["Age".toList], .basic .uint8⟩]
def exItemFields : List FieldDecl :=
  [⟨["Id".toList], .basic .int64⟩, ⟨["Tags".toList], .slice (.basic .string)⟩,
    ⟨["Owner".toList], .user exUser⟩, ⟨["Parts".toList], .slice (.user exItem)⟩]
def exEnv : UserTy → Option (List FieldDecl) := fun t =>
  if t = exUser then some exUserFields else if t = exItem then some exItemFields else none

/-- `Put(ctx, item Item, count int) (Item, bool, error)` -/
def exPut : Method :=
  ⟨"Put".toList, [("item".toList, .user exItem), ("count".toList, .basic .int)],
    [([], .user exItem), ([], .basic .bool)]⟩

def exFile : File :=
  match generate exEnv 9 "Shop".toList [exPut] with
  | .ok f => f
  | _ => ⟨⟨[], []⟩, []⟩

theorem exFile_ok : generate exEnv 9 "Shop".toList [exPut] = .ok exFile ∧
    exFile.accepted "Shop".toList = true ∧ exFile.methods.map (·.1) = ["Put".toList] ∧
    exFile.builder.structs.map (·.1) = [exItem, exUser] := by decide +kernel

theorem exEnv_reach {τ : Ty} {t : UserTy} (hτ : ∀ u, Mentions u τ → u = exUser ∨ u = exItem)
    (h : Reach exEnv τ t) : t = exUser ∨ t = exItem := by
  induction h with
  | here hm => exact hτ _ hm
  | @field t ds d u _ hds hd _ hm ih =>
    rcases ih with rfl | rfl
    · have : ds = exUserFields := (Option.some.inj hds).symm
      subst this
      simp only [exUserFields, List.mem_cons, List.not_mem_nil, or_false] at hd
      rcases hd with rfl | rfl <;> cases hm
    · have : ds = exItemFields := (Option.some.inj (show some exItemFields = some ds from hds)).symm
      subst this
      simp only [exItemFields, List.mem_cons, List.not_mem_nil, or_false] at hd
      rcases hd with rfl | rfl | rfl | rfl
      · cases hm
      · cases hm
      · exact Or.inl (show exUser = u from hm).symm
      · exact Or.inr (show exItem = u from hm).symm

theorem exEnv_everywhere {P : Ty → Prop} {τ : Ty} (hτ : ∀ u, Mentions u τ → u = exUser ∨ u = exItem) (hP : P τ)
    (h1 : ∀ d ∈ exUserFields, P d.ty) (h2 : ∀ d ∈ exItemFields, P d.ty) : Everywhere exEnv P τ := by
  refine ⟨hP, fun t ht => ?_⟩
  rcases exEnv_reach hτ ht with rfl | rfl
  · exact ⟨exUserFields, rfl, fun d hd _ => h1 d hd⟩
  · exact ⟨exItemFields, rfl, fun d hd _ => h2 d hd⟩

theorem exEnv_faithful {τ : Ty} (hτ : ∀ u, Mentions u τ → u = exUser ∨ u = exItem) (hP : Plain τ) :
    Faithful exEnv τ := by
  refine ⟨exEnv_everywhere hτ hP ?_ ?_, ?_⟩
  · simp [exUserFields, Plain]
  · simp [exItemFields, Plain]
  · intro t ds ht hds
    rcases exEnv_reach hτ ht with rfl | rfl
    · have : ds = exUserFields := (Option.some.inj hds).symm
      subst this
      intro d hd
      simp only [exUserFields, List.mem_cons, List.not_mem_nil, or_false] at hd
      rcases hd with rfl | rfl <;> rfl
    · have : ds = exItemFields := (Option.some.inj (show some exItemFields = some ds from hds)).symm
      subst this
      intro d hd
      simp only [exItemFields, List.mem_cons, List.not_mem_nil, or_false] at hd
      rcases hd with rfl | rfl | rfl | rfl <;> rfl

theorem exPut_faithful : ∀ v ∈ exPut.args ++ exPut.rets, Faithful exEnv v.2 := by
  intro v hv
  simp only [exPut, List.cons_append, List.nil_append, List.mem_cons, List.not_mem_nil, or_false] at hv
  rcases hv with rfl | rfl | rfl | rfl
  · exact exEnv_faithful (fun u hu => Or.inr (show exItem = u from hu).symm) trivial
  · exact exEnv_faithful (fun u hu => by cases hu) trivial
  · exact exEnv_faithful (fun u hu => Or.inr (show exItem = u from hu).symm) trivial
  · exact exEnv_faithful (fun u hu => by cases hu) trivial

/-- An item with a part in it. -/
def exVal : Val :=
  .struct [("Id".toList, .prim (.int (-5))), ("Tags".toList, .slice [.prim (.str "a".toList)]),
    ("Owner".toList, .struct [("Name".toList, .prim (.str "x".toList)), ("Age".toList, .prim (.int 200))]),
    ("Parts".toList, .slice [.struct [("Id".toList, .prim (.int 1)), ("Tags".toList, .slice []),
      ("Owner".toList, .struct [("Name".toList, .prim (.str [])), ("Age".toList, .prim (.int 0))]),
      ("Parts".toList, .slice [])]])]

theorem exUser_typed {x : List Char} {i : Int} (hi : 0 ≤ i ∧ i < 256) : HasType exEnv (.user exUser)
    (.struct [("Name".toList, .prim (.str x)), ("Age".toList, .prim (.int i))]) := by
  refine .struct (ds := exUserFields) rfl rfl ?_
  intro y τ v h1 h2
  simp only [structFields, exUserFields, List.flatMap_cons, List.map_cons, List.map_nil, List.flatMap_nil,
    List.append_nil, List.cons_append, List.nil_append, List.mem_cons, List.not_mem_nil, or_false, Prod.mk.injEq] at h1 h2
  rcases h1 with ⟨rfl, rfl⟩ | ⟨rfl, rfl⟩
  · rcases h2 with ⟨_, rfl⟩ | ⟨h, _⟩
    · exact .prim trivial
    · exact absurd h (by decide)
  · rcases h2 with ⟨h, _⟩ | ⟨_, rfl⟩
    · exact absurd h (by decide)
    · exact .prim hi

theorem exItem_typed {i : Int} {tags parts : List Val} {o : Val} (hi : InRange .int64 i)
    (ht : HasType exEnv (.slice (.basic .string)) (.slice tags)) (ho : HasType exEnv (.user exUser) o)
    (hp : HasType exEnv (.slice (.user exItem)) (.slice parts)) : HasType exEnv (.user exItem)
    (.struct [("Id".toList, .prim (.int i)), ("Tags".toList, .slice tags), ("Owner".toList, o),
      ("Parts".toList, .slice parts)]) := by
  refine .struct (ds := exItemFields) rfl rfl ?_
  intro y τ v h1 h2
  simp only [structFields, exItemFields, List.flatMap_cons, List.map_cons, List.map_nil, List.flatMap_nil,
    List.append_nil, List.cons_append, List.nil_append, List.mem_cons, List.not_mem_nil, or_false, Prod.mk.injEq] at h1 h2
  rcases h1 with ⟨rfl, rfl⟩ | ⟨rfl, rfl⟩ | ⟨rfl, rfl⟩ | ⟨rfl, rfl⟩ <;>
    rcases h2 with ⟨h, rfl⟩ | ⟨h, rfl⟩ | ⟨h, rfl⟩ | ⟨h, rfl⟩ <;>
    first
      | exact absurd h (by decide)
      | exact .prim hi
      | exact ht
      | exact ho
      | exact hp

theorem exArgs_typed : Typed exEnv (named 0 exPut.args)
    [("item".toList, exVal), ("count".toList, .prim (.int 3))] := by
  refine ⟨rfl, ?_⟩
  intro x τ v h1 h2
  simp only [named, exPut, List.mem_cons, List.not_mem_nil, or_false, Prod.mk.injEq] at h1 h2
  have hne : ("item".toList = "count".toList) = False := eq_false (by decide)
  have hv : HasType exEnv (.user exItem) exVal := by
    refine exItem_typed (by simp [InRange]) (.slice ?_) (exUser_typed (by omega)) (.slice ?_)
    · intro v hv
      rw [List.mem_singleton.1 hv]
      exact .prim trivial
    · intro v hv
      rw [List.mem_singleton.1 hv]
      exact exItem_typed (by simp [InRange]) (.slice (by simp)) (exUser_typed (by omega)) (.slice (by simp))
  rcases h1 with ⟨rfl, rfl⟩ | ⟨rfl, rfl⟩ <;> rcases h2 with ⟨h, rfl⟩ | ⟨h, rfl⟩
  · exact hv
  · exact absurd h (by decide)
  · exact absurd h (by decide)
  · exact .prim (by simp [PrimOf, InRange])

/-- The hypotheses of the theorems hold for the example: the method's arguments, which contain
themselves to any depth, survive. -/
example : ∃ req rsp, ("Put".toList, req, rsp) ∈ exFile.methods ∧
    ∃ msg N, ∀ n, N ≤ n →
      pack exFile.builder n req [("item".toList, exVal), ("count".toList, .prim (.int 3))] = .ok msg ∧
      unpack exFile.builder n req msg = .ok [("item".toList, exVal), ("count".toList, .prim (.int 3))] := by
  obtain ⟨h1, h2, -, -⟩ := exFile_ok
  obtain ⟨req, rsp, he, _⟩ := (C51_declares h1).2.1 exPut (by simp)
  exact ⟨req, rsp, he, C51_arguments_partial h1 h2 (by simp) he
    (fun v hv => exPut_faithful v (List.mem_append.2 (Or.inl hv))) exArgs_typed⟩

/-- The call of a service that returns the item. -/
example : ∃ req rsp, ("Put".toList, req, rsp) ∈ exFile.methods ∧ ∃ N, ∀ n, N ≤ n →
    remoteCall exFile.builder n req rsp
      (fun (s : Nat) a => (s + 1, some [("ret0".toList, (get "item".toList a).getD .nil), ("ret1".toList, .prim (.bool true))]))
      .deliver 7 [("item".toList, exVal), ("count".toList, .prim (.int 3))] =
    some ⟨some 8, [[("item".toList, exVal), ("count".toList, .prim (.int 3))]],
      .results [("ret0".toList, exVal), ("ret1".toList, .prim (.bool true))]⟩ := by
  obtain ⟨h1, h2, -, -⟩ := exFile_ok
  obtain ⟨req, rsp, he, _⟩ := (C51_declares h1).2.1 exPut (by simp)
  refine ⟨req, rsp, he, ?_⟩
  obtain ⟨N, hN⟩ := C64_call_partial (σ := Nat) h1 h2 (m := exPut) (by simp) he exPut_faithful
    (fun s a => (s + 1, some [("ret0".toList, (get "item".toList a).getD .nil), ("ret1".toList, .prim (.bool true))]))
    (by
      intro s a rets ht hr
      simp only [Option.some.injEq] at hr
      subst hr
      refine ⟨rfl, ?_⟩
      intro x τ v k1 k2
      obtain ⟨ha1, ha2⟩ := ht
      have hitem : HasType exEnv (.user exItem) ((get "item".toList a).getD .nil) := by
        match a, ha1, ha2 with
        | e :: _, ha1, ha2 =>
          have : e.1 = "item".toList := (List.cons.inj ha1).1
          simp only [get, this, if_true, Option.getD_some]
          exact ha2 "item".toList _ e.2 (by simp [named, exPut]) (by rw [← this]; exact List.mem_cons_self)
      have hn : named 0 exPut.rets = [("ret0".toList, .user exItem), ("ret1".toList, .basic .bool)] := by decide
      rw [hn] at k1
      simp only [List.mem_cons, List.not_mem_nil, or_false, Prod.mk.injEq] at k1 k2
      rcases k1 with ⟨rfl, rfl⟩ | ⟨rfl, rfl⟩ <;> rcases k2 with ⟨h, rfl⟩ | ⟨h, rfl⟩
      · exact hitem
      · exact absurd h (by decide)
      · exact absurd h (by decide)
      · exact .prim trivial)
    .deliver 7 exArgs_typed
  exact ⟨N, hN⟩

/-- The types of the example are supported and compile, and its names are clean. -/
example : (∀ τ ∈ methodTypes [exPut], Everywhere exEnv Supported τ) ∧
    (∀ τ ∈ methodTypes [exPut], Everywhere exEnv Compilable τ) ∧
    CleanNames exEnv "Shop".toList "Shop".toList [exPut] := by
  have hmt : ∀ τ ∈ methodTypes [exPut], τ = .user exItem ∨ τ = .basic .int ∨ τ = .basic .bool := by
    intro τ hτ
    simp only [methodTypes, exPut, List.flatMap_cons, List.flatMap_nil, List.append_nil, List.map_cons, List.map_nil,
      List.cons_append, List.nil_append, List.mem_cons, List.not_mem_nil, or_false] at hτ
    grind
  have hm : ∀ τ ∈ methodTypes [exPut], ∀ u, Mentions u τ → u = exUser ∨ u = exItem := by
    intro τ hτ u hu
    rcases hmt τ hτ with rfl | rfl | rfl
    · exact Or.inr (show exItem = u from hu).symm
    · cases hu
    · cases hu
  refine ⟨?_, ?_, ?_⟩
  · intro τ hτ
    refine exEnv_everywhere (hm τ hτ) ?_ ?_ ?_
    · rcases hmt τ hτ with rfl | rfl | rfl <;> simp [Supported, Simple, KnownBasic]
    · simp [exUserFields, Supported, Simple, KnownBasic]
    · simp [exItemFields, Supported, Simple, KnownBasic]
  · intro τ hτ
    refine exEnv_everywhere (hm τ hτ) ?_ ?_ ?_
    · rcases hmt τ hτ with rfl | rfl | rfl <;> simp [Compilable, KnownBasic]
    · simp [exUserFields, Compilable, KnownBasic]
    · simp [exItemFields, Compilable, ProtoBasic, KnownBasic]
  · have hl : ∀ x : List Char, x.all (fun c => ('a' ≤ c && c ≤ 'z') || ('A' ≤ c && c ≤ 'Z')) = true →
        LettersDigits x := by
      intro x
      induction x with
      | nil => exact fun _ => trivial
      | cons c cs ih =>
        intro h
        simp only [List.all_cons, Bool.and_eq_true, Bool.or_eq_true, decide_eq_true_eq] at h
        exact ⟨Or.inl h.1, ih h.2⟩
    have hp : ∀ c (cs : List Char), (c :: cs).all (fun c => ('a' ≤ c && c ≤ 'z') || ('A' ≤ c && c ≤ 'Z')) = true →
        PlainName (c :: cs) := fun c cs h => hl (c :: cs) h |>.imp (fun h' => by
          simp only [List.all_cons, Bool.and_eq_true, Bool.or_eq_true, decide_eq_true_eq] at h
          exact h.1) id
    have hret : ∀ d ∈ ['0', '1'], PlainName ['r', 'e', 't', d] := by
      intro d hd
      refine ⟨Or.inl (by decide), Or.inl (Or.inl (by decide)), Or.inl (Or.inl (by decide)), Or.inr ?_, trivial⟩
      simp only [List.mem_cons, List.not_mem_nil, or_false] at hd
      rcases hd with rfl | rfl <;> decide
    refine ⟨by decide, ?_, ?_, ?_, ?_⟩
    · intro m hm
      rw [List.mem_singleton.1 hm]
      refine ⟨⟨?_, by decide, by decide⟩, ⟨?_, by decide, by decide⟩, by decide⟩
      · intro x hx
        have : x = "item".toList ∨ x = "count".toList := by
          simpa [named, exPut] using hx
        rcases this with rfl | rfl
        · exact ⟨hp _ _ (by decide), by decide⟩
        · exact ⟨hp _ _ (by decide), by decide⟩
      · intro x hx
        have hn : (named 0 exPut.rets).map (·.1) = [['r', 'e', 't', '0'], ['r', 'e', 't', '1']] := by decide
        rw [hn] at hx
        simp only [List.mem_cons, List.not_mem_nil, or_false] at hx
        rcases hx with rfl | rfl
        · exact ⟨hret _ (by simp), by decide⟩
        · exact ⟨hret _ (by simp), by decide⟩
    · intro τ hτ t ds hr hds
      rcases exEnv_reach (hm τ hτ) hr with rfl | rfl
      · have : ds = exUserFields := (Option.some.inj hds).symm
        subst this
        refine ⟨⟨?_, by decide, by decide⟩, by decide⟩
        intro x hx
        have : x = "Name".toList ∨ x = "Age".toList := by simpa [exUserFields] using hx
        rcases this with rfl | rfl
        · exact ⟨hp _ _ (by decide), by decide⟩
        · exact ⟨hp _ _ (by decide), by decide⟩
      · have : ds = exItemFields := (Option.some.inj (show some exItemFields = some ds from hds)).symm
        subst this
        refine ⟨⟨?_, by decide, by decide⟩, by decide⟩
        intro x hx
        have : x = "Id".toList ∨ x = "Tags".toList ∨ x = "Owner".toList ∨ x = "Parts".toList := by
          simpa [exItemFields] using hx
        rcases this with rfl | rfl | rfl | rfl
        · exact ⟨hp _ _ (by decide), by decide⟩
        · exact ⟨hp _ _ (by decide), by decide⟩
        · exact ⟨hp _ _ (by decide), by decide⟩
        · exact ⟨hp _ _ (by decide), by decide⟩
    · intro τ hτ τ' hτ' t t' hr hr' hnn
      rcases exEnv_reach (hm τ hτ) hr with rfl | rfl <;> rcases exEnv_reach (hm τ' hτ') hr' with rfl | rfl
      · rfl
      · exact absurd hnn (by decide)
      · exact absurd hnn (by decide)
      · rfl
    · intro τ hτ t hr m hm'
      rw [List.mem_singleton.1 hm']
      rcases exEnv_reach (hm τ hτ) hr with rfl | rfl <;> decide

end Verif.Grpc
