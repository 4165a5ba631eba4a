import Verif.Thrift.Props
import Verif.Grpc.Props
/-
C95: interfaces for which the generator reports no error, but whose code does not compile, or
loses values, or crashes.
-/
namespace Verif.Thrift
open Verif.Grpc (UserTy Ty Basic FieldDecl Method Val Prim Typed HasType Reach Everywhere Faithful named methodTypes
  InRange Res Out exUser exItem exEnv)

variable {env : UserTy → Option (List FieldDecl)} {ms : List Method} {file : File}
  {pub : List Char → List Char} {svc : List Char}

/-- A statement changes only its own field. -/
theorem unpackAll_other {call : List Char → Val → Val → Out Val} {msg : List (List Char × Val)} {x : List Char} :
    ∀ {fs : List Field} {obj out : List (List Char × Val)}, unpackAll call msg fs obj = .ok out →
      x ∉ fs.map (·.name) → Grpc.get x out = Grpc.get x obj
  | [], obj, out, h, _ => by
    simp only [unpackAll, Out.ok.injEq] at h
    rw [h]
  | f :: fs, obj, out, h, hx => by
    simp only [List.map_cons, List.mem_cons, not_or] at hx
    simp only [unpackAll] at h
    cases h1 : Grpc.get (capital f.name) msg with
    | none => rw [h1] at h; cases h
    | some m =>
      rw [h1] at h
      simp only at h
      cases h2 : unpackValue call f.src (Grpc.get f.name obj) f.go m with
      | stuck => rw [h2] at h; cases h
      | panic => rw [h2] at h; cases h
      | ok v =>
        rw [h2] at h
        simp only at h
        rw [unpackAll_other h hx.2]
        cases v with
        | none => rfl
        | some v => simp only [setField, Grpc.get_put, if_neg (Ne.symm hx.1)]

/-- What becomes of one field. -/
theorem unpackAll_field {call : List Char → Val → Val → Out Val} {msg : List (List Char × Val)} {P : Option Val → Prop}
    {f : Field} (hP : ∀ m v, Grpc.get (capital f.name) msg = some m → unpackValue call f.src none f.go m = .ok v → P v) :
    ∀ {fs : List Field} {obj out : List (List Char × Val)}, unpackAll call msg fs obj = .ok out →
      (fs.map (·.name)).Nodup → f ∈ fs → Grpc.get f.name obj = none → P (Grpc.get f.name out)
  | g :: fs, obj, out, h, hn, hf, h0 => by
    simp only [List.map_cons, List.nodup_cons] at hn
    simp only [unpackAll] at h
    cases h1 : Grpc.get (capital g.name) msg with
    | none => rw [h1] at h; cases h
    | some m =>
      rw [h1] at h
      simp only at h
      cases h2 : unpackValue call g.src (Grpc.get g.name obj) g.go m with
      | stuck => rw [h2] at h; cases h
      | panic => rw [h2] at h; cases h
      | ok v =>
        rw [h2] at h
        simp only at h
        rcases List.mem_cons.1 hf with rfl | hf
        · rw [unpackAll_other h hn.1]
          rw [h0] at h2
          have := hP m v h1 h2
          cases v with
          | none => rw [setField, h0]; exact this
          | some v => rw [setField, Grpc.get_put, if_pos rfl]; exact this
        · have hne : g.name ≠ f.name := fun e => hn.1 (e ▸ List.mem_map.2 ⟨f, hf, rfl⟩)
          refine unpackAll_field hP h hn.2 hf ?_
          cases v with
          | none => exact h0
          | some v => rw [setField, Grpc.get_put, if_neg hne, h0]

/-- The field of an argument. -/
theorem arg_field {n : Nat} (hg : generate env n ms = .ok file) (hnd : (ms.map (·.name)).Nodup)
    {m : Method} (hm : m ∈ ms) {req rsp : List Field} (he : (m.name, req, rsp) ∈ file.methods)
    {x : List Char} {τ : Ty} (hx : (x, τ) ∈ named 0 m.args) :
    ∃ f ∈ req, f.name = x ∧ f.src = τ ∧ getThriftType τ = some (f.thrift, f.go) := by
  have F := generate_ok hg
  obtain ⟨m', hm', h1, h2, _⟩ := F.vars _ he
  have := C95_arguments_partial.eq_of_name hnd hm hm' h1
  subst this
  rw [← h2] at hx
  obtain ⟨f, hf, hfe⟩ := List.mem_map.1 hx
  obtain ⟨h3, h4⟩ := Prod.mk.inj hfe
  exact ⟨f, hf, h3, h4, h4 ▸ (F.types req (mem_fieldLists.2 (Or.inl ⟨_, he, Or.inl rfl⟩)) f hf).1⟩

/-- **C95** (maps).  The server never receives an entry of a map: whatever message arrives,
an argument whose type is a map is nil or empty. -/
theorem C95_maps_are_lost {n k : Nat} (hg : generate env n ms = .ok file) (ha : file.accepted pub svc = true)
    (hnd : (ms.map (·.name)).Nodup) {m : Method} (hm : m ∈ ms) {req rsp : List Field}
    (he : (m.name, req, rsp) ∈ file.methods) {x : List Char} {κ τ : Ty} (hx : (x, .map κ τ) ∈ named 0 m.args)
    {msg args : List (List Char × Val)} (hu : unpack file k req msg = .ok args) :
    Grpc.get x args = none ∨ Grpc.get x args = some (.map []) := by
  obtain ⟨f, hf, rfl, hsrc, ht⟩ := arg_field hg hnd hm he hx
  have hn := ((accepted_spec ha).2 _ (mem_fieldLists.2 (Or.inl ⟨_, he, Or.inl rfl⟩))).1
  refine unpackAll_field (P := fun o => o = none ∨ o = some (.map [])) ?_ hu hn hf rfl
  intro mv v _ hv
  obtain ⟨κg, τg, hgo⟩ : ∃ κg τg, f.go = .map κg τg := by
    simp only [getThriftType] at ht
    split at ht
    · simp only [Option.some.injEq, Prod.mk.injEq] at ht
      exact ⟨_, _, ht.2.symm⟩
    · cases ht
  rw [hgo] at hv
  cases τg with
  | user T =>
    cases mv with
    | map es =>
      simp only [unpackValue] at hv
      cases h : Grpc.each (fun e : Prim × Val => unpackElem (unmarshal file.fns k) T e.2) es with
      | ok l =>
        rw [h] at hv
        simp only [Out.map, Out.ok.injEq] at hv
        exact Or.inr hv.symm
      | panic => rw [h] at hv; cases hv
      | stuck => rw [h] at hv; cases hv
    | _ => cases hv
  | basic b =>
    simp only [unpackValue, Out.ok.injEq] at hv
    exact Or.inl hv.symm
  | _ => cases hv

/-- **C95** (pointers).  Unpacking never succeeds for a method with an argument that is a
pointer to a struct with a field: the server crashes, whatever message arrives. -/
theorem C95_pointers_crash {n k : Nat} (hg : generate env n ms = .ok file) (ha : file.accepted pub svc = true)
    (hnd : (ms.map (·.name)).Nodup) {m : Method} (hm : m ∈ ms) {req rsp : List Field}
    (he : (m.name, req, rsp) ∈ file.methods) {x : List Char} {t : UserTy} {ds : List FieldDecl}
    (hx : (x, .pointer (.user t)) ∈ named 0 m.args) (hds : env t = some ds) (hd : ∃ d ∈ ds, d.names ≠ [])
    (msg args : List (List Char × Val)) : unpack file k req msg ≠ .ok args := by
  intro hu
  have F := generate_ok hg
  obtain ⟨f, hf, rfl, hsrc, ht⟩ := arg_field hg hnd hm he hx
  have hn := ((accepted_spec ha).2 _ (mem_fieldLists.2 (Or.inl ⟨_, he, Or.inl rfl⟩))).1
  refine unpackAll_field (P := fun _ => False) ?_ hu hn hf rfl
  intro mv v _ hv
  have hgo : f.go = .pointer (.user t.name) := by
    simp only [getThriftType, Option.map_some, Option.some.injEq, Prod.mk.injEq] at ht
    exact ht.2.symm
  have hmt : Ty.pointer (.user t) ∈ methodTypes ms := by
    have : Ty.pointer (.user t) ∈ (named 0 m.args).map (·.2) := List.mem_map.2 ⟨_, hx, rfl⟩
    rw [named_types] at this
    exact List.mem_flatMap.2 ⟨m, hm, List.mem_append.2 (Or.inl this)⟩
  obtain ⟨e, hes, het⟩ := List.mem_map.1 ((F.reach t).2 ⟨_, hmt, .here rfl⟩)
  subst het
  have hfn := accepted_fns ha hes
  obtain ⟨ds', hds', hff⟩ := F.structs e hes
  rw [hds] at hds'
  cases hds'
  have hne : e.2 ≠ [] := by
    intro h0
    rw [h0, namedFields_eq] at hff
    obtain ⟨d, hd1, hd2⟩ := hd
    have := List.filterMap_eq_nil_iff.1 hff.symm d hd1
    cases hh : d.names with
    | nil => exact hd2 hh
    | cons a l => rw [hh] at this; cases this
  rw [hgo] at hv
  cases mv with
  | ptr mv =>
    simp only [unpackValue] at hv
    cases k with
    | zero => cases hv
    | succ k =>
      simp only [unmarshal, hfn] at hv
      cases h2 : e.2 with
      | nil => exact hne h2
      | cons a l => rw [h2] at hv; cases mv <;> cases hv
  | _ => cases hv

/-- **C95** (lost fields).  In an argument that is a struct, the server finds nothing in
embedded fields and in fields that are not the first of their line. -/
theorem C95_fields_are_lost {n k : Nat} (hg : generate env n ms = .ok file) (ha : file.accepted pub svc = true)
    (hnd : (ms.map (·.name)).Nodup) {m : Method} (hm : m ∈ ms) {req rsp : List Field}
    (he : (m.name, req, rsp) ∈ file.methods) {x : List Char} {t : UserTy} {ds : List FieldDecl}
    (hx : (x, .user t) ∈ named 0 m.args) (hds : env t = some ds) {y : List Char}
    (hy : ∀ d ∈ ds, d.names.head? ≠ some y) {msg args : List (List Char × Val)}
    (hu : unpack file k req msg = .ok args) :
    ∃ obj, Grpc.get x args = some (.struct obj) ∧ Grpc.get y obj = none := by
  have F := generate_ok hg
  obtain ⟨f, hf, rfl, hsrc, ht⟩ := arg_field hg hnd hm he hx
  have hn := ((accepted_spec ha).2 _ (mem_fieldLists.2 (Or.inl ⟨_, he, Or.inl rfl⟩))).1
  refine unpackAll_field (P := fun o => ∃ obj, o = some (.struct obj) ∧ Grpc.get y obj = none) ?_ hu hn hf rfl
  intro mv v _ hv
  have hgo : f.go = .user t.name := by
    simp only [getThriftType, Option.some.injEq, Prod.mk.injEq] at ht
    exact ht.2.symm
  have hmt : Ty.user t ∈ methodTypes ms := by
    have : Ty.user t ∈ (named 0 m.args).map (·.2) := List.mem_map.2 ⟨_, hx, rfl⟩
    rw [named_types] at this
    exact List.mem_flatMap.2 ⟨m, hm, List.mem_append.2 (Or.inl this)⟩
  obtain ⟨e, hes, het⟩ := List.mem_map.1 ((F.reach t).2 ⟨_, hmt, .here rfl⟩)
  subst het
  have hfn := accepted_fns ha hes
  obtain ⟨ds', hds', hff⟩ := F.structs e hes
  rw [hds] at hds'
  cases hds'
  have hyn : y ∉ e.2.map (·.name) := by
    intro hmem
    obtain ⟨g, hg1, rfl⟩ := List.mem_map.1 hmem
    have : (g.name, g.src) ∈ namedFields ds := hff ▸ List.mem_map.2 ⟨g, hg1, rfl⟩
    obtain ⟨d, hd1, _, hd3, _⟩ := mem_namedFields this
    exact hy d hd1 hd3
  rw [hgo] at hv
  cases mv with
  | ptr mv =>
    simp only [unpackValue, Option.getD_none] at hv
    cases k with
    | zero => cases hv
    | succ k =>
      simp only [unmarshal, hfn] at hv
      cases mv with
      | struct msg' =>
        simp only at hv
        cases h : unpackAll (unmarshal file.fns k) msg' e.2 [] with
        | ok obj =>
          rw [h] at hv
          simp only [Out.map, Out.ok.injEq] at hv
          exact ⟨obj, hv.symm, unpackAll_other h hyn⟩
        | panic => rw [h] at hv; cases hv
        | stuck => rw [h] at hv; cases hv
      | _ => cases h2 : e.2 <;> rw [h2] at hv <;> cases hv
  | _ => cases hv

/-- **C95** is false for numbers of type `int` (thriftgen.go:291): they are sent as 32 bits.
Every method with one argument, of type `int`, and every number that does not fit into 32 bits:
packing and unpacking succeed, and the server gets a different number. -/
theorem C95_int_refuted {n k : Nat} (hg : generate env n ms = .ok file) (hnd : (ms.map (·.name)).Nodup)
    {m : Method} (hm : m ∈ ms) {req rsp : List Field} (he : (m.name, req, rsp) ∈ file.methods)
    {x : List Char} (hx : named 0 m.args = [(x, .basic .int)]) {i : Int} (hi : InRange .int i)
    (hb : ¬ InRange .int32 i) :
    ∃ msg j, pack file k req [(x, .prim (.int i))] = .ok msg ∧
      unpack file k req msg = .ok [(x, .prim (.int j))] ∧ j ≠ i := by
  have F := generate_ok hg
  obtain ⟨m', hm', h1, h2, _⟩ := F.vars _ he
  have := C95_arguments_partial.eq_of_name hnd hm hm' h1
  subst this
  rw [hx] at h2
  have htypes := F.types req (mem_fieldLists.2 (Or.inl ⟨_, he, Or.inl rfl⟩))
  obtain ⟨f, rfl⟩ : ∃ f, req = [f] := by
    have hlen := congrArg List.length h2
    simp only [List.length_map, List.length_cons, List.length_nil, Nat.zero_add] at hlen
    exact List.length_eq_one_iff.1 hlen
  · simp only [List.map_cons, List.map_nil, List.cons.injEq, Prod.mk.injEq, and_true] at h2
    obtain ⟨rfl, hs⟩ := h2
    have hgo := (htypes f (List.mem_singleton.2 rfl)).1
    rw [hs] at hgo
    simp only [getThriftType, basicToThrift, Option.map_some, thriftToBasic, Option.some.injEq, Prod.mk.injEq] at hgo
    refine ⟨[(capital f.name, .prim (Grpc.convert .int32 (.int i)))], Grpc.wrap 64 true (Grpc.wrap 32 true i), ?_, ?_, ?_⟩
    · simp [pack, packAll, Grpc.get, ← hgo.2, packValue, Grpc.put]
    · simp [unpack, unpackAll, Grpc.get, ← hgo.2, unpackValue, hs, setField, Grpc.put, Grpc.convert, Grpc.intBits]
    · simp only [InRange] at hi hb
      simp only [Grpc.wrap, true_and, Nat.reduceSub, Int.reducePow]
      repeat' split
      all_goals omega

/-- **C95** is false for types that the generator takes but the compilers do not
(thriftgen.go:288-315, marshallgen.go:145-256): if all types are supported, but some field,
argument or result has one of the types that do not compile, then generation reports no error,
and a statement of the generated code is ill-typed. -/
theorem C95_types_refuted {U : List UserTy} (hU : ∀ t, env t ≠ none → t ∈ U)
    (hs : ∀ τ ∈ methodTypes ms, Everywhere env Supported τ)
    (hc : ¬ ∀ τ ∈ methodTypes ms, Everywhere env Compilable τ) :
    ∃ N file, (∀ n, N ≤ n → generate env n ms = .ok file) ∧ (∃ fs ∈ file.fieldLists, ∃ f ∈ fs, goOk f = false) ∧
      ∀ pub svc, file.accepted pub svc = false := by
  obtain ⟨N, r, hr, hN, hok⟩ := C95_generates hU ms
  obtain ⟨file, rfl⟩ := hok.2 hs
  have hg := hN N (Nat.le_refl _)
  have F := generate_ok hg
  have hno : ∀ pub svc, file.accepted pub svc = false := fun pub svc => by
    cases h : file.accepted pub svc with
    | false => rfl
    | true => exact absurd (C95_compiled_types hg h) hc
  refine ⟨N, file, hN, ?_, hno⟩
  by_cases h : ∃ fs ∈ file.fieldLists, ∃ f ∈ fs, goOk f = false
  · exact h
  · refine absurd (F.field_types.2 fun fs hfs f hf => ?_) hc
    refine (compilable_iff (x := f.name) (i := f.position) (F.types fs hfs f hf).1).1 ?_
    cases hgo : goOk f with
    | true => rfl
    | false => exact absurd ⟨fs, hfs, f, hf, hgo⟩ h

/-- Types that are supported and do not compile: `int8`, `byte`, `rune`, `*int64`, `[]int`,
`[]uint8`, `map[string]int`. -/
example : ∀ τ ∈ [Ty.basic .int8, .basic .byte, .basic .rune, .pointer (.basic .int64), .slice (.basic .int),
    .slice (.basic .uint8), .map (.basic .string) (.basic .int)], Supported τ ∧ ¬ Compilable τ := by
  simp [Supported, Simple, Known, KnownBasic, Compilable, ThriftBasic]

/-! ### Concrete cases -/

/-- A service with one method `Do` with one argument. -/
def oneArg (env : UserTy → Option (List FieldDecl)) (x : List Char) (τ : Ty) : Res File :=
  generate env 9 [⟨"Do".toList, [(x, τ)], []⟩]

theorem typed_one {env : UserTy → Option (List FieldDecl)} {x : List Char} {τ : Ty} {v : Val}
    (h : HasType env τ v) : Typed env [(x, τ)] [(x, v)] := by
  refine ⟨rfl, ?_⟩
  intro y σ w h1 h2
  simp only [List.mem_singleton, Prod.mk.injEq] at h1 h2
  obtain ⟨rfl, rfl⟩ := h1
  obtain ⟨_, rfl⟩ := h2
  exact h

def mapField : List Field :=
  [⟨.map (.basic .string) (.basic .string), .map (.base .string) (.base .string),
    .map (.basic .string) (.basic .string), "m".toList, 1⟩]

/-- **C95** is false for maps (marshallgen.go:231-243).  A method with an argument of type
`map[string]string`: the file compiles, packing succeeds and so does unpacking, but the
statement that should read the map from the message writes it into the message instead, so
that the server gets a nil map. -/
theorem C95_map_refuted : ∃ (file : File) (args msg : List (List Char × Val)),
    oneArg (fun _ => none) "m".toList (.map (.basic .string) (.basic .string)) = .ok file ∧
    file.accepted capital "Svc".toList = true ∧ ("Do".toList, mapField, []) ∈ file.methods ∧
    Typed (fun _ => none) [("m".toList, .map (.basic .string) (.basic .string))] args ∧
    (∀ n, pack file n mapField args = .ok msg ∧ unpack file n mapField msg = .ok []) ∧
    ∀ n msg, unpack file n mapField msg ≠ .ok args := by
  have hg : oneArg (fun _ => none) "m".toList (.map (.basic .string) (.basic .string)) =
      .ok ⟨[], [("Do".toList, mapField, [])]⟩ := by decide +kernel
  have ha : (⟨[], [("Do".toList, mapField, [])]⟩ : File).accepted capital "Svc".toList = true := by decide +kernel
  refine ⟨_, [("m".toList, .map [(.str "a".toList, .prim (.str "b".toList))])],
    [("M".toList, .map [(.str "a".toList, .prim (.str "b".toList))])], hg, ha, List.mem_cons_self,
    typed_one (.map (by simp) ?_ ?_), fun n => ⟨rfl, rfl⟩, ?_⟩
  · intro k v h
    simp only [List.mem_singleton, Prod.mk.injEq] at h
    rw [h.1]
    exact .prim trivial
  · intro k v h
    simp only [List.mem_singleton, Prod.mk.injEq] at h
    rw [h.2]
    exact .prim trivial
  · intro n msg hu
    have := C95_maps_are_lost (m := ⟨"Do".toList, [("m".toList, .map (.basic .string) (.basic .string))], []⟩)
      hg ha (by simp) List.mem_cons_self List.mem_cons_self (x := "m".toList) List.mem_cons_self hu
    simp [Grpc.get] at this

def userFields : List Field :=
  [⟨.basic .string, .base .string, .basic .string, "Name".toList, 1⟩,
    ⟨.basic .uint8, .base .i64, .basic .int64, "Age".toList, 2⟩]

/-- **C95** is false for pointers (marshallgen.go:213-220).  A method with an argument of type
`*User`: the file compiles, but the server crashes for every message; and the client crashes
if the pointer is nil (marshallgen.go:158-161). -/
theorem C95_pointer_refuted : ∃ (file : File) (req : List Field),
    oneArg exEnv "u".toList (.pointer (.user exUser)) = .ok file ∧ file.accepted capital "Svc".toList = true ∧
    ("Do".toList, req, []) ∈ file.methods ∧
    (∀ n msg args, unpack file n req msg ≠ .ok args) ∧
    ∀ n, pack file (n + 1) req [("u".toList, .nil)] = .panic := by
  let fs : List Field := [⟨.pointer (.user exUser), .struct "User".toList, .pointer (.user "User".toList),
    "u".toList, 1⟩]
  have hg : oneArg exEnv "u".toList (.pointer (.user exUser)) =
      .ok ⟨[(exUser, userFields)], [("Do".toList, fs, [])]⟩ := by decide +kernel
  have ha : (⟨[(exUser, userFields)], [("Do".toList, fs, [])]⟩ : File).accepted capital "Svc".toList = true := by
    decide +kernel
  refine ⟨_, fs, hg, ha, List.mem_cons_self, fun n msg args => ?_, fun n => rfl⟩
  exact C95_pointers_crash (m := ⟨"Do".toList, [("u".toList, .pointer (.user exUser))], []⟩) hg ha (by simp)
    List.mem_cons_self List.mem_cons_self (x := "u".toList) (t := exUser) List.mem_cons_self rfl
    ⟨_, List.mem_cons_self, by simp⟩ msg args

/-- The hypotheses of `C95_int_refuted` hold for `Do(i int)` and 2³¹. -/
example : ∃ (file : File) (req : List Field), oneArg (fun _ => none) "i".toList (.basic .int) = .ok file ∧
    ("Do".toList, req, []) ∈ file.methods ∧ InRange .int 2147483648 ∧ ¬ InRange .int32 2147483648 ∧
    ∃ msg, pack file 0 req [("i".toList, .prim (.int 2147483648))] = .ok msg ∧
      unpack file 0 req msg = .ok [("i".toList, .prim (.int (-2147483648)))] := by
  refine ⟨⟨[], [("Do".toList, [⟨.basic .int, .base .i32, .basic .int32, "i".toList, 1⟩], [])]⟩, _,
    by decide +kernel, List.mem_cons_self, by simp [InRange], by simp [InRange], _, rfl, rfl⟩

/-- The hypotheses of `C95_fields_are_lost` hold for `Do(p Point)` with
`type Point struct { X, Y int64 }`: `Y` is lost. -/
example : ∃ (t : UserTy) (file : File) (req : List Field) (msg args : List (List Char × Val)),
    oneArg (fun u => if u = t then some [⟨["X".toList, "Y".toList], .basic .int64⟩] else none) "p".toList (.user t) =
      .ok file ∧ file.accepted capital "Svc".toList = true ∧ ("Do".toList, req, []) ∈ file.methods ∧
    pack file 1 req [("p".toList, .struct [("X".toList, .prim (.int 1)), ("Y".toList, .prim (.int 2))])] = .ok msg ∧
    unpack file 1 req msg = .ok args ∧ args = [("p".toList, .struct [("X".toList, .prim (.int 1))])] := by
  refine ⟨⟨"app".toList, "Point".toList⟩,
    ⟨[(⟨"app".toList, "Point".toList⟩, [⟨.basic .int64, .base .i64, .basic .int64, "X".toList, 1⟩])],
      [("Do".toList, [⟨.user ⟨"app".toList, "Point".toList⟩, .struct "Point".toList, .user "Point".toList,
        "p".toList, 1⟩], [])]⟩, _, _, _, by decide +kernel, by decide +kernel, List.mem_cons_self, rfl, rfl, rfl⟩

end Verif.Thrift
