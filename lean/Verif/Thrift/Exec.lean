import Verif.Thrift.Settle
/-
The generated conversion functions are inverse to each other for plain types.
-/
namespace Verif.Thrift
open Verif.Grpc hiding marshallable makeFieldList generate pack unpack marshal unmarshal goOk Field

theorem narrow_basic {τ : Ty} {b : Basic} (h : narrow τ = .basic b) :
    ∃ b0, τ = .basic b0 ∧ b = (if b0 = .int then .int32 else b0) := by
  cases τ with
  | basic b0 =>
    refine ⟨b0, rfl, ?_⟩
    cases b0 <;> simp only [narrow, Ty.basic.injEq] at h <;> subst h <;> rfl
  | _ => cases h

theorem narrow_user {τ : Ty} {t : UserTy} (h : narrow τ = .user t) : τ = .user t := by
  cases τ with
  | user u => exact h
  | basic b => cases b <;> cases h
  | _ => cases h

theorem narrow_slice {τ σ : Ty} (h : narrow τ = .slice σ) : ∃ ρ, τ = .slice ρ ∧ σ = narrow ρ := by
  cases τ with
  | slice ρ => exact ⟨ρ, rfl, (Ty.slice.inj h).symm⟩
  | basic b => cases b <;> cases h
  | _ => cases h

theorem narrow_pointer {τ σ : Ty} (h : narrow τ = .pointer σ) : ∃ ρ, τ = .pointer ρ := by
  cases τ with
  | pointer ρ => exact ⟨ρ, rfl⟩
  | basic b => cases b <;> cases h
  | _ => cases h

theorem narrow_map {τ κ σ : Ty} (h : narrow τ = .map κ σ) : ∃ κ' ρ, τ = .map κ' ρ := by
  cases τ with
  | map κ' ρ => exact ⟨_, _, rfl⟩
  | basic b => cases b <;> cases h
  | _ => cases h

/-- Converting a value of type `b` to the type of the message, and back. -/
theorem convert_back {b : Basic} {s : Base} {p : Prim} (hs : basicToThrift b = some s)
    (hok : sameGo (thriftToBasic s) (goType s) = true)
    (hp : PrimOf (if b = .int then .int32 else b) p) : convert b (convert (thriftToBasic s) p) = p := by
  cases b <;> simp only [basicToThrift, Option.some.injEq, reduceCtorEq] at hs <;> subst hs <;>
    simp only [thriftToBasic, goType, sameGo, reduceCtorEq, decide_false, Bool.false_eq_true] at hok <;>
    cases p <;> simp only [if_true, if_false, reduceCtorEq, PrimOf, InRange] at hp <;>
    simp only [convert, thriftToBasic, intBits, Prim.int.injEq] <;>
    simp only [wrap, Bool.false_eq_true, false_and, if_false, true_and, Nat.reduceSub, Int.reducePow] <;>
    (try split) <;> (try split) <;> omega

/-- The value of a field survives. -/
def RT (C : Fns) (τ : Ty) (g : GoTy) (v : Val) : Prop :=
  ∃ m N, ∀ n, N ≤ n → packValue (marshal C n) g v = .ok m ∧
    unpackValue (unmarshal C n) τ none g m = .ok (some v)

theorem all_fields {C : Fns} {obj : List (List Char × Val)} : ∀ (fvs : List (Field × Val)) (msg0 : List (List Char × Val)),
    (∀ e ∈ fvs, get e.1.name obj = some e.2 ∧ RT C e.1.src e.1.go e.2) →
    (fvs.map fun e => e.1.name).Nodup → (fvs.map fun e => capital e.1.name).Nodup →
    (∀ e ∈ fvs, get (capital e.1.name) msg0 = none) →
    ∃ rest N, ∀ n, N ≤ n → packAll (marshal C n) obj (fvs.map (·.1)) msg0 = .ok (msg0 ++ rest) ∧
      ∀ obj0, (∀ e ∈ fvs, get e.1.name obj0 = none) →
        unpackAll (unmarshal C n) (msg0 ++ rest) (fvs.map (·.1)) obj0 =
          .ok (obj0 ++ fvs.map fun e => (e.1.name, e.2))
  | [], msg0, _, _, _, _ => ⟨[], 0, fun n _ => ⟨by simp [packAll], fun obj0 _ => by simp [unpackAll]⟩⟩
  | (f, v) :: fvs, msg0, hrt, hn, ht, h0 => by
    simp only [List.map_cons, List.nodup_cons] at hn ht
    obtain ⟨hget, mv, N, hN⟩ := hrt _ List.mem_cons_self
    have hf0 := h0 _ List.mem_cons_self
    obtain ⟨rest, N', hN'⟩ := all_fields fvs (msg0 ++ [(capital f.name, mv)])
      (fun e he => hrt e (List.mem_cons_of_mem _ he)) hn.2 ht.2 (by
        intro e he
        rw [get_append (h0 e (List.mem_cons_of_mem _ he))]
        refine get_none ?_
        simp only [List.map_cons, List.map_nil, List.mem_singleton]
        intro heq
        exact ht.1 (heq ▸ List.mem_map.2 ⟨e, he, rfl⟩))
    refine ⟨(capital f.name, mv) :: rest, max N N', fun n hn' => ?_⟩
    obtain ⟨a1, a2⟩ := hN n (by omega)
    obtain ⟨b1, b2⟩ := hN' n (by omega)
    simp only [List.append_assoc, List.cons_append, List.nil_append] at b1 b2
    simp only at hget hf0 a1 a2
    constructor
    · simp only [List.map_cons, packAll, hget, a1, put_append hf0]
      exact b1
    · intro obj0 h
      have hno := h _ List.mem_cons_self
      have hmv : get (capital f.name) (msg0 ++ (capital f.name, mv) :: rest) = some mv := by
        rw [get_append hf0]
        simp [Grpc.get]
      simp only at hno
      simp only [List.map_cons, unpackAll, hmv, hno, a2, setField, put_append hno]
      rw [b2 (obj0 ++ [(f.name, v)]) (by
        intro e he
        rw [get_append (h e (List.mem_cons_of_mem _ he))]
        refine get_none ?_
        simp only [List.map_cons, List.map_nil, List.mem_singleton]
        intro heq
        exact hn.1 (heq ▸ List.mem_map.2 ⟨e, he, rfl⟩))]
      simp

/-- The value of a struct survives. -/
def SRT (C : Fns) (T : List Char) (v : Val) : Prop :=
  ∃ m N, ∀ n, N ≤ n → marshal C n T v = .ok m ∧ unmarshal C n T m (.struct []) = .ok v

theorem SRT.rt {C : Fns} {T : List Char} {τ : Ty} {v : Val} (h : SRT C T v) : RT C τ (.user T) v := by
  obtain ⟨m, N, hN⟩ := h
  refine ⟨.ptr m, N, fun n hn => ?_⟩
  obtain ⟨a, b⟩ := hN n hn
  simp only [packValue, unpackValue, a, map_ok, Option.getD_none, b, and_self]

theorem each_rt {C : Fns} {T : List Char} : ∀ (vs : List Val), (∀ v ∈ vs, SRT C T v) →
    ∃ (ms : List Val) (N : Nat), ∀ n, N ≤ n →
      each (fun v => (marshal C n T v).map Val.ptr) vs = .ok ms ∧
      each (unpackElem (unmarshal C n) T) ms = .ok vs
  | [], _ => ⟨[], 0, fun _ _ => ⟨rfl, rfl⟩⟩
  | v :: vs, h => by
    obtain ⟨m, N, hN⟩ := h v List.mem_cons_self
    obtain ⟨ms, N', hN'⟩ := each_rt vs fun w hw => h w (List.mem_cons_of_mem _ hw)
    refine ⟨.ptr m :: ms, max N N', fun n hn => ?_⟩
    obtain ⟨a1, a2⟩ := hN n (by omega)
    obtain ⟨b1, b2⟩ := hN' n (by omega)
    constructor
    · simp only [each, a1, map_ok, b1]
    · simp only [each, unpackElem, a2, b2]

/-- What is known about a value of a plain type. -/
def ValGood (C : Fns) : Ty → Val → Prop
  | .user t, v => SRT C t.name v
  | .basic b, v => ∃ p, v = .prim p ∧ PrimOf (if b = .int then .int32 else b) p
  | .slice (.user t), v => ∃ vs, v = .slice vs ∧ ∀ w ∈ vs, SRT C t.name w
  | _, _ => True

/-- A field whose type is plain. -/
structure FieldGood (K : UserTy → Prop) (f : Field) : Prop where
  type : getThriftType f.src = some (f.thrift, f.go)
  gen : marshallable f.go = true
  ok : goOk f = true
  plain : Plain f.src
  known : ∀ u, Mentions u f.src → K u

theorem field_rt {C : Fns} {K : UserTy → Prop} {f : Field} (hf : FieldGood K f) {v : Val}
    (hv : ValGood C f.src v) : RT C f.src f.go v := by
  obtain ⟨src, th, g, name, pos⟩ := f
  obtain ⟨h1, h2, h3, h4, _⟩ := hf
  simp only at h1 h2 h3 h4 hv
  cases src with
  | user t =>
    simp only [getThriftType, Option.some.injEq, Prod.mk.injEq] at h1
    obtain ⟨rfl, rfl⟩ := h1
    exact SRT.rt hv
  | basic b =>
    simp only [getThriftType, Option.map_eq_some_iff, Prod.mk.injEq] at h1
    obtain ⟨s, hs, rfl, rfl⟩ := h1
    obtain ⟨p, rfl, hp⟩ := hv
    refine ⟨.prim (convert (thriftToBasic s) p), 0, fun n _ => ⟨rfl, ?_⟩⟩
    simp only [unpackValue, convert_back hs h3 hp]
  | slice t =>
    simp only [getThriftType, Option.map_eq_some_iff, Prod.mk.injEq] at h1
    obtain ⟨⟨p', g'⟩, h', rfl, rfl⟩ := h1
    cases t with
    | user t =>
      simp only [getThriftType, Option.some.injEq, Prod.mk.injEq] at h'
      obtain ⟨rfl, rfl⟩ := h'
      obtain ⟨vs, rfl, hvs⟩ := hv
      obtain ⟨ms, N, hN⟩ := each_rt vs hvs
      refine ⟨.slice ms, N, fun n hn => ?_⟩
      obtain ⟨a, b⟩ := hN n hn
      simp only [packValue, unpackValue, a, b, map_ok, and_self]
    | basic b =>
      simp only [getThriftType, Option.map_eq_some_iff, Prod.mk.injEq] at h'
      obtain ⟨s, hs, rfl, rfl⟩ := h'
      exact ⟨v, 0, fun n _ => ⟨by cases v <;> rfl, by cases v <;> rfl⟩⟩
    | pointer t => cases h4
    | map k v => cases h4
    | slice t =>
      simp only [getThriftType, Option.map_eq_some_iff, Prod.mk.injEq] at h'
      obtain ⟨s, hs, rfl, rfl⟩ := h'
      cases h2
    | other => cases h4
  | pointer t => cases h4
  | map k v => cases h4
  | other => cases h4

/-- The functions of the structs in `K`. -/
structure Ctx (env : Structs) (C : Fns) (K : UserTy → Prop) : Prop where
  look : ∀ t ds, K t → env t = some ds → ∃ fs, C t.name = some fs ∧
    fs.map (fun f => (f.name, f.src)) = structFields ds ∧ (∀ f ∈ fs, FieldGood K f) ∧
    (fs.map (·.name)).Nodup ∧ (fs.map fun f => capital f.name).Nodup

/-- The fields paired with their values. -/
def pairUp : List Field → List (List Char × Val) → List (Field × Val)
  | f :: fs, e :: l => (f, e.2) :: pairUp fs l
  | _, _ => []

theorem pairUp_spec : ∀ (fs : List Field) (l : List (List Char × Val)), l.map (·.1) = fs.map (·.name) →
    (pairUp fs l).map (·.1) = fs ∧ ((pairUp fs l).map fun e => (e.1.name, e.2)) = l ∧
    ∀ e ∈ pairUp fs l, e.1 ∈ fs ∧ (e.1.name, e.2) ∈ l
  | [], [], _ => by simp [pairUp]
  | [], _ :: _, h => by simp at h
  | _ :: _, [], h => by simp at h
  | f :: fs, e :: l, h => by
    simp only [List.map_cons, List.cons.injEq] at h
    obtain ⟨h1, h2, h3⟩ := pairUp_spec fs l h.2
    refine ⟨by simp [pairUp, h1], ?_, ?_⟩
    · simp only [pairUp, List.map_cons, h2]
      rw [← h.1]
    · intro e' he'
      rcases List.mem_cons.1 he' with rfl | he'
      · refine ⟨List.mem_cons_self, ?_⟩
        simp only
        rw [← h.1]
        exact List.mem_cons_self
      · exact ⟨List.mem_cons_of_mem _ (h3 e' he').1, List.mem_cons_of_mem _ (h3 e' he').2⟩

/-- All fields survive. -/
theorem fields_rt {C : Fns} {K : UserTy → Prop} {fs : List Field} {vals : List (List Char × Val)}
    (hl : vals.map (·.1) = fs.map (·.name)) (hg : ∀ f ∈ fs, FieldGood K f)
    (hn : (fs.map (·.name)).Nodup) (ht : (fs.map fun f => capital f.name).Nodup)
    (hv : ∀ f ∈ fs, ∀ v, (f.name, v) ∈ vals → ValGood C f.src v) :
    ∃ msg N, ∀ n, N ≤ n → packAll (marshal C n) vals fs [] = .ok msg ∧
      unpackAll (unmarshal C n) msg fs [] = .ok vals := by
  obtain ⟨p1, p2, p3⟩ := pairUp_spec fs vals hl
  have hn' : (vals.map (·.1)).Nodup := hl ▸ hn
  obtain ⟨rest, N, hN⟩ := all_fields (C := C) (obj := vals) (pairUp fs vals) [] (by
      intro e he
      obtain ⟨k1, k2⟩ := p3 e he
      exact ⟨get_of_mem hn' k2, field_rt (hg _ k1) (hv _ k1 _ k2)⟩)
    (by
      have : ((pairUp fs vals).map fun e => e.1.name) = fs.map (·.name) := by
        conv => rhs; rw [← p1, List.map_map]
        rfl
      rw [this]; exact hn)
    (by
      have : ((pairUp fs vals).map fun e => capital e.1.name) = fs.map fun f => capital f.name := by
        conv => rhs; rw [← p1, List.map_map]
        rfl
      rw [this]; exact ht)
    (by simp [Grpc.get])
  refine ⟨rest, N, fun n hn => ?_⟩
  obtain ⟨a, b⟩ := hN n hn
  rw [p1] at a b
  simp only [List.nil_append] at a b
  refine ⟨a, ?_⟩
  have := b [] (by simp [Grpc.get])
  rw [p2] at this
  simpa using this

theorem structFields_narrow {ds : List FieldDecl} (h : OneFieldPerLine ds) :
    structFields (ds.map fun d => ⟨d.names, narrow d.ty⟩) = (structFields ds).map fun v => (v.1, narrow v.2) := by
  induction ds with
  | nil => rfl
  | cons d ds ih =>
    obtain ⟨x, hx⟩ := List.length_eq_one_iff.1 (h d List.mem_cons_self)
    have := ih fun d hd => h d (List.mem_cons_of_mem _ hd)
    simp only [structFields] at this
    simp only [structFields, List.map_cons, List.flatMap_cons, hx, List.map_nil, List.singleton_append, this]

theorem hasType_good {env : Structs} {C : Fns} {K : UserTy → Prop} (hc : Ctx env C K)
    (hone : ∀ t ds, K t → env t = some ds → OneFieldPerLine ds)
    {σ : Ty} {v : Val} (h : HasType (narrowEnv env) σ v) :
    ∀ τ, σ = narrow τ → (∀ u, Mentions u τ → K u) → ValGood C τ v := by
  induction h with
  | prim hp =>
    intro τ hτ _
    obtain ⟨b0, rfl, rfl⟩ := narrow_basic hτ.symm
    exact ⟨_, rfl, hp⟩
  | @struct t ds' fields hds' hnames _ ih =>
    intro τ hτ hK
    have := narrow_user hτ.symm
    subst this
    obtain ⟨ds, hds, rfl⟩ := Option.map_eq_some_iff.1 hds'
    have h1l := hone t ds (hK t rfl) hds
    rw [structFields_narrow h1l] at hnames ih
    obtain ⟨fs, h1, h2, h3, h4, h5⟩ := hc.look t ds (hK t rfl) hds
    have hnm : fs.map (·.name) = (structFields ds).map (·.1) := by
      rw [← h2, List.map_map]
      rfl
    obtain ⟨msg, N, hN⟩ := fields_rt (C := C) (K := K) (vals := fields)
      (by rw [hnames, hnm, List.map_map]; rfl) h3 h4 h5 (by
        intro f hf v hv
        have hm : (f.name, f.src) ∈ structFields ds := h2 ▸ List.mem_map.2 ⟨f, hf, rfl⟩
        exact ih f.name (narrow f.src) v (List.mem_map.2 ⟨_, hm, rfl⟩) hv f.src rfl (h3 f hf).known)
    refine ⟨.struct msg, N + 1, fun n hn => ?_⟩
    match n, hn with
    | n + 1, hn =>
      obtain ⟨a, b⟩ := hN n (by omega)
      constructor
      · simp only [marshal, h1, a]
      · simp only [unmarshal, h1, b]
  | nil =>
    intro τ hτ _
    obtain ⟨ρ, rfl⟩ := narrow_pointer hτ.symm
    trivial
  | ptr _ _ =>
    intro τ hτ _
    obtain ⟨ρ, rfl⟩ := narrow_pointer hτ.symm
    trivial
  | map _ _ _ _ _ =>
    intro τ hτ _
    obtain ⟨_, ρ, rfl⟩ := narrow_map hτ.symm
    trivial
  | @slice σ vs _ ih =>
    intro τ hτ hK
    obtain ⟨ρ, rfl, rfl⟩ := narrow_slice hτ.symm
    cases ρ with
    | user t => exact ⟨vs, rfl, fun w hw => ih w hw (.user t) rfl hK⟩
    | _ => trivial

/-! ### Files -/

theorem accepted_spec {pub : List Char → List Char} {svc : List Char} {file : File}
    (h : file.accepted pub svc = true) : (file.names svc).Nodup ∧
      (∀ fs ∈ file.fieldLists, (fs.map (·.name)).Nodup ∧ (fs.map fun f => capital f.name).Nodup ∧
        ∀ f ∈ fs, goOk f = true) := by
  simp only [File.accepted, Bool.and_eq_true, decide_eq_true_eq, List.all_eq_true] at h
  refine ⟨h.1.1.1, fun fs hfs => ?_⟩
  have := h.1.1.2 fs hfs
  simp only [fieldsOk, Bool.and_eq_true, decide_eq_true_eq, List.all_eq_true] at this
  exact ⟨this.1.2, this.1.1, fun f hf => (this.2 f hf).1⟩

theorem accepted_fns {pub : List Char → List Char} {svc : List Char} {file : File}
    (h : file.accepted pub svc = true) {e : UserTy × List Field} (he : e ∈ file.structs) :
    file.fns e.1.name = some e.2 := by
  have hn := (accepted_spec h).1
  have hn2 : (file.structs.map fun e => e.1.name).Nodup := (List.nodup_append.1 hn).2.1
  have key : ∀ (l : List (UserTy × List Field)), (l.map fun e => e.1.name).Nodup → e ∈ l →
      l.find? (fun x => decide (x.1.name = e.1.name)) = some e := by
    intro l
    induction l with
    | nil => simp
    | cons a l ih =>
      intro hn he
      simp only [List.map_cons, List.nodup_cons] at hn
      rcases List.mem_cons.1 he with rfl | he
      · simp
      · have : a.1.name ≠ e.1.name := fun h => hn.1 (h ▸ List.mem_map.2 ⟨e, he, rfl⟩)
        rw [List.find?_cons_of_neg (by simpa using this)]
        exact ih hn.2 he
  simp only [File.fns, key _ hn2 he, Option.map_some]

/-- Variables survive that have faithful types. -/
theorem vars_rt {env : Structs} {n : Nat} {ms : List Method} {file : File} {pub svc}
    (hg : generate env n ms = .ok file) (ha : file.accepted pub svc = true)
    {vars : List (List Char × Ty)} (hv : ∀ v ∈ vars, v.2 ∈ methodTypes ms)
    (hf : ∀ v ∈ vars, Faithful env v.2) {fs : List Field} (hfs : fs ∈ file.fieldLists)
    (hl : fs.map (fun f => (f.name, f.src)) = named 0 vars) {vals : List (List Char × Val)}
    (ht : SmallInts env (named 0 vars) vals) :
    ∃ msg N, ∀ n, N ≤ n → pack file n fs vals = .ok msg ∧ unpack file n fs msg = .ok vals := by
  have F := generate_ok hg
  let K : UserTy → Prop := fun t => ∃ v ∈ vars, Reach env v.2 t
  have hone : ∀ t ds, K t → env t = some ds → OneFieldPerLine ds := by
    rintro t ds ⟨v, hv, hr⟩ hds
    exact (hf v hv).2 t ds hr hds
  have hc : Ctx env file.fns K := by
    refine ⟨?_⟩
    rintro t ds ⟨v, hvv, hr⟩ hds
    obtain ⟨e, he, rfl⟩ := List.mem_map.1 ((F.reach t).2 ⟨v.2, hv v hvv, hr⟩)
    obtain ⟨ds', hds', hfl⟩ := F.structs e he
    rw [hds] at hds'
    cases hds'
    have hmem : e.2 ∈ file.fieldLists := mem_fieldLists.2 (Or.inr ⟨e, he, rfl⟩)
    obtain ⟨a1, a2, a3⟩ := (accepted_spec ha).2 _ hmem
    rw [namedFields_one (hone _ ds ⟨v, hvv, hr⟩ hds)] at hfl
    refine ⟨e.2, accepted_fns ha he, hfl, ?_, a1, a2⟩
    intro f hff
    obtain ⟨t1, t2⟩ := F.types _ hmem f hff
    have hin : (f.name, f.src) ∈ namedFields ds := by
      rw [namedFields_one (hone _ ds ⟨v, hvv, hr⟩ hds), ← hfl]
      exact List.mem_map.2 ⟨f, hff, rfl⟩
    obtain ⟨d, hd1, hd2, _, hd4⟩ := mem_namedFields hin
    simp only at hd4
    obtain ⟨ds'', hds'', hP⟩ := (hf v hvv).1.2 _ hr
    rw [hds] at hds''
    cases hds''
    refine ⟨t1, t2, a3 f hff, hd4 ▸ hP d hd1 hd2, fun u hu => ⟨v, hvv, ?_⟩⟩
    rw [← hd4] at hu
    exact .field hr hds hd1 hd2 hu
  have hsrc : fs.map (·.src) = vars.map (·.2) := by
    rw [← named_types vars 0, ← hl, List.map_map]
    rfl
  obtain ⟨a1, a2, a3⟩ := (accepted_spec ha).2 _ hfs
  have hgood : ∀ f ∈ fs, FieldGood K f := by
    intro f hff
    obtain ⟨t1, t2⟩ := F.types _ hfs f hff
    have : f.src ∈ vars.map (·.2) := hsrc ▸ List.mem_map.2 ⟨f, hff, rfl⟩
    obtain ⟨v, hvv, he⟩ := List.mem_map.1 this
    refine ⟨t1, t2, a3 f hff, he ▸ (hf v hvv).1.1, fun u hu => ⟨v, hvv, .here (he ▸ hu)⟩⟩
  have hnames : vals.map (·.1) = fs.map (·.name) := by
    have h1 := ht.1
    rw [List.map_map] at h1
    rw [h1]
    have : fs.map (·.name) = (named 0 vars).map (·.1) := by
      rw [← hl, List.map_map]
      rfl
    rw [this]
    rfl
  obtain ⟨msg, N, hN⟩ := fields_rt (C := file.fns) (K := K) hnames hgood a1 a2 (by
    intro f hff v hvv
    have hin : (f.name, f.src) ∈ named 0 vars := hl ▸ List.mem_map.2 ⟨f, hff, rfl⟩
    have := ht.2 f.name (narrow f.src) v (List.mem_map.2 ⟨_, hin, rfl⟩) hvv
    exact hasType_good hc hone this f.src rfl (hgood f hff).known)
  exact ⟨msg, N, hN⟩

end Verif.Thrift
