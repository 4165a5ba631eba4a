import Verif.Grpc.FileLemmas
/-
The generated conversion functions are inverse to each other for plain types.
-/
namespace Verif.Grpc

/-! ### Conversions of basic types -/

theorem wrap_id {b : Basic} {i : Int} {n : Nat} {s : Bool} (h : InRange b i) (hb : intBits b = some (n, s)) :
    wrap n s i = i := by
  cases b <;> simp only [intBits, Option.some.injEq, Prod.mk.injEq, reduceCtorEq] at hb <;>
    obtain ⟨rfl, rfl⟩ := hb <;> simp only [InRange] at h <;> simp only [wrap, Bool.false_eq_true, false_and, if_false, true_and, Nat.reduceSub, Int.reducePow] <;> (try split) <;> omega

theorem convert_id {b : Basic} {p : Prim} (h : PrimOf b p) : convert b p = p := by
  cases p with
  | int i =>
    cases hb : intBits b with
    | none => simp [convert, hb]
    | some r =>
      obtain ⟨n, s⟩ := r
      have hr : InRange b i := by cases b <;> first | exact h | cases hb
      simp [convert, hb, wrap_id hr hb]
  | _ => rfl

/-- The type of the message is wide enough. -/
theorem convert_grpc {b : Basic} {s : Scalar} {g : Basic} {p : Prim} (h : PrimOf b p) (hb : basicToGrpc b = some s)
    (hs : s ≠ .uint8) (hg : grpcToBasic s = some g) : PrimOf g p := by
  cases b <;> simp only [basicToGrpc, Option.some.injEq, reduceCtorEq] at hb <;> subst hb <;>
    simp only [grpcToBasic, Option.some.injEq, reduceCtorEq] at hg <;> first | exact absurd rfl hs | skip
  all_goals
    subst hg
    cases p <;> first | exact h | (simp only [PrimOf, InRange] at h ⊢; omega)

/-! ### Fields -/

theorem map_ok {α β : Type} {g : α → β} {a : α} : Out.map g (.ok a) = .ok (g a) := rfl

theorem get_append {x : Str} : ∀ {l l' : List (Str × Val)}, get x l = none → get x (l ++ l') = get x l'
  | [], _, _ => rfl
  | e :: l, l', h => by
    simp only [get, List.cons_append] at h ⊢
    split
    · rename_i he
      simp [he] at h
    · rename_i he
      simp only [he, if_false] at h
      exact get_append h

theorem get_append_some {x : Str} {v : Val} : ∀ {l l' : List (Str × Val)}, get x l = some v →
    get x (l ++ l') = some v
  | e :: l, l', h => by
    simp only [get, List.cons_append] at h ⊢
    split
    · rename_i he
      simpa [he] using h
    · rename_i he
      simp only [he, if_false] at h
      exact get_append_some h

theorem put_append {x : Str} {v : Val} : ∀ {l : List (Str × Val)}, get x l = none →
    put x v l = l ++ [(x, v)]
  | [], _ => rfl
  | e :: l, h => by
    simp only [get] at h
    simp only [put, List.cons_append]
    split
    · rename_i he
      simp [he] at h
    · rename_i he
      simp only [he, if_false] at h
      rw [put_append h]

theorem get_none {x : Str} : ∀ {l : List (Str × Val)}, x ∉ l.map (·.1) → get x l = none
  | [], _ => rfl
  | e :: l, h => by
    simp only [List.map_cons, List.mem_cons, not_or] at h
    simp only [get, if_neg (Ne.symm h.1)]
    exact get_none h.2

theorem get_of_mem {x : Str} {v : Val} : ∀ {l : List (Str × Val)}, (l.map (·.1)).Nodup → (x, v) ∈ l →
    get x l = some v
  | e :: l, hn, h => by
    simp only [List.map_cons, List.nodup_cons] at hn
    rcases List.mem_cons.1 h with rfl | h
    · simp [get]
    · have : e.1 ≠ x := fun he => hn.1 (he ▸ List.mem_map.2 ⟨_, h, rfl⟩)
      simp only [get, if_neg this]
      exact get_of_mem hn.2 h

/-- The value of a field survives. -/
def FieldRT (C : Code) (f : Field) (v : Val) : Prop :=
  ∃ st ut mv N, f.marshall = some st ∧ f.unmarshall = some ut ∧ ∀ n, N ≤ n →
    (∀ obj, get f.name obj = some v → execM (marshal C n) obj st = .ok (title f.name, mv)) ∧
    ∀ msg obj, get (title f.name) msg = some mv → get f.name obj = none →
      execU (unmarshal C n) f msg obj ut = .ok (put f.name v obj)

theorem all_fields {C : Code} {obj : List (Str × Val)} : ∀ (fvs : List (Field × Val)) (msg0 : List (Str × Val)),
    (∀ e ∈ fvs, get e.1.name obj = some e.2 ∧ FieldRT C e.1 e.2) →
    (fvs.map fun e => e.1.name).Nodup → (fvs.map fun e => title e.1.name).Nodup →
    (∀ e ∈ fvs, get (title e.1.name) msg0 = none) →
    ∃ rest N, ∀ n, N ≤ n → execAllM (marshal C n) obj (fvs.map (·.1)) msg0 = .ok (msg0 ++ rest) ∧
      ∀ obj0, (∀ e ∈ fvs, get e.1.name obj0 = none) →
        execAllU (unmarshal C n) (msg0 ++ rest) (fvs.map (·.1)) obj0 =
          .ok (obj0 ++ fvs.map fun e => (e.1.name, e.2))
  | [], msg0, _, _, _, _ => ⟨[], 0, fun n _ => ⟨by simp [execAllM], fun obj0 _ => by simp [execAllU]⟩⟩
  | (f, v) :: fvs, msg0, hrt, hn, ht, h0 => by
    simp only [List.map_cons, List.nodup_cons] at hn ht
    obtain ⟨hget, st, ut, mv, N, hst, hut, hN⟩ := hrt _ List.mem_cons_self
    have hf0 := h0 _ List.mem_cons_self
    obtain ⟨rest, N', hN'⟩ := all_fields fvs (msg0 ++ [(title f.name, mv)])
      (fun e he => hrt e (List.mem_cons_of_mem _ he)) hn.2 ht.2 (by
        intro e he
        rw [get_append (h0 e (List.mem_cons_of_mem _ he))]
        refine get_none ?_
        simp only [List.map_cons, List.map_nil, List.mem_singleton]
        intro heq
        exact ht.1 (heq ▸ List.mem_map.2 ⟨e, he, rfl⟩))
    refine ⟨(title f.name, mv) :: rest, max N N', fun n hn' => ?_⟩
    obtain ⟨a1, a2⟩ := hN n (by omega)
    obtain ⟨b1, b2⟩ := hN' n (by omega)
    simp only [List.append_assoc, List.cons_append, List.nil_append] at b1 b2
    constructor
    · simp only [List.map_cons, execAllM, hst, a1 obj hget, put_append hf0]
      exact b1
    · intro obj0 h
      have hno := h _ List.mem_cons_self
      have hmv : get (title f.name) (msg0 ++ (title f.name, mv) :: rest) = some mv := by
        rw [get_append hf0]
        simp [get]
      simp only [List.map_cons, execAllU, hut, a2 _ obj0 hmv hno, put_append hno]
      rw [b2 (obj0 ++ [(f.name, v)]) (by
        intro e he
        rw [get_append (h e (List.mem_cons_of_mem _ he))]
        refine get_none ?_
        simp only [List.map_cons, List.map_nil, List.mem_singleton]
        intro heq
        exact hn.1 (heq ▸ List.mem_map.2 ⟨e, he, rfl⟩))]
      simp

/-- The value of a message survives. -/
def RT (C : Code) (T : Str) (v : Val) : Prop :=
  ∃ m N, ∀ n, N ≤ n → marshal C n T v = .ok m ∧ unmarshal C n T m (.struct []) = .ok v

theorem each_rt {C : Code} {T : Str} : ∀ (vs : List Val), (∀ v ∈ vs, RT C T v) →
    ∃ (ms : List Val) (N : Nat), ∀ n, N ≤ n →
      each (fun v => (marshal C n T v).map Val.ptr) vs = .ok ms ∧
      each (unmarshallElem (unmarshal C n) T) ms = .ok vs
  | [], _ => ⟨[], 0, fun _ _ => ⟨rfl, rfl⟩⟩
  | v :: vs, h => by
    obtain ⟨m, N, hN⟩ := h v List.mem_cons_self
    obtain ⟨ms, N', hN'⟩ := each_rt vs fun w hw => h w (List.mem_cons_of_mem _ hw)
    refine ⟨.ptr m :: ms, max N N', fun n hn => ?_⟩
    obtain ⟨a1, a2⟩ := hN n (by omega)
    obtain ⟨b1, b2⟩ := hN' n (by omega)
    constructor
    · simp only [each, a1, map_ok, b1]
    · simp only [each, unmarshallElem, a2, b2]

/-- A field whose type is plain. -/
structure FieldGood (base : Str) (K : UserTy → Prop) (f : Field) : Prop where
  type : protoOf base f.src = some (f.proto, f.grpc)
  proto : protoOk f.proto = true
  gen : marshallable f.grpc = true
  plain : Plain f.src
  known : ∀ u, Mentions u f.src → K u

/-- What is known about a value of a plain type. -/
def ValGood (C : Code) (base : Str) : Ty → Val → Prop
  | .user t, v => RT C (msgName base t) v
  | .basic b, v => ∃ p, v = .prim p ∧ PrimOf b p
  | .slice (.user t), v => ∃ vs, v = .slice vs ∧ ∀ w ∈ vs, RT C (msgName base t) w
  | _, _ => True

theorem fieldRT {C : Code} {base : Str} {K : UserTy → Prop} {f : Field} (hf : FieldGood base K f) {v : Val}
    (hv : ValGood C base f.src v) : FieldRT C f v := by
  obtain ⟨src, proto, grpc, name, pos⟩ := f
  obtain ⟨h1, h2, h3, h4, h5⟩ := hf
  simp only at h1 h2 h3 h4 hv
  cases src with
  | user t =>
    simp only [protoOf, Option.some.injEq, Prod.mk.injEq] at h1
    obtain ⟨rfl, rfl⟩ := h1
    obtain ⟨m, N, hN⟩ := hv
    refine ⟨_, _, .ptr m, N, rfl, rfl, fun n hn => ⟨?_, ?_⟩⟩
    · intro obj ho
      simp only [execM]
      simp only at ho
      rw [ho]
      simp only [(hN n hn).1, map_ok]
    · intro msg obj hm ho
      simp only [execU]
      simp only at hm ho
      rw [hm, ho]
      simp only [Option.getD_none, (hN n hn).2, map_ok]
  | basic b =>
    obtain ⟨s, hs, hr⟩ := Option.map_eq_some_iff.1 h1
    obtain ⟨rfl, rfl⟩ := Prod.mk.inj hr
    obtain ⟨p, rfl, hp⟩ := hv
    have hne : s ≠ .uint8 := by simpa [protoOk] using h2
    refine ⟨_, _, .prim p, 0, rfl, rfl, fun n _ => ⟨?_, ?_⟩⟩
    · intro obj ho
      simp only [execM]
      simp only at ho
      rw [ho]
      cases hg : grpcToBasic s with
      | none => rfl
      | some g => simp only [convert_id (convert_grpc hp hs hne hg)]
    · intro msg obj hm ho
      simp only [execU]
      simp only at hm
      rw [hm]
      simp only [convert_id hp]
  | slice t =>
    by_cases hb : t = .basic .byte
    · subst hb
      simp only [protoOf, if_true, Option.some.injEq, Prod.mk.injEq] at h1
      obtain ⟨rfl, rfl⟩ := h1
      refine ⟨_, _, v, 0, rfl, rfl, fun n _ => ⟨?_, ?_⟩⟩
      · intro obj ho
        simp only [execM]
        simp only at ho
        rw [ho]
      · intro msg obj hm ho
        simp only [execU]
        simp only at hm
        rw [hm]
    · cases t with
      | user t =>
        rw [protoOf_slice hb (by simp)] at h1
        simp only [protoOf, Option.map_some, Option.some.injEq, Prod.mk.injEq] at h1
        obtain ⟨rfl, rfl⟩ := h1
        obtain ⟨vs, rfl, hvs⟩ := hv
        obtain ⟨ms, N, hN⟩ := each_rt vs hvs
        refine ⟨_, _, .slice ms, N, rfl, rfl, fun n hn => ⟨?_, ?_⟩⟩
        · intro obj ho
          simp only [execM]
          simp only at ho
          rw [ho]
          simp only [(hN n hn).1, map_ok]
        · intro msg obj hm ho
          simp only [execU]
          simp only at hm
          rw [hm]
          simp only [(hN n hn).2, map_ok]
      | basic b =>
        rw [protoOf_slice hb (by simp)] at h1
        obtain ⟨r, hr, hr'⟩ := Option.map_eq_some_iff.1 h1
        obtain ⟨s, hs, hr''⟩ := Option.map_eq_some_iff.1 hr
        subst hr''
        obtain ⟨rfl, rfl⟩ := Prod.mk.inj hr'
        refine ⟨_, _, v, 0, rfl, rfl, fun n _ => ⟨?_, ?_⟩⟩
        · intro obj ho
          simp only [execM]
          simp only at ho
          rw [ho]
        · intro msg obj hm ho
          simp only [execU]
          simp only at hm
          rw [hm]
      | pointer t => cases h4
      | map k v => cases h4
      | slice t =>
        exact absurd ((supported_iff (base := base) (τ := .slice (.slice t))).2 ⟨_, _, h1, h3⟩)
          (by simp [Supported, Simple])
      | other => cases h4
  | pointer t => cases h4
  | map k v => cases h4
  | other => cases h4

/-- The messages of the structs in `K`. -/
structure Ctx (env : Structs) (C : Code) (base : Str) (K : UserTy → Prop) : Prop where
  look : ∀ t ds, K t → env t = some ds → ∃ fs, C (msgName base t) = some fs ∧
    fs.map (fun f => (f.name, f.src)) = structFields ds ∧ (∀ f ∈ fs, FieldGood base K f) ∧
    (fs.map (·.name)).Nodup ∧ (fs.map fun f => title f.name).Nodup

/-- The fields paired with their values. -/
def pair : List Field → List (Str × Val) → List (Field × Val)
  | f :: fs, e :: l => (f, e.2) :: pair fs l
  | _, _ => []

theorem pair_spec : ∀ (fs : List Field) (l : List (Str × Val)), l.map (·.1) = fs.map (·.name) →
    (pair fs l).map (·.1) = fs ∧ ((pair fs l).map fun e => (e.1.name, e.2)) = l ∧
    ∀ e ∈ pair fs l, e.1 ∈ fs ∧ (e.1.name, e.2) ∈ l
  | [], [], _ => by simp [pair]
  | [], _ :: _, h => by simp at h
  | _ :: _, [], h => by simp at h
  | f :: fs, e :: l, h => by
    simp only [List.map_cons, List.cons.injEq] at h
    obtain ⟨h1, h2, h3⟩ := pair_spec fs l h.2
    refine ⟨by simp [pair, h1], ?_, ?_⟩
    · simp only [pair, List.map_cons, h2]
      rw [← h.1]
    · intro e' he'
      rcases List.mem_cons.1 he' with rfl | he'
      · refine ⟨List.mem_cons_self, ?_⟩
        simp only
        rw [← h.1]
        exact List.mem_cons_self
      · exact ⟨List.mem_cons_of_mem _ (h3 e' he').1, List.mem_cons_of_mem _ (h3 e' he').2⟩

/-- All fields of a message survive. -/
theorem fields_rt {C : Code} {base : Str} {K : UserTy → Prop} {fs : List Field} {vals : List (Str × Val)}
    (hl : vals.map (·.1) = fs.map (·.name)) (hg : ∀ f ∈ fs, FieldGood base K f)
    (hn : (fs.map (·.name)).Nodup) (ht : (fs.map fun f => title f.name).Nodup)
    (hv : ∀ f ∈ fs, ∀ v, (f.name, v) ∈ vals → ValGood C base f.src v) :
    ∃ msg N, ∀ n, N ≤ n → execAllM (marshal C n) vals fs [] = .ok msg ∧
      execAllU (unmarshal C n) msg fs [] = .ok vals := by
  obtain ⟨p1, p2, p3⟩ := pair_spec fs vals hl
  have hn' : (vals.map (·.1)).Nodup := hl ▸ hn
  obtain ⟨rest, N, hN⟩ := all_fields (C := C) (obj := vals) (pair fs vals) [] (by
      intro e he
      obtain ⟨k1, k2⟩ := p3 e he
      exact ⟨get_of_mem hn' k2, fieldRT (hg _ k1) (hv _ k1 _ k2)⟩)
    (by
      have : ((pair fs vals).map fun e => e.1.name) = fs.map (·.name) := by
        conv => rhs; rw [← p1, List.map_map]
        rfl
      rw [this]; exact hn)
    (by
      have : ((pair fs vals).map fun e => title e.1.name) = fs.map fun f => title f.name := by
        conv => rhs; rw [← p1, List.map_map]
        rfl
      rw [this]; exact ht)
    (by simp [get])
  refine ⟨rest, N, fun n hn => ?_⟩
  obtain ⟨a, b⟩ := hN n hn
  rw [p1] at a b
  simp only [List.nil_append] at a b
  refine ⟨a, ?_⟩
  have := b [] (by simp [get])
  rw [p2] at this
  simpa using this

theorem hasType_good {env : Structs} {C : Code} {base : Str} {K : UserTy → Prop} (hc : Ctx env C base K)
    {τ : Ty} {v : Val} (h : HasType env τ v) : (∀ u, Mentions u τ → K u) → ValGood C base τ v := by
  induction h with
  | prim hp => exact fun _ => ⟨_, rfl, hp⟩
  | @struct t ds fields hds hnames _ ih =>
    intro hK
    obtain ⟨fs, h1, h2, h3, h4, h5⟩ := hc.look t ds (hK t rfl) hds
    have hnm : fs.map (·.name) = (structFields ds).map (·.1) := by
      rw [← h2, List.map_map]
      rfl
    obtain ⟨msg, N, hN⟩ := fields_rt (C := C) (base := base) (K := K) (vals := fields)
      (hnames.trans hnm.symm) h3 h4 h5 (by
        intro f hf v hv
        have hm : (f.name, f.src) ∈ structFields ds := h2 ▸ List.mem_map.2 ⟨f, hf, rfl⟩
        exact ih f.name f.src v hm hv (h3 f hf).known)
    refine ⟨.struct msg, N + 1, fun n hn => ?_⟩
    match n, hn with
    | n + 1, hn =>
      obtain ⟨a, b⟩ := hN n (by omega)
      constructor
      · simp only [marshal, h1, a]
      · simp only [unmarshal, h1, b]
  | nil => exact fun _ => trivial
  | ptr _ _ => exact fun _ => trivial
  | map _ _ _ _ _ => exact fun _ => trivial
  | @slice τ vs _ ih =>
    intro hK
    cases τ with
    | user t => exact ⟨vs, rfl, fun w hw => ih w hw hK⟩
    | _ => trivial

end Verif.Grpc
