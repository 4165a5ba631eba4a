import Verif.GoParse.Parsed
/-
C85: services in the workflow spec.
-/
namespace Verif.GoParse

private theorem sameTypes_iff (a b : List Var) (h : ∀ v ∈ a, ∃ g, Writes g v.type) :
    sameTypes a b ≠ none ∧ (sameTypes a b = some true ↔ a.map (·.type) = b.map (·.type)) := by
  induction a generalizing b with
  | nil => cases b <;> simp [sameTypes]
  | cons x a ih =>
    cases b with
    | nil => simp [sameTypes]
    | cons y b =>
      simp only [sameTypes]
      obtain ⟨i1, i2⟩ := ih b fun v hv => h v (.tail _ hv)
      split
      · next hl =>
        simp only [List.map_cons, List.cons.injEq]
        refine ⟨by simp, ⟨fun h => (by simp at h), ?_⟩⟩
        rintro ⟨-, h⟩
        exact absurd (by simpa using congrArg List.length h) hl
      · obtain ⟨g, hg⟩ := h x (.head _)
        rw [equals_writes hg]
        by_cases he : x.type = y.type
        · simp [he, i1, i2]
        · simp [he]

private theorem equals_iff (f g : Func) (h : ∀ v ∈ f.args ++ f.rets, ∃ g, Writes g v.type) :
    f.equals g ≠ none ∧ (f.equals g = some true ↔
      f.name = g.name ∧ f.args.map (·.type) = g.args.map (·.type) ∧ f.rets.map (·.type) = g.rets.map (·.type)) := by
  obtain ⟨a1, a2⟩ := sameTypes_iff f.args g.args fun v hv => h v (List.mem_append_left _ hv)
  obtain ⟨r1, r2⟩ := sameTypes_iff f.rets g.rets fun v hv => h v (List.mem_append_right _ hv)
  unfold Func.equals
  by_cases hn : f.name = g.name
  · simp only [hn, ne_eq, not_true_eq_false, if_false, true_and]
    cases ha : sameTypes f.args g.args with
    | none => exact absurd ha a1
    | some b =>
      cases b with
      | true => simp only [a2.1 ha, true_and]; exact ⟨r1, r2⟩
      | false =>
        have : f.args.map (·.type) ≠ g.args.map (·.type) := fun e => by rw [a2.2 e] at ha; cases ha
        simp [this]
  · simp [hn]

private theorem implements_iff (s : Struct) (ms : List (Name × Func))
    (h : ∀ n m, (n, m) ∈ ms → ∀ v ∈ m.args ++ m.rets, ∃ g, Writes g v.type) :
    implements s ms ≠ none ∧ (implements s ms = some true ↔ ∀ n m, (n, m) ∈ ms → ∃ m', s.methods.lookup n = some m' ∧
      m.name = m'.name ∧ m.args.map (·.type) = m'.args.map (·.type) ∧ m.rets.map (·.type) = m'.rets.map (·.type)) := by
  induction ms with
  | nil => simp [implements]
  | cons e ms ih =>
    obtain ⟨n, m⟩ := e
    obtain ⟨i1, i2⟩ := ih fun n m hm => h n m (.tail _ hm)
    simp only [implements]
    cases hl : s.methods.lookup n with
    | none =>
      refine ⟨by simp, by simp, ?_⟩
      intro hx
      obtain ⟨m', e, -⟩ := hx n m (.head _)
      rw [hl] at e
      cases e
    | some m' =>
      simp only []
      obtain ⟨e1, e2⟩ := equals_iff m m' (h n m (.head _))
      cases he : m.equals m' with
      | none => exact absurd he e1
      | some b =>
        cases b with
        | true =>
          refine ⟨i1, i2.trans ?_⟩
          constructor
          · intro hx k f hk
            rcases List.mem_cons.1 hk with e | hk
            · cases e
              exact ⟨m', hl, e2.1 he⟩
            · exact hx k f hk
          · intro hx k f hk
            exact hx k f (.tail _ hk)
        | false =>
          refine ⟨by simp, by simp, ?_⟩
          intro hx
          obtain ⟨m'', a, b⟩ := hx n m (.head _)
          rw [hl] at a
          cases a
          rw [e2.2 b] at he
          cases he

private theorem findStructs_iff (i : Iface) (hu : i.Understood) (ss : List Struct) :
    ∃ r, findStructs i ss = some r ∧ r.Sublist ss ∧ ∀ s ∈ ss, s ∈ r ↔ HasMethods s i := by
  classical
  induction ss with
  | nil => exact ⟨[], rfl, .slnil, by simp⟩
  | cons s ss ih =>
    obtain ⟨r, h1, h2, h3⟩ := ih
    obtain ⟨a1, a2⟩ := implements_iff s i.methods hu
    simp only [findStructs]
    cases hi : implements s i.methods with
    | none => exact absurd hi a1
    | some b =>
      simp only [h1]
      have key : ∀ x ∈ r, HasMethods x i := fun x hx => (h3 x (h2.subset hx)).1 hx
      cases b with
      | true =>
        refine ⟨s :: r, rfl, h2.cons_cons _, ?_⟩
        intro x hx
        constructor
        · intro hx'
          rcases List.mem_cons.1 hx' with rfl | hx'
          · exact a2.1 hi
          · exact key x hx'
        · intro hm
          rcases List.mem_cons.1 hx with rfl | hx
          · exact .head _
          · exact .tail _ ((h3 x hx).2 hm)
      | false =>
        refine ⟨r, rfl, h2.cons _, ?_⟩
        intro x hx
        refine ⟨key x, ?_⟩
        intro hm
        rcases List.mem_cons.1 hx with rfl | hx
        · have := a2.2 hm
          rw [hi] at this
          cases this
        · exact (h3 x hx).2 hm

private theorem findIfaces_iff (s : Struct) (is : List Iface) (hu : ∀ i ∈ is, i.Understood) :
    ∃ r, findIfaces s is = some r ∧ r.Sublist is ∧ ∀ i ∈ is, i ∈ r ↔ HasMethods s i := by
  induction is with
  | nil => exact ⟨[], rfl, .slnil, by simp⟩
  | cons i is ih =>
    obtain ⟨r, h1, h2, h3⟩ := ih fun i hi => hu i (.tail _ hi)
    obtain ⟨a1, a2⟩ := implements_iff s i.methods (hu i (.head _))
    simp only [findIfaces]
    cases hi : implements s i.methods with
    | none => exact absurd hi a1
    | some b =>
      simp only [h1]
      have key : ∀ x ∈ r, HasMethods s x := fun x hx => (h3 x (h2.subset hx)).1 hx
      cases b with
      | true =>
        refine ⟨i :: r, rfl, h2.cons_cons _, ?_⟩
        intro x hx
        constructor
        · intro hx'
          rcases List.mem_cons.1 hx' with rfl | hx'
          · exact a2.1 hi
          · exact key x hx'
        · intro hm
          rcases List.mem_cons.1 hx with rfl | hx
          · exact .head _
          · exact .tail _ ((h3 x hx).2 hm)
      | false =>
        refine ⟨r, rfl, h2.cons _, ?_⟩
        intro x hx
        refine ⟨key x, ?_⟩
        intro hm
        rcases List.mem_cons.1 hx with rfl | hx
        · have := a2.2 hm
          rw [hi] at this
          cases this
        · exact (h3 x hx).2 hm

private theorem context_eq : context = .user "context".toList "Context".toList := rfl
private theorem error_eq : GoParse.error = .basic "error".toList := rfl

private theorem valid_iff (i : Iface) : isValidService i = true ↔ ∀ n m, (n, m) ∈ i.methods → Remote m := by
  unfold isValidService
  rw [List.all_eq_true]
  constructor
  · intro h n m hm
    have := h (n, m) hm
    simp only [Bool.and_eq_true] at this
    obtain ⟨h1, h2⟩ := this
    constructor
    · cases ha : m.args with
      | nil => rw [ha] at h1; cases h1
      | cons a as =>
        rw [ha] at h1
        exact ⟨a, as, rfl, context_eq ▸ eq_of_beq h1⟩
    · cases hr : m.rets.getLast? with
      | none => rw [hr] at h2; cases h2
      | some r =>
        rw [hr] at h2
        obtain ⟨rs, e⟩ := List.getLast?_eq_some_iff.1 hr
        exact ⟨rs, r, e, error_eq ▸ eq_of_beq h2⟩
  · intro h e he
    obtain ⟨n, m⟩ := e
    obtain ⟨⟨a, as, h1, h2⟩, rs, r, h3, h4⟩ := h n m he
    simp only [h1, h3, List.getLast?_append, List.getLast?_singleton, Option.some_or, h2, h4, Bool.and_eq_true, beq_iff_eq]
    exact ⟨rfl, rfl⟩

private theorem constructs_iff (t : Ty) (f : Func) : constructs t f = true ↔ Builds f t := by
  unfold constructs validConstructor Builds
  simp only [Bool.and_eq_true]
  constructor
  · rintro ⟨⟨h1, h2⟩, h3⟩
    constructor
    · cases ha : f.args with
      | nil => rw [ha] at h2; cases h2
      | cons a as =>
        rw [ha] at h2
        exact ⟨a, as, rfl, context_eq ▸ eq_of_beq h2⟩
    · split at h1
      · next r e hr =>
        rw [hr] at h3
        exact ⟨r, e, hr, eq_of_beq h3, error_eq ▸ eq_of_beq h1⟩
      · cases h1
  · rintro ⟨⟨a, as, h1, h2⟩, r, e, h3, h4, h5⟩
    simp only [h1, h2, h3, h4, h5, beq_iff_eq]
    exact ⟨⟨rfl, rfl⟩, trivial⟩

private theorem filter_cases {α : Type} (p : α → Bool) (l : List α) :
    (l.filter p = [] ∧ ∀ x ∈ l, ¬ p x = true) ∨ ∃ c cs, l.filter p = c :: cs ∧ c ∈ l ∧ p c = true := by
  cases h : l.filter p with
  | nil => exact .inl ⟨rfl, fun x hx hp => by simpa using (List.filter_eq_nil_iff.1 h) x hx hp⟩
  | cons c cs =>
    have : c ∈ l.filter p := by rw [h]; simp
    exact .inr ⟨c, cs, rfl, (List.mem_filter.1 this).1, (List.mem_filter.1 this).2⟩

/-- C85: an interface whose types are understood is accepted as a service exactly if all its methods take a context and return an
error, and there are a function that returns it (and takes a context and returns an error) and a struct with its methods; what is found
is such a function and such a struct, and there is no panic.  Missing from the full property: generic types and types that are not
found (`C85_panic_refuted`). -/
theorem C85_interface_partial (i : Iface) (funcs : List Func) (structs : List Struct) (hu : i.Understood) :
    ((∃ s, serviceFromIface i funcs structs = .ok s) ↔ (∀ n m, (n, m) ∈ i.methods → Remote m) ∧
      (∃ c ∈ funcs, Builds c (.user i.pkg i.name)) ∧ ∃ s ∈ structs, HasMethods s i) ∧
    serviceFromIface i funcs structs ≠ .panic ∧
    ∀ s, serviceFromIface i funcs structs = .ok s → s.iface = i ∧ (s.constructor ∈ funcs ∧ Builds s.constructor (.user i.pkg i.name)) ∧
      (s.struct ∈ structs ∧ HasMethods s.struct i) := by
  obtain ⟨r, f1, f2, f3⟩ := findStructs_iff i hu structs
  unfold serviceFromIface
  rw [f1]
  by_cases hv : isValidService i = true
  · rw [if_pos hv]
    have hv' := (valid_iff i).1 hv
    rcases filter_cases (constructs (.user i.pkg i.name)) funcs with ⟨h1, h2⟩ | ⟨c, cs, h1, h2, h3⟩
    · rw [h1]
      refine ⟨⟨fun ⟨s, h⟩ => (by cases h), ?_⟩, by simp, fun s h => by cases h⟩
      rintro ⟨-, ⟨c, hc, hb⟩, -⟩
      exact absurd ((constructs_iff _ _).2 hb) (h2 c hc)
    · rw [h1]
      cases r with
      | nil =>
        refine ⟨⟨fun ⟨s, h⟩ => (by cases h), ?_⟩, by simp, fun s h => by cases h⟩
        rintro ⟨-, -, s, hs, hm⟩
        have := (f3 s hs).2 hm
        simp at this
      | cons s r =>
        have hs : s ∈ structs := f2.subset (.head _)
        have hm := (f3 s hs).1 (.head _)
        refine ⟨⟨fun _ => ⟨hv', ⟨c, h2, (constructs_iff _ _).1 h3⟩, s, hs, hm⟩, fun _ => ⟨_, rfl⟩⟩, by simp, ?_⟩
        intro s' h
        cases h
        exact ⟨rfl, ⟨h2, (constructs_iff _ _).1 h3⟩, hs, hm⟩
  · rw [if_neg hv]
    refine ⟨⟨fun ⟨s, h⟩ => (by cases h), ?_⟩, by simp, fun s h => by cases h⟩
    rintro ⟨h, -⟩
    exact absurd ((valid_iff i).2 h) hv

/-- C85: a struct is accepted as a service exactly if it has the methods of some interface all of whose methods take a context
and return an error, and there is a function that returns a pointer to it (and takes a context and returns an error); what is found is
such a function and such an interface.  Missing from the full property: generic types and types that are not found. -/
theorem C85_struct_partial (s : Struct) (funcs : List Func) (ifaces : List Iface) (hu : ∀ i ∈ ifaces, i.Understood) :
    ((∃ r, serviceFromStruct s funcs ifaces = .ok r) ↔
      (∃ i ∈ ifaces, HasMethods s i ∧ ∀ n m, (n, m) ∈ i.methods → Remote m) ∧
      ∃ c ∈ funcs, Builds c (.pointer (.user s.pkg s.name))) ∧
    serviceFromStruct s funcs ifaces ≠ .panic ∧
    ∀ r, serviceFromStruct s funcs ifaces = .ok r → r.struct = s ∧
      (r.constructor ∈ funcs ∧ Builds r.constructor (.pointer (.user s.pkg s.name))) ∧
      (r.iface ∈ ifaces ∧ HasMethods s r.iface ∧ ∀ n m, (n, m) ∈ r.iface.methods → Remote m) := by
  obtain ⟨r, f1, f2, f3⟩ := findIfaces_iff s ifaces hu
  unfold serviceFromStruct
  rw [f1]
  simp only []
  rcases filter_cases isValidService r with ⟨h1, h2⟩ | ⟨i, is, h1, h2, h3⟩
  · rw [h1]
    refine ⟨⟨fun ⟨s, h⟩ => (by cases h), ?_⟩, by simp, fun s h => by cases h⟩
    rintro ⟨⟨i, hi, hm, hv⟩, -⟩
    exact absurd ((valid_iff i).2 hv) (h2 i ((f3 i hi).2 hm))
  · rw [h1]
    simp only []
    have hi : i ∈ ifaces := f2.subset h2
    have hm := (f3 i hi).1 h2
    rcases filter_cases (constructs (.pointer (.user s.pkg s.name))) funcs with ⟨g1, g2⟩ | ⟨c, cs, g1, g2, g3⟩
    · rw [g1]
      refine ⟨⟨fun ⟨s, h⟩ => (by cases h), ?_⟩, by simp, fun s h => by cases h⟩
      rintro ⟨-, c, hc, hb⟩
      exact absurd ((constructs_iff _ _).2 hb) (g2 c hc)
    · rw [g1]
      refine ⟨⟨fun _ => ⟨⟨i, hi, hm, (valid_iff i).1 h3⟩, c, g2, (constructs_iff _ _).1 g3⟩, fun _ => ⟨_, rfl⟩⟩, by simp, ?_⟩
      intro s' h
      cases h
      exact ⟨rfl, ⟨g2, (constructs_iff _ _).1 g3⟩, hi, hm, (valid_iff i).1 h3⟩

/-- C85: with one constructor and one struct, the service does not depend on the order in which packages and declarations are
visited.  Missing from the full property: several constructors or structs (`C85_choice_refuted`). -/
theorem C85_order_partial (i : Iface) (funcs funcs' : List Func) (structs structs' : List Struct) (hu : i.Understood)
    (pf : funcs'.Perm funcs) (ps : structs'.Perm structs)
    (hc : ∀ c ∈ funcs, ∀ c' ∈ funcs, Builds c (.user i.pkg i.name) → Builds c' (.user i.pkg i.name) → c = c')
    (hs : ∀ s ∈ structs, ∀ s' ∈ structs, HasMethods s i → HasMethods s' i → s = s') :
    serviceFromIface i funcs' structs' = serviceFromIface i funcs structs := by
  obtain ⟨a1, a2, a3⟩ := C85_interface_partial i funcs structs hu
  obtain ⟨b1, b2, b3⟩ := C85_interface_partial i funcs' structs' hu
  have same : (∃ s, serviceFromIface i funcs' structs' = .ok s) ↔ ∃ s, serviceFromIface i funcs structs = .ok s := by
    rw [a1, b1]
    constructor
    · rintro ⟨h1, ⟨c, h2, h3⟩, s, h4, h5⟩
      exact ⟨h1, ⟨c, pf.mem_iff.1 h2, h3⟩, s, ps.mem_iff.1 h4, h5⟩
    · rintro ⟨h1, ⟨c, h2, h3⟩, s, h4, h5⟩
      exact ⟨h1, ⟨c, pf.mem_iff.2 h2, h3⟩, s, ps.mem_iff.2 h4, h5⟩
  cases ha : serviceFromIface i funcs structs with
  | panic => exact absurd ha a2
  | error =>
    cases hb : serviceFromIface i funcs' structs' with
    | panic => exact absurd hb b2
    | error => rfl
    | ok s =>
      obtain ⟨s', h⟩ := same.1 ⟨s, hb⟩
      rw [ha] at h
      cases h
  | ok s =>
    obtain ⟨s', hb⟩ := same.2 ⟨s, ha⟩
    obtain ⟨x1, ⟨x2, x3⟩, x4, x5⟩ := a3 s ha
    obtain ⟨y1, ⟨y2, y3⟩, y4, y5⟩ := b3 s' hb
    rw [hb]
    have e1 := hc _ (pf.mem_iff.1 y2) _ x2 y3 x3
    have e2 := hs _ (ps.mem_iff.1 y4) _ x4 y5 x5
    cases s
    cases s'
    simp only at *
    rw [e1, e2, x1, y1]

/-- C85 refuted: with two constructors the one that is used depends on the order in which Go iterates over maps, which differs from run
to run; and the struct need not be the one that the constructor makes. -/
theorem C85_choice_refuted (i : Iface) (c c' : Func) (s s' : Struct) (hu : i.Understood) (hv : ∀ n m, (n, m) ∈ i.methods → Remote m)
    (hc : Builds c (.user i.pkg i.name)) (hc' : Builds c' (.user i.pkg i.name)) (hs : HasMethods s i) (hs' : HasMethods s' i) :
    serviceFromIface i [c, c'] [s, s'] = .ok ⟨i, c, s⟩ ∧ serviceFromIface i [c', c] [s, s'] = .ok ⟨i, c', s⟩ ∧
    serviceFromIface i [c, c'] [s', s] = .ok ⟨i, c, s'⟩ := by
  have k1 := (constructs_iff _ _).2 hc
  have k2 := (constructs_iff _ _).2 hc'
  have i1 := (implements_iff s i.methods hu).2.2 hs
  have i2 := (implements_iff s' i.methods hu).2.2 hs'
  have hv := (valid_iff i).2 hv
  refine ⟨?_, ?_, ?_⟩ <;> simp [serviceFromIface, hv, k1, k2, findStructs, i1, i2]

/-- C85 refuted: a service interface with a method that takes a generic type (or a slice of a type that was not found) makes the
compiler panic, as soon as there is a struct that implements it. -/
theorem C85_panic_refuted (pkg name n : Name) (t : Ty) (ht : t.equals t = none) (c : Func) (hc : Builds c (.user pkg name)) (s : Struct)
    (hs : s.methods = [(n, ⟨n, [⟨[], context⟩, ⟨[], t⟩], [⟨[], GoParse.error⟩]⟩)]) (structs : List Struct) :
    serviceFromIface ⟨pkg, name, [(n, ⟨n, [⟨[], context⟩, ⟨[], t⟩], [⟨[], GoParse.error⟩]⟩)]⟩ [c] (s :: structs) = .panic := by
  have hc := (constructs_iff _ _).2 hc
  have hctx : context.equals context = some true := rfl
  unfold serviceFromIface
  rw [if_pos (show isValidService _ = true from rfl)]
  have : findStructs ⟨pkg, name, [(n, ⟨n, [⟨[], context⟩, ⟨[], t⟩], [⟨[], GoParse.error⟩]⟩)]⟩ (s :: structs) = none := by
    simp [findStructs, implements, hs, List.lookup_cons, Func.equals, sameTypes, hctx, ht]
  rw [this]
  simp [hc]

/-- C85 refuted: the same happens when a struct is asked for and any interface of the program, related to the service or not, declares
a method of the struct that takes such a type, whatever the other interfaces and the functions are. -/
theorem C85_struct_panic_refuted (i : Iface) (n : Name) (t : Ty) (ht : t.equals t = none)
    (hi : i.methods = [(n, ⟨n, [⟨[], context⟩, ⟨[], t⟩], [⟨[], GoParse.error⟩]⟩)]) (s : Struct)
    (hs : s.methods.lookup n = some ⟨n, [⟨[], context⟩, ⟨[], t⟩], [⟨[], GoParse.error⟩]⟩) (ifaces : List Iface) (hmem : i ∈ ifaces)
    (funcs : List Func) : serviceFromStruct s funcs ifaces = .panic := by
  have hctx : context.equals context = some true := rfl
  have h0 : implements s i.methods = none := by
    simp [implements, hi, hs, Func.equals, sameTypes, hctx, ht]
  have : ∀ l : List Iface, i ∈ l → findIfaces s l = none := by
    intro l
    induction l with
    | nil => intro h; cases h
    | cons j l ih =>
      intro h
      rw [findIfaces]
      rcases List.mem_cons.1 h with rfl | h
      · rw [h0]
      · rw [ih h]
        cases implements s j.methods <;> rfl
  rw [serviceFromStruct, this ifaces hmem]

/-- C85: the methods of a service, as all plugins see them, are those of the interface without the context and the error. -/
theorem C85_methods (i : Iface) (hv : ∀ n m, (n, m) ∈ i.methods → Remote m) :
    ∃ ms, serviceMethods i.methods = some ms ∧ ms.map (·.1) = i.methods.map (·.1) ∧
      ∀ n m, (n, m) ∈ i.methods → ∃ m', (n, m') ∈ ms ∧ m'.name = m.name ∧
        ∃ ctx err, m.args = ctx :: m'.args ∧ m.rets = m'.rets ++ [err] := by
  have key : ∀ l : List (Name × Func), (∀ n m, (n, m) ∈ l → Remote m) →
      ∃ ms, serviceMethods l = some ms ∧ ms.map (·.1) = l.map (·.1) ∧
      ∀ n m, (n, m) ∈ l → ∃ m', (n, m') ∈ ms ∧ m'.name = m.name ∧ ∃ ctx err, m.args = ctx :: m'.args ∧ m.rets = m'.rets ++ [err] := by
    intro l
    induction l with
    | nil => intro _; exact ⟨[], rfl, rfl, by simp⟩
    | cons e l ih =>
      intro h
      obtain ⟨n, m⟩ := e
      obtain ⟨ms, h1, h2, h3⟩ := ih fun n m hm => h n m (.tail _ hm)
      obtain ⟨⟨a, as, e1, -⟩, rs, r, e2, -⟩ := h n m (.head _)
      refine ⟨(n, ⟨m.name, as, rs⟩) :: ms, ?_, by simp [h2], ?_⟩
      · simp [serviceMethods, e1, e2, h1]
      · intro k f hk
        rcases List.mem_cons.1 hk with hk | hk
        · cases hk
          exact ⟨_, .head _, rfl, a, r, e1, e2⟩
        · obtain ⟨m', x1, x2⟩ := h3 k f hk
          exact ⟨m', .tail _ x1, x2⟩
  exact key _ hv

/-- C85: if the interface and the constructor of a service are in the same local module, that module is in the workspace after
`AddToWorkspace`, added once at most, also when several services use it.  Missing from the full property: interface and constructor in
different modules (`C85_workspace_refuted`). -/
theorem C85_workspace_partial (w : Workspace) (m : Module) (hl : m.isLocal = true) :
    (m.name ∉ w.visited → (addToWorkspace w [m, m]).added = w.added ++ [m.name]) ∧
    (m.name ∈ w.visited → (addToWorkspace w [m, m]).added = w.added) ∧ m.name ∈ (addToWorkspace w [m, m]).visited := by
  by_cases hv : m.name ∈ w.visited
  · simp [addToWorkspace, hl, Workspace.visit, hv]
  · simp [addToWorkspace, hl, Workspace.visit, hv]

/-- C85 refuted: if interface and constructor are in two local modules, only that of the interface is added to the workspace; the code
generated for the service imports a package that is not there. -/
theorem C85_workspace_refuted (w : Workspace) (m k : Module) (hl : m.isLocal = true) (hv : m.name ∉ w.visited) (hk : k.name ∉ w.added)
    (hmk : k.name ≠ m.name) : k.name ∉ (addToWorkspace w [m, k]).added := by
  simp [addToWorkspace, hl, Workspace.visit, hv, hk, hmk]

/-- C85: modules that are not local are never copied into the workspace. -/
theorem C85_workspace_local (w : Workspace) (ms : List Module) (n : Name) (h : n ∈ (addToWorkspace w ms).added) :
    n ∈ w.added ∨ ∃ m ∈ ms, m.name = n ∧ m.isLocal = true := by
  induction ms generalizing w with
  | nil => exact .inl h
  | cons m ms ih =>
    simp only [addToWorkspace] at h
    split at h
    · rename_i hl
      split at h
      · rename_i w' e
        simp only [Workspace.visit, Prod.mk.injEq] at e
        rw [← e.2] at h
        exact (ih _ h).imp id fun ⟨m', h1, h2⟩ => ⟨m', .tail _ h1, h2⟩
      · rename_i w' e
        simp only [Workspace.visit, Prod.mk.injEq] at e
        rw [← e.2] at h
        rcases List.mem_append.1 h with h | h
        · exact .inl h
        · exact .inr ⟨m, .head _, (List.mem_singleton.1 h).symm, hl⟩
    · exact (ih _ h).imp id fun ⟨m', h1, h2⟩ => ⟨m', .tail _ h1, h2⟩

example : (addToWorkspace {} [⟨['a'], false⟩, ⟨['b'], true⟩]).added = [['b']] := by decide

/-! ### Concrete cases -/

private def method : Func := ⟨['M'], [⟨['c'], context⟩, ⟨['x'], .basic "int".toList⟩], [⟨[], .basic "string".toList⟩, ⟨[], GoParse.error⟩]⟩
private def service : Iface := ⟨['p'], ['I'], [(['M'], method)]⟩
private def impl : Struct := ⟨['q'], ['S'], [], [(['M'], { method with args := [⟨[], context⟩, ⟨['y'], .basic "int".toList⟩] })]⟩
private def new : Func := ⟨['N'], [⟨['c'], context⟩], [⟨[], .user ['p'] ['I']⟩, ⟨[], GoParse.error⟩]⟩

example : service.Understood := by
  intro n m hm v hv
  simp only [service, List.mem_singleton, Prod.mk.injEq] at hm
  rw [hm.2] at hv
  simp only [method, List.cons_append, List.nil_append, List.mem_cons, List.not_mem_nil, or_false] at hv
  rcases hv with rfl | rfl | rfl | rfl
  · exact ⟨_, .user _ _⟩
  all_goals exact ⟨_, .basic _⟩
example : serviceFromIface service [{ method with name := ['X'] }, new] [impl] = .ok ⟨service, new, impl⟩ := by decide
example : (serviceMethods service.methods).map (fun l => l.map fun e => (e.2.args.length, e.2.rets.length)) = some [(1, 1)] := by decide
-- C85_panic_refuted
example : Ty.equals (.generic (.user ['p'] ['G'])) (.generic (.user ['p'] ['G'])) = none := by decide
example : Ty.equals (.slice .nil) (.slice .nil) = none := by decide

-- C85_struct_panic_refuted
private def gen : Func := ⟨['M'], [⟨[], context⟩, ⟨[], .generic (.user ['p'] ['G'])⟩], [⟨[], GoParse.error⟩]⟩
example : serviceFromStruct ⟨['q'], ['S'], [], [(['M'], gen), (['N'], method)]⟩ [] [service, ⟨['r'], ['J'], [(['M'], gen)]⟩] = .panic := by decide

end Verif.GoParse
