import Verif.GoParse.Types
/-
C84: what the parser finds in a package.
-/
namespace Verif.GoParse

/-! ### Signatures and fields -/

private theorem variables_iff (ty : Expr → Ty) (gs : List Group) (vs : List Var) :
    variables ty gs = some vs ↔ (∀ g ∈ gs, ty g.type ≠ .nil) ∧ vs = (parameters gs).map fun (n, e) => ⟨n, ty e⟩ := by
  induction gs generalizing vs with
  | nil => simp [variables, parameters, eq_comm]
  | cons g gs ih =>
    obtain ⟨ns, t⟩ := g
    simp only [variables]
    by_cases ht : ty t = .nil
    · simp [ht]
    · rw [if_neg ht]
      have hpar : (parameters (⟨ns, t⟩ :: gs)).map (fun (n, e) => (⟨n, ty e⟩ : Var)) =
          (if ns = [] then [⟨[], ty t⟩] else ns.map fun n => ⟨n, ty t⟩) ++
            (parameters gs).map fun (n, e) => (⟨n, ty e⟩ : Var) := by
        match ns with
        | [] => simp [parameters]
        | [n] => simp [parameters]
        | n :: m :: ns => simp [parameters]
      rw [hpar]
      cases hv : variables ty gs with
      | none =>
        simp only [List.mem_cons, forall_eq_or_imp]
        constructor
        · intro h; cases h
        · rintro ⟨⟨-, h⟩, -⟩
          have := (ih _).2 ⟨h, rfl⟩
          rw [hv] at this
          cases this
      | some ws =>
        have hw := (ih ws).1 hv
        simp only [List.mem_cons, forall_eq_or_imp, Option.some.injEq]
        rw [← hw.2]
        constructor
        · intro h
          exact ⟨⟨ht, hw.1⟩, h.symm⟩
        · rintro ⟨-, h⟩
          exact h.symm

/-- C84: a signature is read as exactly the parameters and results that it declares, in order, with their names and types; if
(and only if) one of the types is not understood at all, it is an error. -/
theorem C84_signature (ty : Expr → Ty) (name : Name) (s : Sig) (f : Func) :
    parseFunc ty name s = some f ↔
      (∀ g ∈ s.params ++ s.results, ty g.type ≠ .nil) ∧ f.name = name ∧
      f.args.map (fun v => (v.name, v.type)) = (parameters s.params).map (fun (n, e) => (n, ty e)) ∧
      f.rets.map (fun v => (v.name, v.type)) = (parameters s.results).map (fun (n, e) => (n, ty e)) := by
  have conv : ∀ (vs : List Var) (l : List (Name × Expr)),
      vs.map (fun v => (v.name, v.type)) = l.map (fun (n, e) => (n, ty e)) ↔ vs = l.map fun (n, e) => ⟨n, ty e⟩ := by
    intro vs l
    induction vs generalizing l with
    | nil => cases l <;> simp
    | cons v vs ih =>
      cases l with
      | nil => simp
      | cons x l =>
        simp only [List.map_cons, List.cons.injEq, ih, Prod.mk.injEq]
        obtain ⟨a, b⟩ := v
        simp
  rw [conv, conv]
  unfold parseFunc
  simp only [List.mem_append]
  cases ha : variables ty s.params with
  | none =>
    constructor
    · intro h; cases h
    · rintro ⟨h, -⟩
      have := (variables_iff ty s.params _).2 ⟨fun g hg => h g (.inl hg), rfl⟩
      rw [ha] at this
      cases this
  | some args =>
    have ha := (variables_iff ty s.params args).1 ha
    cases hr : variables ty s.results with
    | none =>
      constructor
      · intro h; cases h
      · rintro ⟨h, -⟩
        have := (variables_iff ty s.results _).2 ⟨fun g hg => h g (.inr hg), rfl⟩
        rw [hr] at this
        cases this
    | some rets =>
      have hr := (variables_iff ty s.results rets).1 hr
      simp only [Option.some.injEq]
      rw [← ha.2, ← hr.2]
      constructor
      · rintro rfl
        exact ⟨fun g hg => hg.elim (ha.1 g) (hr.1 g), rfl, rfl, rfl⟩
      · rintro ⟨-, h1, h2, h3⟩
        rw [← h1, ← h2, ← h3]

/-- C84: if every field of a struct is declared by itself, the parser finds exactly its fields, in order; embedded fields have no
name.  Missing from the full property: fields that share a type (`C84_fields_refuted`). -/
theorem C84_fields_partial (gs : List Group) (h : ∀ g ∈ gs, g.names.length ≤ 1) :
    (gs.map loadField).map (fun f => (f.name.getD [], f.type)) = parameters gs := by
  induction gs with
  | nil => rfl
  | cons g gs ih =>
    obtain ⟨ns, t⟩ := g
    have hg := h ⟨ns, t⟩ (.head _)
    have ih := ih fun g hg => h g (.tail _ hg)
    match ns with
    | [] => simp [parameters, loadField, ← ih]
    | [n] => simp [parameters, loadField, ← ih]
    | n :: m :: ns => simp at hg

/-- C84 refuted: of fields that share a type, as in `X, Y int`, only the first is found: some declared field is missing from the
parsed struct, and with it from all messages generated for the struct. -/
theorem C84_fields_refuted (gs : List Group) (g : Group) (hg : g ∈ gs) (h : 2 ≤ g.names.length) :
    (gs.map loadField).length < (parameters gs).length := by
  have le : ∀ gs : List Group, gs.length ≤ (parameters gs).length := by
    intro gs
    induction gs with
    | nil => simp
    | cons g gs ih =>
      obtain ⟨ns, t⟩ := g
      match ns with
      | [] => simp [parameters, ih]
      | [n] => simp [parameters, ih]
      | n :: m :: ns => simp [parameters]; omega
  rw [List.length_map]
  induction gs with
  | nil => simp at hg
  | cons g' gs ih =>
    obtain ⟨ns, t⟩ := g'
    rcases List.mem_cons.1 hg with rfl | hg
    · have := le gs
      match ns with
      | [] => simp at h
      | [n] => simp at h
      | n :: m :: ns => simp [parameters]; omega
    · have ih := ih hg
      match ns with
      | [] => simp [parameters, ih]
      | [n] => simp [parameters, ih]
      | n :: m :: ns => simp [parameters]; omega

/-! ### Loading types -/

private def eachType : List (File × TypeDecl) → Pkg → Pkg × Bool
  | [], p => (p, true)
  | e :: l, p => match loadType e.1 e.2 p with
    | (p, false) => (p, false)
    | (p, true) => eachType l p

private theorem eachType_append (l m : List (File × TypeDecl)) (p : Pkg) :
    eachType (l ++ m) p = match eachType l p with
      | (p, false) => (p, false)
      | (p, true) => eachType m p := by
  induction l generalizing p with
  | nil => rfl
  | cons e l ih =>
    simp only [List.cons_append, eachType]
    split
    · rfl
    · exact ih _

private theorem loadTypes_each (f : File) (ds : List TypeDecl) (p : Pkg) :
    loadTypes f ds p = eachType (ds.map fun d => (f, d)) p := by
  induction ds generalizing p with
  | nil => rfl
  | cons d ds ih =>
    simp only [loadTypes, List.map_cons, eachType]
    split <;> simp_all

private theorem loadAllTypes_each (files : List File) (p : Pkg) : loadAllTypes files p = eachType (allTypes files) p := by
  induction files generalizing p with
  | nil => rfl
  | cons f fs ih =>
    simp only [loadAllTypes, allTypes, List.flatMap_cons]
    rw [eachType_append, ← loadTypes_each]
    split
    · rename_i h; rw [h]
    · rename_i h; rw [h]; exact ih _

private def structOf (l : List (File × TypeDecl)) (n : Name) : Option StructDecl := l.findSome? fun e =>
  if e.2.name = n then match e.2.body with
    | .struct gs => some ⟨e.1, e.2.params, gs.map loadField, []⟩
    | _ => none
  else none

private def ifaceOf (l : List (File × TypeDecl)) (n : Name) : Option IfaceDecl := l.findSome? fun e =>
  if e.2.name = n then match e.2.body with
    | .iface ms => some ⟨(loadMembers e.1 ms []).1⟩
    | _ => none
  else none

private theorem structOf_none {l : List (File × TypeDecl)} {n : Name} (h : n ∉ l.map (·.2.name)) : structOf l n = none := by
  unfold structOf
  rw [List.findSome?_eq_none_iff]
  intro e he
  rw [if_neg]
  intro hn
  exact h (List.mem_map.2 ⟨e, he, hn⟩)

private theorem ifaceOf_none {l : List (File × TypeDecl)} {n : Name} (h : n ∉ l.map (·.2.name)) : ifaceOf l n = none := by
  unfold ifaceOf
  rw [List.findSome?_eq_none_iff]
  intro e he
  rw [if_neg]
  intro hn
  exact h (List.mem_map.2 ⟨e, he, hn⟩)

private theorem members_ok (f : File) (ms : List Member) (m : List (Name × Found)) (h : .embedded ∉ ms) :
    (loadMembers f ms m).2 = true := by
  induction ms generalizing m with
  | nil => rfl
  | cons x ms ih =>
    cases x with
    | embedded => simp at h
    | method n s => exact ih _ fun hx => h (.tail _ hx)

private theorem members_lookup (f : File) (ms : List Member) (m : List (Name × Found)) (h : .embedded ∉ ms)
    (hn : (ms.filterMap Member.name?).Nodup) (n : Name) (found : Found) :
    (loadMembers f ms m).1.lookup n = some found ↔
      (∃ s, .method n s ∈ ms ∧ found = ⟨f, n, s⟩) ∨ (n ∉ ms.filterMap Member.name? ∧ m.lookup n = some found) := by
  induction ms generalizing m with
  | nil => simp [loadMembers]
  | cons x ms ih =>
    cases x with
    | embedded => simp at h
    | method k s =>
      simp only [List.filterMap_cons, Member.name?, List.nodup_cons] at hn
      simp only [loadMembers]
      rw [ih _ (fun hx => h (.tail _ hx)) hn.2, lookup_insert]
      simp only [List.filterMap_cons, Member.name?, List.mem_cons, not_or, Member.method.injEq]
      by_cases hk : n = k
      · subst hk
        simp only [if_true, hn.1, not_false_eq_true, true_and, Option.some.injEq, not_true_eq_false, false_and, or_false]
        constructor
        · rintro (⟨s', h1, h2⟩ | rfl)
          · exact ⟨s', .inr h1, h2⟩
          · exact ⟨s, .inl rfl, rfl⟩
        · rintro ⟨s', h1 | h1, h2⟩
          · rw [h2, h1]; exact .inr rfl
          · exact .inl ⟨s', h1, h2⟩
      · simp only [hk, if_false, not_false_eq_true, true_and, false_and, false_or]

private theorem types_spec (l : List (File × TypeDecl)) (p : Pkg) (hn : (l.map (·.2.name)).Nodup)
    (he : ∀ t ∈ l, ∀ ms, t.2.body = .iface ms → .embedded ∉ ms) :
    ∃ q, eachType l p = (q, true) ∧ q.name = p.name ∧ q.funcs = p.funcs ∧
      (∀ n, n ∈ q.declared ↔ n ∈ p.declared ∨ n ∈ l.map (·.2.name)) ∧
      (∀ n, q.structs.lookup n = (structOf l n).or (p.structs.lookup n)) ∧
      (∀ n, q.ifaces.lookup n = (ifaceOf l n).or (p.ifaces.lookup n)) := by
  induction l generalizing p with
  | nil => exact ⟨p, rfl, rfl, rfl, by simp, by simp [structOf], by simp [ifaceOf]⟩
  | cons e l ih =>
    obtain ⟨f, d⟩ := e
    simp only [List.map_cons, List.nodup_cons] at hn
    have step : ∃ q, loadType f d p = (q, true) ∧ q.name = p.name ∧ q.funcs = p.funcs ∧ q.declared = d.name :: p.declared ∧
        (∀ n, q.structs.lookup n = (structOf [(f, d)] n).or (p.structs.lookup n)) ∧
        (∀ n, q.ifaces.lookup n = (ifaceOf [(f, d)] n).or (p.ifaces.lookup n)) := by
      unfold loadType structOf ifaceOf
      cases hb : d.body with
      | iface ms =>
        have := members_ok f ms [] (he (f, d) (.head _) ms hb)
        refine ⟨{ p with declared := d.name :: p.declared, ifaces := insert d.name ⟨(loadMembers f ms []).1⟩ p.ifaces },
          by show (_, (loadMembers f ms []).2) = _; rw [this], rfl, rfl, rfl, ?_, ?_⟩
        · intro n
          simp only [List.findSome?_cons, hb, List.findSome?_nil]
          split <;> simp_all
        · intro n
          simp only [List.findSome?_cons, hb, List.findSome?_nil, lookup_insert]
          by_cases hx : d.name = n
          · simp [hx]
          · have : ¬ n = d.name := fun e => hx e.symm
            simp [hx, this]
      | struct gs =>
        refine ⟨_, rfl, rfl, rfl, rfl, ?_, ?_⟩
        · intro n
          simp only [List.findSome?_cons, hb, List.findSome?_nil, lookup_insert]
          by_cases hx : d.name = n
          · simp [hx]
          · have : ¬ n = d.name := fun e => hx e.symm
            simp [hx, this]
        · intro n
          simp only [List.findSome?_cons, hb, List.findSome?_nil]
          split <;> simp_all
      | other =>
        refine ⟨_, rfl, rfl, rfl, rfl, ?_, ?_⟩
        · intro n
          simp only [List.findSome?_cons, hb, List.findSome?_nil]
          split <;> simp_all
        · intro n
          simp only [List.findSome?_cons, hb, List.findSome?_nil]
          split <;> simp_all
    obtain ⟨q, s1, s2, s3, s4, s5, s6⟩ := step
    obtain ⟨r, i1, i2, i3, i4, i5, i6⟩ := ih q hn.2 fun t ht => he t (.tail _ ht)
    refine ⟨r, ?_, i2.trans s2, i3.trans s3, ?_, ?_, ?_⟩
    · simp only [eachType, s1]
      exact i1
    · intro n
      rw [i4, s4]
      simp only [List.mem_cons, List.map_cons]
      constructor
      · rintro ((h | h) | h)
        · exact .inr (.inl h)
        · exact .inl h
        · exact .inr (.inr h)
      · rintro (h | h | h)
        · exact .inl (.inr h)
        · exact .inl (.inl h)
        · exact .inr h
    · intro n
      rw [i5, s5, ← Option.or_assoc]
      congr 1
      have : structOf ((f, d) :: l) n = (structOf [(f, d)] n).or (structOf l n) := by
        unfold structOf
        simp only [List.findSome?_cons, List.findSome?_nil]
        split <;> simp_all
      rw [this]
      by_cases hx : n = d.name
      · rw [hx, structOf_none hn.1]; simp
      · have : structOf [(f, d)] n = none := structOf_none (by simp [hx])
        rw [this]; simp
    · intro n
      rw [i6, s6, ← Option.or_assoc]
      congr 1
      have : ifaceOf ((f, d) :: l) n = (ifaceOf [(f, d)] n).or (ifaceOf l n) := by
        unfold ifaceOf
        simp only [List.findSome?_cons, List.findSome?_nil]
        split <;> simp_all
      rw [this]
      by_cases hx : n = d.name
      · rw [hx, ifaceOf_none hn.1]; simp
      · have : ifaceOf [(f, d)] n = none := ifaceOf_none (by simp [hx])
        rw [this]; simp

/-! ### Loading functions -/

private def eachFunc : List (File × FuncDecl) → Pkg → Pkg × Bool
  | [], p => (p, true)
  | e :: l, p => match loadFunc e.1 e.2 p with
    | (p, false) => (p, false)
    | (p, true) => eachFunc l p

private theorem eachFunc_append (l m : List (File × FuncDecl)) (p : Pkg) :
    eachFunc (l ++ m) p = match eachFunc l p with
      | (p, false) => (p, false)
      | (p, true) => eachFunc m p := by
  induction l generalizing p with
  | nil => rfl
  | cons e l ih =>
    simp only [List.cons_append, eachFunc]
    split
    · rfl
    · exact ih _

private theorem loadFuncs_each (f : File) (ds : List FuncDecl) (p : Pkg) :
    loadFuncs f ds p = eachFunc (ds.map fun d => (f, d)) p := by
  induction ds generalizing p with
  | nil => rfl
  | cons d ds ih =>
    simp only [loadFuncs, List.map_cons, eachFunc]
    split <;> simp_all

private theorem loadAllFuncs_each (files : List File) (p : Pkg) : loadAllFuncs files p = eachFunc (allFuncs files) p := by
  induction files generalizing p with
  | nil => rfl
  | cons f fs ih =>
    simp only [loadAllFuncs, allFuncs, List.flatMap_cons]
    rw [eachFunc_append, ← loadFuncs_each]
    split
    · rename_i h; rw [h]
    · rename_i h; rw [h]; exact ih _

private def plainKeys (l : List (File × FuncDecl)) : List Name := (l.filter (·.2.plain)).map (·.2.name)
private def methodKeys (l : List (File × FuncDecl)) : List (Name × Name) :=
  l.filterMap fun e => e.2.methodOf.map fun n => (n, e.2.name)

/-- The package `q` is `p` with the functions and methods of `l`. -/
private structure With (p : Pkg) (l : List (File × FuncDecl)) (q : Pkg) : Prop where
  name : q.name = p.name
  declared : q.declared = p.declared
  ifaces : q.ifaces = p.ifaces
  funcs : ∀ n found, q.funcs.lookup n = some found ↔
    (∃ e ∈ l, e.2.recv = none ∧ e.2.name = n ∧ found = ⟨e.1, n, e.2.sig⟩) ∨ (n ∉ plainKeys l ∧ p.funcs.lookup n = some found)
  structs : ∀ n, q.structs.lookup n = none ↔ p.structs.lookup n = none
  methods : ∀ n s, p.structs.lookup n = some s → ∃ s', q.structs.lookup n = some s' ∧ s'.file = s.file ∧ s'.params = s.params ∧
    s'.fields = s.fields ∧ ∀ m found, s'.methods.lookup m = some found ↔
      (∃ e ∈ l, e.2.methodOf = some n ∧ e.2.name = m ∧ found = ⟨e.1, m, e.2.sig⟩) ∨
        ((n, m) ∉ methodKeys l ∧ s.methods.lookup m = some found)

private theorem funcs_spec (l : List (File × FuncDecl)) (p : Pkg) (h1 : (plainKeys l).Nodup) (h2 : (methodKeys l).Nodup)
    (h3 : ∀ e ∈ l, e.2.plain = true ∨ ∃ n, e.2.methodOf = some n ∧ p.structs.lookup n ≠ none) :
    ∃ q, eachFunc l p = (q, true) ∧ With p l q := by
  induction l generalizing p with
  | nil =>
    refine ⟨p, rfl, rfl, rfl, rfl, by simp [plainKeys], fun _ => Iff.rfl, ?_⟩
    intro n s hs
    exact ⟨s, hs, rfl, rfl, rfl, by simp [methodKeys]⟩
  | cons e l ih =>
    obtain ⟨f, d⟩ := e
    have h3' := h3 (f, d) (.head _)
    cases hr : d.recv with
    | none =>
      have hp : d.plain = true := by simp [FuncDecl.plain, hr]
      have hm : d.methodOf = none := by simp [FuncDecl.methodOf, hr]
      have k1 : plainKeys ((f, d) :: l) = d.name :: plainKeys l := by simp [plainKeys, hp]
      have k2 : methodKeys ((f, d) :: l) = methodKeys l := by simp [methodKeys, hm]
      rw [k1, List.nodup_cons] at h1
      rw [k2] at h2
      have step : loadFunc f d p = ({ p with funcs := insert d.name ⟨f, d.name, d.sig⟩ p.funcs }, true) := by
        simp [loadFunc, hr]
      obtain ⟨q, e1, w⟩ := ih { p with funcs := insert d.name ⟨f, d.name, d.sig⟩ p.funcs } h1.2 h2 fun e he => h3 e (.tail _ he)
      refine ⟨q, by simp only [eachFunc, step]; exact e1, w.name, w.declared, w.ifaces, ?_, w.structs, ?_⟩
      · intro n found
        rw [w.funcs, k1]
        simp only [lookup_insert, List.mem_cons, not_or]
        by_cases hn : n = d.name
        · subst hn
          simp only [h1.1, not_false_eq_true, if_true, true_and, Option.some.injEq, not_true_eq_false, false_and, or_false]
          constructor
          · rintro (⟨e, he, h⟩ | rfl)
            · exact ⟨e, .inr he, h⟩
            · exact ⟨(f, d), .inl rfl, hr, rfl, rfl⟩
          · rintro ⟨e, he | he, h⟩
            · subst he
              exact .inr h.2.2.symm
            · exact .inl ⟨e, he, h⟩
        · simp only [hn, if_false, not_false_eq_true, true_and]
          constructor
          · rintro (⟨e, he, h⟩ | h)
            · exact .inl ⟨e, .inr he, h⟩
            · exact .inr h
          · rintro (⟨e, he | he, h⟩ | h)
            · subst he
              exact absurd h.2.1.symm hn
            · exact .inl ⟨e, he, h⟩
            · exact .inr h
      · intro n s hs
        obtain ⟨s', a1, a2, a3, a4, a5⟩ := w.methods n s hs
        refine ⟨s', a1, a2, a3, a4, ?_⟩
        intro m found
        rw [a5, k2]
        constructor
        · rintro (⟨e, he, h⟩ | h)
          · exact .inl ⟨e, .tail _ he, h⟩
          · exact .inr h
        · rintro (⟨e, he, h⟩ | h)
          · rcases List.mem_cons.1 he with rfl | he
            · rw [hm] at h; cases h.1
            · exact .inl ⟨e, he, h⟩
          · exact .inr h
    | some r =>
      have hp : d.plain = false := by simp [FuncDecl.plain, hr]
      rcases h3' with h | ⟨k, hk, hs⟩
      · rw [hp] at h; cases h
      · have k1 : plainKeys ((f, d) :: l) = plainKeys l := by simp [plainKeys, hp]
        have k2 : methodKeys ((f, d) :: l) = (k, d.name) :: methodKeys l := by simp [methodKeys, hk]
        rw [k1] at h1
        rw [k2, List.nodup_cons] at h2
        have ht : r.typeName = some k := by
          simp only [FuncDecl.methodOf, hr] at hk
          cases r <;> simp_all [Recv.typeName]
        obtain ⟨s, hs⟩ := Option.ne_none_iff_exists'.1 hs
        have step : loadFunc f d p = ({ p with structs := insert k { s with methods := insert d.name ⟨f, d.name, d.sig⟩ s.methods } p.structs }, true) := by
          simp [loadFunc, hr, ht, hs]
        obtain ⟨q, e1, w⟩ := ih { p with structs := insert k { s with methods := insert d.name ⟨f, d.name, d.sig⟩ s.methods } p.structs }
          h1 h2.2 (by
            intro e he
            rcases h3 e (.tail _ he) with h | ⟨n, a, b⟩
            · exact .inl h
            · refine .inr ⟨n, a, ?_⟩
              simp only [lookup_insert]
              split
              · simp
              · exact b)
        refine ⟨q, by simp only [eachFunc, step]; exact e1, w.name, w.declared, w.ifaces, ?_, ?_, ?_⟩
        · intro n found
          rw [w.funcs, k1]
          constructor
          · rintro (⟨e, he, h⟩ | h)
            · exact .inl ⟨e, .tail _ he, h⟩
            · exact .inr h
          · rintro (⟨e, he, h⟩ | h)
            · rcases List.mem_cons.1 he with rfl | he
              · rw [hr] at h; cases h.1
              · exact .inl ⟨e, he, h⟩
            · exact .inr h
        · intro n
          rw [w.structs]
          simp only [lookup_insert]
          split
          · next h => rw [h, hs]; simp
          · exact Iff.rfl
        · intro n s0 hs0
          by_cases hn : n = k
          · subst hn
            rw [hs] at hs0
            cases hs0
            obtain ⟨s', a1, a2, a3, a4, a5⟩ := w.methods n { s with methods := insert d.name ⟨f, d.name, d.sig⟩ s.methods }
              (by simp only [lookup_insert, if_true])
            refine ⟨s', a1, a2, a3, a4, ?_⟩
            intro m found
            rw [a5, k2]
            simp only [lookup_insert, List.mem_cons, not_or, Prod.mk.injEq, true_and]
            by_cases hm : m = d.name
            · subst hm
              simp only [h2.1, not_false_eq_true, if_true, true_and, Option.some.injEq, not_true_eq_false, false_and, or_false]
              constructor
              · rintro (⟨e, he, h⟩ | rfl)
                · exact ⟨e, .inr he, h⟩
                · exact ⟨(f, d), .inl rfl, hk, rfl, rfl⟩
              · rintro ⟨e, he | he, h⟩
                · subst he
                  exact .inr h.2.2.symm
                · exact .inl ⟨e, he, h⟩
            · simp only [hm, if_false, not_false_eq_true, true_and]
              constructor
              · rintro (⟨e, he, h⟩ | h)
                · exact .inl ⟨e, .inr he, h⟩
                · exact .inr h
              · rintro (⟨e, he | he, h⟩ | h)
                · subst he
                  exact absurd h.2.1.symm hm
                · exact .inl ⟨e, he, h⟩
                · exact .inr h
          · obtain ⟨s', a1, a2, a3, a4, a5⟩ := w.methods n s0 (by simp only [lookup_insert, hn, if_false]; exact hs0)
            refine ⟨s', a1, a2, a3, a4, ?_⟩
            intro m found
            rw [a5, k2]
            simp only [List.mem_cons, not_or, Prod.mk.injEq, hn, false_and, not_false_eq_true, true_and]
            constructor
            · rintro (⟨e, he, h⟩ | h)
              · exact .inl ⟨e, .inr he, h⟩
              · exact .inr h
            · rintro (⟨e, he | he, h⟩ | h)
              · subst he
                rw [hk] at h
                exact absurd (Option.some.inj h.1).symm hn
              · exact .inl ⟨e, he, h⟩
              · exact .inr h

/-! ### Packages -/

private theorem mem_types {files : List File} {f : File} {d : TypeDecl} : (f, d) ∈ allTypes files ↔ f ∈ files ∧ d ∈ f.types := by
  simp only [allTypes, List.mem_flatMap, List.mem_map, Prod.mk.injEq]
  constructor
  · rintro ⟨a, h1, b, h2, rfl, rfl⟩; exact ⟨h1, h2⟩
  · rintro ⟨h1, h2⟩; exact ⟨f, h1, d, h2, rfl, rfl⟩

private theorem mem_funcs {files : List File} {f : File} {d : FuncDecl} : (f, d) ∈ allFuncs files ↔ f ∈ files ∧ d ∈ f.funcs := by
  simp only [allFuncs, List.mem_flatMap, List.mem_map, Prod.mk.injEq]
  constructor
  · rintro ⟨a, h1, b, h2, rfl, rfl⟩; exact ⟨h1, h2⟩
  · rintro ⟨h1, h2⟩; exact ⟨f, h1, d, h2, rfl, rfl⟩

private theorem structOf_some {l : List (File × TypeDecl)} (hn : (l.map (·.2.name)).Nodup) {n : Name} {s : StructDecl} :
    structOf l n = some s ↔ ∃ e ∈ l, e.2.name = n ∧ ∃ gs, e.2.body = .struct gs ∧ s = ⟨e.1, e.2.params, gs.map loadField, []⟩ := by
  induction l with
  | nil => simp [structOf]
  | cons e l ih =>
    simp only [List.map_cons, List.nodup_cons] at hn
    have c : structOf (e :: l) n = (structOf [e] n).or (structOf l n) := by
      unfold structOf
      simp only [List.findSome?_cons, List.findSome?_nil]
      split <;> simp_all
    rw [c]
    by_cases he : e.2.name = n
    · have h0 : structOf l n = none := structOf_none (by rw [← he]; exact hn.1)
      have hx : ¬ ∃ e ∈ l, e.2.name = n ∧ ∃ gs, e.2.body = .struct gs ∧ s = ⟨e.1, e.2.params, gs.map loadField, []⟩ := by
        rintro ⟨x, hx, h, -⟩
        exact hn.1 (List.mem_map.2 ⟨x, hx, h.trans he.symm⟩)
      simp only [List.mem_cons, exists_eq_or_imp, hx, or_false, h0, Option.or_none]
      unfold structOf
      simp only [List.findSome?_cons, List.findSome?_nil, he, if_true, true_and]
      cases e.2.body <;> simp [eq_comm]
    · have h0 : structOf [e] n = none := structOf_none (by
        simp only [List.map_cons, List.map_nil, List.mem_singleton]
        exact fun h => he h.symm)
      rw [h0, Option.none_or, ih hn.2]
      simp [he]

private theorem ifaceOf_some {l : List (File × TypeDecl)} (hn : (l.map (·.2.name)).Nodup) {n : Name} {i : IfaceDecl} :
    ifaceOf l n = some i ↔ ∃ e ∈ l, e.2.name = n ∧ ∃ ms, e.2.body = .iface ms ∧ i = ⟨(loadMembers e.1 ms []).1⟩ := by
  induction l with
  | nil => simp [ifaceOf]
  | cons e l ih =>
    simp only [List.map_cons, List.nodup_cons] at hn
    have c : ifaceOf (e :: l) n = (ifaceOf [e] n).or (ifaceOf l n) := by
      unfold ifaceOf
      simp only [List.findSome?_cons, List.findSome?_nil]
      split <;> simp_all
    rw [c]
    by_cases he : e.2.name = n
    · have h0 : ifaceOf l n = none := ifaceOf_none (by rw [← he]; exact hn.1)
      have hx : ¬ ∃ e ∈ l, e.2.name = n ∧ ∃ ms, e.2.body = .iface ms ∧ i = ⟨(loadMembers e.1 ms []).1⟩ := by
        rintro ⟨x, hx, h, -⟩
        exact hn.1 (List.mem_map.2 ⟨x, hx, h.trans he.symm⟩)
      simp only [List.mem_cons, exists_eq_or_imp, hx, or_false, h0, Option.or_none]
      unfold ifaceOf
      simp only [List.findSome?_cons, List.findSome?_nil, he, if_true, true_and]
      cases e.2.body <;> simp [eq_comm]
    · have h0 : ifaceOf [e] n = none := ifaceOf_none (by
        simp only [List.map_cons, List.map_nil, List.mem_singleton]
        exact fun h => he h.symm)
      rw [h0, Option.none_or, ih hn.2]
      simp [he]

/-- C84: in a regular package, in whatever order the files are read, the parser finds exactly the types, functions, interfaces with
their methods, and structs with their fields and methods, that the files declare.  Missing from the full property: packages with embedded
interfaces or with methods on other types than structs (`C84_embedded_refuted`, `C84_order_refuted`). -/
theorem C84_loaded_partial (name : Name) (files files1 files2 : List File) (h1 : files1.Perm files) (h2 : files2.Perm files)
    (hr : Regular files) :
    (∀ n, n ∈ (load name files1 files2).declared ↔ ∃ f ∈ files, ∃ d ∈ f.types, d.name = n) ∧
    (∀ n found, (load name files1 files2).funcs.lookup n = some found ↔
      ∃ f ∈ files, ∃ d ∈ f.funcs, d.recv = none ∧ d.name = n ∧ found = ⟨f, n, d.sig⟩) ∧
    (∀ n i, (load name files1 files2).ifaces.lookup n = some i → ∃ f ∈ files, ∃ d ∈ f.types, d.name = n ∧ ∃ ms, d.body = .iface ms) ∧
    (∀ f ∈ files, ∀ d ∈ f.types, ∀ ms, d.body = .iface ms → ∃ i, (load name files1 files2).ifaces.lookup d.name = some i ∧
      ∀ m found, i.methods.lookup m = some found ↔ ∃ s, .method m s ∈ ms ∧ found = ⟨f, m, s⟩) ∧
    (∀ n s, (load name files1 files2).structs.lookup n = some s → ∃ f ∈ files, ∃ d ∈ f.types, d.name = n ∧ ∃ gs, d.body = .struct gs) ∧
    (∀ f ∈ files, ∀ d ∈ f.types, ∀ gs, d.body = .struct gs → ∃ s, (load name files1 files2).structs.lookup d.name = some s ∧
      s.file = f ∧ s.params = d.params ∧ s.fields = gs.map loadField ∧
      ∀ m found, s.methods.lookup m = some found ↔
        ∃ f' ∈ files, ∃ d' ∈ f'.funcs, (d'.recv = some (.value d.name) ∨ d'.recv = some (.pointer d.name)) ∧ d'.name = m ∧
          found = ⟨f', m, d'.sig⟩) := by
  have pt : (allTypes files1).Perm (allTypes files) := h1.flatMap_right _
  have pf : (allFuncs files2).Perm (allFuncs files) := h2.flatMap_right _
  have nt : ((allTypes files1).map (·.2.name)).Nodup := (pt.map _).nodup_iff.2 hr.types
  obtain ⟨q, t1, t2, t3, t4, t5, t6⟩ := types_spec (allTypes files1) { name } nt
    fun t ht ms hb => (hr.members t (pt.mem_iff.1 ht) ms hb).1
  have hmeth : ∀ (d : FuncDecl) (n : Name), d.methodOf = some n ↔ (d.recv = some (.value n) ∨ d.recv = some (.pointer n)) := by
    intro d n
    unfold FuncDecl.methodOf
    cases hd : d.recv with
    | none => simp
    | some r => cases r <;> simp
  obtain ⟨p, f1, w⟩ := funcs_spec (allFuncs files2) q (((pf.filter _).map _).nodup_iff.2 hr.funcs)
    ((pf.filterMap _).nodup_iff.2 hr.methods) (by
      intro e he
      rcases hr.receivers e (pf.mem_iff.1 he) with h | ⟨n, a, t, ht, hn, gs, hb⟩
      · exact .inl h
      · refine .inr ⟨n, a, ?_⟩
        rw [t5, (structOf_some nt).2 ⟨t, pt.mem_iff.2 ht, hn, gs, hb, rfl⟩]
        simp)
  have hl : load name files1 files2 = p := by
    unfold load
    rw [loadAllTypes_each, t1]
    simp only []
    rw [loadAllFuncs_each, f1]
  rw [hl]
  refine ⟨?_, ?_, ?_, ?_, ?_, ?_⟩
  · intro n
    rw [w.declared, t4]
    simp only [List.not_mem_nil, false_or, List.mem_map]
    constructor
    · rintro ⟨⟨f, d⟩, h, e⟩
      obtain ⟨a, b⟩ := mem_types.1 (pt.mem_iff.1 h)
      exact ⟨f, a, d, b, e⟩
    · rintro ⟨f, a, d, b, e⟩
      exact ⟨(f, d), pt.mem_iff.2 (mem_types.2 ⟨a, b⟩), e⟩
  · intro n found
    rw [w.funcs, t3]
    simp only [List.lookup_nil, reduceCtorEq, and_false, or_false]
    constructor
    · rintro ⟨⟨f, d⟩, h, e⟩
      obtain ⟨a, b⟩ := mem_funcs.1 (pf.mem_iff.1 h)
      exact ⟨f, a, d, b, e⟩
    · rintro ⟨f, a, d, b, e⟩
      exact ⟨(f, d), pf.mem_iff.2 (mem_funcs.2 ⟨a, b⟩), e⟩
  · intro n i h
    rw [w.ifaces, t6] at h
    simp only [List.lookup_nil, Option.or_none] at h
    obtain ⟨⟨f, d⟩, he, hn, ms, hb, -⟩ := (ifaceOf_some nt).1 h
    obtain ⟨a, b⟩ := mem_types.1 (pt.mem_iff.1 he)
    exact ⟨f, a, d, b, hn, ms, hb⟩
  · intro f hf d hd ms hb
    have hm := mem_types.2 ⟨hf, hd⟩
    refine ⟨⟨(loadMembers f ms []).1⟩, ?_, ?_⟩
    · rw [w.ifaces, t6, (ifaceOf_some nt).2 ⟨(f, d), pt.mem_iff.2 hm, rfl, ms, hb, rfl⟩]
      rfl
    · intro m found
      obtain ⟨a, b⟩ := hr.members _ hm ms hb
      rw [members_lookup f ms [] a b]
      simp
  · intro n s h
    have hq : q.structs.lookup n ≠ none := by
      intro e
      rw [(w.structs n).2 e] at h
      cases h
    rw [t5] at hq
    simp only [List.lookup_nil, Option.or_none] at hq
    obtain ⟨s', hs'⟩ := Option.ne_none_iff_exists'.1 hq
    obtain ⟨⟨f, d⟩, he, hn, gs, hb, -⟩ := (structOf_some nt).1 hs'
    obtain ⟨a, b⟩ := mem_types.1 (pt.mem_iff.1 he)
    exact ⟨f, a, d, b, hn, gs, hb⟩
  · intro f hf d hd gs hb
    have hm := mem_types.2 ⟨hf, hd⟩
    have hq : q.structs.lookup d.name = some ⟨f, d.params, gs.map loadField, []⟩ := by
      rw [t5, (structOf_some nt).2 ⟨(f, d), pt.mem_iff.2 hm, rfl, gs, hb, rfl⟩]
      rfl
    obtain ⟨s', a1, a2, a3, a4, a5⟩ := w.methods _ _ hq
    refine ⟨s', a1, a2, a3, a4, ?_⟩
    intro m found
    rw [a5]
    simp only [List.lookup_nil, reduceCtorEq, and_false, or_false]
    constructor
    · rintro ⟨⟨f', d'⟩, h, e1, e2⟩
      obtain ⟨a, b⟩ := mem_funcs.1 (pf.mem_iff.1 h)
      exact ⟨f', a, d', b, (hmeth d' d.name).1 e1, e2⟩
    · rintro ⟨f', a, d', b, e1, e2⟩
      exact ⟨(f', d'), pf.mem_iff.2 (mem_funcs.2 ⟨a, b⟩), (hmeth d' d.name).2 e1, e2⟩

/-- C84 refuted: if any interface of a package embeds another one, no function of the package is found at all, and no method of
a struct, without an error. -/
theorem C84_embedded_refuted (name : Name) (files files1 files2 : List File) (h1 : files1.Perm files)
    (f : File) (hf : f ∈ files) (d : TypeDecl) (hd : d ∈ f.types) (ms : List Member) (hb : d.body = .iface ms) (he : .embedded ∈ ms) :
    (load name files1 files2).funcs = [] ∧ ∀ e ∈ (load name files1 files2).structs, e.2.methods = [] := by
  have mem : ∀ (ms : List Member) (m : List (Name × Found)), .embedded ∈ ms → (loadMembers f ms m).2 = false := by
    intro ms
    induction ms with
    | nil => intro m h; simp at h
    | cons x ms ih =>
      intro m h
      cases x with
      | embedded => rfl
      | method n s => exact ih _ (by simpa using h)
  have ins : ∀ (n : Name) (s : StructDecl) (l : List (Name × StructDecl)), s.methods = [] → (∀ e ∈ l, e.2.methods = []) →
      ∀ e ∈ insert n s l, e.2.methods = [] := by
    intro n s l hs hl
    induction l with
    | nil => simpa [insert] using hs
    | cons x l ih =>
      obtain ⟨a, b⟩ := x
      simp only [insert]
      split
      · intro e he
        rcases List.mem_cons.1 he with rfl | he
        · exact hs
        · exact hl e (.tail _ he)
      · intro e he
        rcases List.mem_cons.1 he with rfl | he
        · exact hl _ (.head _)
        · exact ih (fun e he => hl e (.tail _ he)) e he
  have all : ∀ (l : List (File × TypeDecl)) (p : Pkg), p.funcs = [] → (∀ e ∈ p.structs, e.2.methods = []) → (f, d) ∈ l →
      ∃ q, eachType l p = (q, false) ∧ q.funcs = [] ∧ ∀ e ∈ q.structs, e.2.methods = [] := by
    intro l
    induction l with
    | nil => intro p _ _ h; simp at h
    | cons x l ih =>
      intro p hp hs hx
      simp only [eachType]
      have one : (loadType x.1 x.2 p).1.funcs = [] ∧ ∀ e ∈ (loadType x.1 x.2 p).1.structs, e.2.methods = [] := by
        unfold loadType
        cases x.2.body with
        | iface ms => exact ⟨hp, hs⟩
        | struct gs => exact ⟨hp, ins _ _ _ rfl hs⟩
        | other => exact ⟨hp, hs⟩
      split
      · rename_i q hq
        rw [hq] at one
        exact ⟨q, rfl, one⟩
      · rename_i q hq
        rw [hq] at one
        rcases List.mem_cons.1 hx with rfl | hx
        · exfalso
          unfold loadType at hq
          simp only [hb] at hq
          have := congrArg Prod.snd hq
          simp only [mem ms [] he] at this
          cases this
        · exact ih q one.1 one.2 hx
  obtain ⟨q, e1, e2, e3⟩ := all (allTypes files1) { name } rfl (by simp)
    (((h1.flatMap_right _).mem_iff).2 (mem_types.2 ⟨hf, hd⟩))
  have : load name files1 files2 = q := by
    unfold load
    rw [loadAllTypes_each, e1]
  rw [this]
  exact ⟨e2, e3⟩

/-- C84 refuted: a method on a type that is not a struct ends the search for functions, without an error.  Whether the functions of
other files have been found by then depends on the order in which Go iterates over a map, which differs from run to run. -/
theorem C84_order_refuted (pkg new enum method : Name) (s s' : Sig) :
    ∃ a b : File, a.funcs = [⟨new, none, s⟩] ∧ b.types = [⟨enum, [], .other⟩] ∧ b.funcs = [⟨method, some (.value enum), s'⟩] ∧
      (load pkg [a, b] [a, b]).funcs.lookup new = some ⟨a, new, s⟩ ∧ (load pkg [a, b] [b, a]).funcs.lookup new = none := by
  refine ⟨⟨[], [], [⟨new, none, s⟩]⟩, ⟨[], [⟨enum, [], .other⟩], [⟨method, some (.value enum), s'⟩]⟩, rfl, rfl, rfl, ?_, rfl⟩
  show List.lookup new [(new, _)] = _
  rw [List.lookup_cons]
  simp

/-! ### Concrete cases -/

private def ctxSig : Sig := ⟨[⟨[['c']], .selector "context".toList "Context".toList⟩, ⟨[['a'], ['b']], .ident "int".toList⟩],
  [⟨[], .ident "string".toList⟩, ⟨[], .ident "error".toList⟩]⟩
private def file1 : File := ⟨[⟨"context".toList, none⟩], [⟨['I'], [], .iface [.method ['M'] ctxSig]⟩], [⟨['N'], none, ctxSig⟩]⟩
private def file2 : File := ⟨[⟨"context".toList, none⟩], [⟨['S'], [], .struct [⟨[['x']], .ident "int".toList⟩]⟩, ⟨['E'], [], .other⟩],
  [⟨['M'], some (.pointer ['S']), ctxSig⟩]⟩

example : Regular [file1, file2] := by
  refine ⟨by decide, by decide, by decide, ?_, ?_⟩
  · intro e he
    simp only [allFuncs, file1, file2, List.flatMap_cons, List.map_cons, List.map_nil, List.flatMap_nil, List.append_nil,
      List.mem_append, List.mem_singleton] at he
    rcases he with rfl | rfl
    · exact .inl rfl
    · exact .inr ⟨['S'], rfl, (file2, ⟨['S'], [], .struct [⟨[['x']], .ident "int".toList⟩]⟩), by simp [allTypes, file2], rfl, _, rfl⟩
  · intro t ht ms hb
    simp only [allTypes, file1, file2, List.flatMap_cons, List.map_cons, List.map_nil, List.flatMap_nil, List.append_nil,
      List.mem_append, List.mem_cons, List.not_mem_nil, or_false] at ht
    rcases ht with rfl | rfl | rfl
    · cases hb; exact ⟨by simp, by decide⟩
    · cases hb
    · cases hb

-- C84_signature: `a, b int` are two parameters
example : (parseFunc (resolve ['p'] [] file1 []) ['M'] ctxSig).map (fun f => (f.args.length, f.rets.length)) = some (3, 2) := by decide
-- C84_fields_refuted
example : (parameters [⟨[['x'], ['y']], .ident "int".toList⟩]).length = 2 ∧
    ([⟨[['x'], ['y']], .ident "int".toList⟩].map loadField).length = 1 := by decide

end Verif.GoParse
