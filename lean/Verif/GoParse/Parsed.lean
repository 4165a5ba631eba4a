import Verif.GoParse.Load
/-
C84: generic methods, fields that share a type, and the second pass, in which types are looked up.
-/
namespace Verif.GoParse

/-- C84 refuted: of fields that share a type, the first is found and the others are not. -/
theorem C84_first_field_refuted (gs : List Group) (hn : (gs.flatMap (·.names)).Nodup) (g : Group) (hg : g ∈ gs) (n : Name)
    (rest : List Name) (h : g.names = n :: rest) :
    (∃ f ∈ gs.map loadField, f.name = some n ∧ f.type = g.type) ∧ ∀ m ∈ rest, ∀ f ∈ gs.map loadField, f.name ≠ some m := by
  refine ⟨⟨loadField g, List.mem_map.2 ⟨g, hg, rfl⟩, by simp [loadField, h], rfl⟩, ?_⟩
  intro m hm f hf e
  obtain ⟨g', hg', rfl⟩ := List.mem_map.1 hf
  have he : g'.names.head? = some m := e
  obtain ⟨pre, post, rfl⟩ := List.append_of_mem hg
  simp only [List.flatMap_append, List.flatMap_cons, h, List.nodup_append, List.nodup_cons, List.cons_append] at hn
  have hm' : m ∈ g'.names := List.mem_of_mem_head? he
  simp only [List.mem_append, List.mem_cons] at hg'
  rcases hg' with hg' | rfl | hg'
  · exact hn.2.2 m (List.mem_flatMap.2 ⟨g', hg', hm'⟩) m (by simp [hm]) rfl
  · rw [h] at he
    simp only [List.head?_cons, Option.some.injEq] at he
    subst he
    exact hn.2.1.1 (by simp [hm])
  · have := hn.2.1.2
    exact this.2.2 m hm m (List.mem_flatMap.2 ⟨g', hg', hm'⟩) rfl

/-! ### Generic methods -/

private theorem loadFunc_keys (f : File) (d : FuncDecl) (p : Pkg) (n : Name) (x : Found)
    (h : (loadFunc f d p).1.funcs.lookup n = some x) : d.name = n ∨ p.funcs.lookup n = some x := by
  unfold loadFunc at h
  split at h
  · rw [lookup_insert] at h
    split at h
    · rename_i e
      exact .inl e.symm
    · exact .inr h
  · split at h
    · exact .inr h
    · split at h <;> exact .inr h

private theorem loadFuncs_keys (f : File) (ds : List FuncDecl) (p : Pkg) (n : Name) (x : Found)
    (h : (loadFuncs f ds p).1.funcs.lookup n = some x) : (∃ d ∈ ds, d.name = n) ∨ p.funcs.lookup n = some x := by
  induction ds generalizing p with
  | nil => exact .inr h
  | cons d ds ih =>
    simp only [loadFuncs] at h
    split at h
    · rename_i q e
      have := loadFunc_keys f d p n x (by rw [e]; exact h)
      exact this.imp (fun e => ⟨d, .head _, e⟩) id
    · rename_i q e
      rcases ih q h with ⟨d', hd', e'⟩ | h
      · exact .inl ⟨d', .tail _ hd', e'⟩
      · have := loadFunc_keys f d p n x (by rw [e]; exact h)
        exact this.imp (fun e => ⟨d, .head _, e⟩) id

private theorem loadFuncs_stop (f : File) (a b : List FuncDecl) (d : FuncDecl) (hd : ∀ p, loadFunc f d p = (p, false)) (p : Pkg) :
    (loadFuncs f (a ++ d :: b) p).1 = (loadFuncs f a p).1 ∧ (loadFuncs f (a ++ d :: b) p).2 = false := by
  induction a generalizing p with
  | nil => simp [loadFuncs, hd]
  | cons c a ih =>
    simp only [List.cons_append, loadFuncs]
    split
    · exact ⟨rfl, rfl⟩
    · exact ih _

private theorem loadTypes_funcs (f : File) (ds : List TypeDecl) (p : Pkg) : (loadTypes f ds p).1.funcs = p.funcs := by
  induction ds generalizing p with
  | nil => rfl
  | cons d ds ih =>
    have h : (loadType f d p).1.funcs = p.funcs := by
      unfold loadType
      repeat' split
      all_goals rfl
    simp only [loadTypes]
    split
    · rename_i e; rw [e] at h; exact h
    · rename_i e; rw [e] at h; rw [ih]; exact h

private theorem loadAllTypes_funcs (fs : List File) (p : Pkg) : (loadAllTypes fs p).1.funcs = p.funcs := by
  induction fs generalizing p with
  | nil => rfl
  | cons f fs ih =>
    have h := loadTypes_funcs f f.types p
    simp only [loadAllTypes]
    split
    · rename_i e; rw [e] at h; exact h
    · rename_i e; rw [e] at h; rw [ih]; exact h

/-- C84 refuted: a method of a generic type, with a pointer as its receiver, ends the search for functions: those that are declared
after it, in its file and in the files that come later, are not found. -/
theorem C84_generic_method_refuted (name : Name) (files1 pre post : List File) (f : File) (a b : List FuncDecl) (d : FuncDecl)
    (hf : f.funcs = a ++ d :: b) (hd : d.recv = some .pointerGeneric) (n : Name)
    (hn : ∀ g ∈ pre, ∀ e ∈ g.funcs, e.name ≠ n) (ha : ∀ e ∈ a, e.name ≠ n) :
    (load name files1 (pre ++ f :: post)).funcs.lookup n = none := by
  have hstop : ∀ p, loadFunc f d p = (p, false) := by
    intro p; simp [loadFunc, hd, Recv.typeName]
  have key : ∀ (pre : List File), (∀ g ∈ pre, ∀ e ∈ g.funcs, e.name ≠ n) → ∀ p : Pkg, p.funcs.lookup n = none →
      (loadAllFuncs (pre ++ f :: post) p).1.funcs.lookup n = none := by
    intro pre hn
    induction pre with
    | nil =>
      intro p hp
      have h := loadFuncs_stop f a b d hstop p
      simp only [List.nil_append, loadAllFuncs, hf]
      split
      · rename_i q e
        rw [e] at h
        simp only at h
        cases hx : q.funcs.lookup n with
        | none => rfl
        | some x =>
          rw [h.1] at hx
          rcases loadFuncs_keys f a p n x hx with ⟨e, he, e2⟩ | hx
          · exact absurd e2 (ha e he)
          · rw [hp] at hx; cases hx
      · rename_i q e
        rw [e] at h
        cases h.2
    | cons g pre ih =>
      intro p hp
      have hq : (loadFuncs g g.funcs p).1.funcs.lookup n = none := by
        cases hx : (loadFuncs g g.funcs p).1.funcs.lookup n with
        | none => rfl
        | some x =>
          rcases loadFuncs_keys g g.funcs p n x hx with ⟨e, he, e2⟩ | hx
          · exact absurd e2 (hn g (.head _) e he)
          · rw [hp] at hx; cases hx
      simp only [List.cons_append, loadAllFuncs]
      split
      · rename_i q e; rw [e] at hq; exact hq
      · rename_i q e; rw [e] at hq
        exact ih (fun g hg => hn g (.tail _ hg)) q hq
  unfold load
  have ht := loadAllTypes_funcs files1 { name }
  split
  · rename_i q e
    rw [e] at ht
    rw [ht]
    rfl
  · rename_i q e
    rw [e] at ht
    exact key pre hn q (by rw [ht]; rfl)

/-! ### The second pass -/

private theorem parseFuncs_iff (p : Pkg) (l : List (Name × Found)) (r : List (Name × Func)) :
    parseFuncs p l = some r ↔ r.length = l.length ∧ ∀ x ∈ l.zip r, x.2.1 = x.1.1 ∧
      parseFunc (resolve p.name p.declared x.1.2.file []) x.1.2.name x.1.2.sig = some x.2.2 := by
  induction l generalizing r with
  | nil =>
    cases r <;> simp [parseFuncs]
  | cons e l ih =>
    obtain ⟨k, g⟩ := e
    simp only [parseFuncs]
    cases r with
    | nil =>
      simp only [List.length_nil, List.length_cons, Nat.zero_ne_add_one, false_and, iff_false]
      split
      · simp
      · split <;> simp
    | cons y r =>
      obtain ⟨k', x⟩ := y
      simp only [List.length_cons, Nat.add_right_cancel_iff, List.zip_cons_cons, List.mem_cons, forall_eq_or_imp]
      rw [show (r.length = l.length ∧ ((k' = k ∧ parseFunc (resolve p.name p.declared g.file []) g.name g.sig = some x) ∧
        ∀ x ∈ l.zip r, x.2.1 = x.1.1 ∧ parseFunc (resolve p.name p.declared x.1.2.file []) x.1.2.name x.1.2.sig = some x.2.2)) ↔
        (k' = k ∧ parseFunc (resolve p.name p.declared g.file []) g.name g.sig = some x) ∧ parseFuncs p l = some r by
          rw [ih]; exact ⟨fun h => ⟨h.2.1, h.1, h.2.2⟩, fun h => ⟨h.2.1, h.1, h.2.2⟩⟩]
      cases parseFunc (resolve p.name p.declared g.file []) g.name g.sig with
      | none => simp
      | some z =>
        cases parseFuncs p l with
        | none => simp
        | some zs =>
          simp only [Option.some.injEq, List.cons.injEq, Prod.mk.injEq]
          constructor
          · rintro ⟨⟨rfl, rfl⟩, rfl⟩; exact ⟨⟨rfl, rfl⟩, rfl⟩
          · rintro ⟨⟨rfl, rfl⟩, rfl⟩; exact ⟨⟨rfl, rfl⟩, rfl⟩

private theorem parseFields_iff (p : Pkg) (s : StructDecl) (l : List Field) (r : List (Option Name × Ty)) :
    parseFields p s l = some r ↔ (∀ f ∈ l, resolve p.name p.declared s.file s.params f.type ≠ .nil) ∧
      r = l.map fun f => (f.name, resolve p.name p.declared s.file s.params f.type) := by
  induction l generalizing r with
  | nil => simp [parseFields, eq_comm]
  | cons f l ih =>
    simp only [parseFields, List.mem_cons, forall_eq_or_imp, List.map_cons]
    split
    · rename_i h; simp [h]
    · rename_i h
      cases e : parseFields p s l with
      | none =>
        simp only [reduceCtorEq, false_iff]
        rintro ⟨⟨-, h2⟩, -⟩
        have := (ih _).2 ⟨h2, rfl⟩
        rw [e] at this
        cases this
      | some zs =>
        have := (ih zs).1 e
        simp only [Option.some.injEq, ne_eq, h, not_false_eq_true, true_and]
        rw [← this.2]
        exact ⟨fun h => ⟨this.1, h.symm⟩, fun h => h.2.symm⟩

private theorem parseIfaces_iff (p : Pkg) (l : List (Name × IfaceDecl)) (r : List (Name × Iface)) :
    parseIfaces p l = some r ↔ r.length = l.length ∧ ∀ x ∈ l.zip r, x.2.1 = x.1.1 ∧ x.2.2.pkg = p.name ∧ x.2.2.name = x.1.1 ∧
      parseFuncs p x.1.2.methods = some x.2.2.methods := by
  induction l generalizing r with
  | nil => cases r <;> simp [parseIfaces]
  | cons e l ih =>
    obtain ⟨k, i⟩ := e
    simp only [parseIfaces]
    cases r with
    | nil =>
      simp only [List.length_nil, List.length_cons, Nat.zero_ne_add_one, false_and, iff_false]
      split
      · simp
      · split <;> simp
    | cons y r =>
      obtain ⟨k', a, b, c⟩ := y
      have hr := ih r
      simp only [List.length_cons, Nat.add_right_cancel_iff, List.zip_cons_cons, List.mem_cons, forall_eq_or_imp]
      cases parseFuncs p i.methods with
      | none => simp
      | some z =>
        cases e2 : parseIfaces p l with
        | none =>
          rw [e2] at hr
          simp only [reduceCtorEq, false_iff] at hr ⊢
          rintro ⟨h1, -, h2⟩
          exact hr ⟨h1, h2⟩
        | some zs =>
          rw [e2] at hr
          simp only [Option.some.injEq, List.cons.injEq, Prod.mk.injEq, Iface.mk.injEq] at hr ⊢
          rw [hr]
          constructor
          · rintro ⟨⟨rfl, rfl, rfl, rfl⟩, h1, h2⟩; exact ⟨h1, ⟨rfl, rfl, rfl, rfl⟩, h2⟩
          · rintro ⟨h1, ⟨rfl, rfl, rfl, rfl⟩, h2⟩; exact ⟨⟨rfl, rfl, rfl, rfl⟩, h1, h2⟩

private theorem parseStructs_iff (p : Pkg) (l : List (Name × StructDecl)) (r : List (Name × Struct)) :
    parseStructs p l = some r ↔ r.length = l.length ∧ ∀ x ∈ l.zip r, x.2.1 = x.1.1 ∧ x.2.2.pkg = p.name ∧ x.2.2.name = x.1.1 ∧
      parseFields p x.1.2 x.1.2.fields = some x.2.2.fields ∧ parseFuncs p x.1.2.methods = some x.2.2.methods := by
  induction l generalizing r with
  | nil => cases r <;> simp [parseStructs]
  | cons e l ih =>
    obtain ⟨k, i⟩ := e
    simp only [parseStructs]
    cases r with
    | nil =>
      simp only [List.length_nil, List.length_cons, Nat.zero_ne_add_one, false_and, iff_false]
      split
      · simp
      · split
        · simp
        · split <;> simp
    | cons y r =>
      obtain ⟨k', a, b, c, d⟩ := y
      have hr := ih r
      simp only [List.length_cons, Nat.add_right_cancel_iff, List.zip_cons_cons, List.mem_cons, forall_eq_or_imp]
      cases parseFuncs p i.methods with
      | none => simp
      | some z =>
        cases parseFields p i i.fields with
        | none => simp
        | some w =>
          cases e2 : parseStructs p l with
          | none =>
            rw [e2] at hr
            simp only [reduceCtorEq, false_iff] at hr ⊢
            rintro ⟨h1, -, h2⟩
            exact hr ⟨h1, h2⟩
          | some zs =>
            rw [e2] at hr
            simp only [Option.some.injEq, List.cons.injEq, Prod.mk.injEq, Struct.mk.injEq] at hr ⊢
            rw [hr]
            constructor
            · rintro ⟨⟨rfl, rfl, rfl, rfl, rfl⟩, h1, h2⟩; exact ⟨h1, ⟨rfl, rfl, rfl, rfl, rfl⟩, h2⟩
            · rintro ⟨h1, ⟨rfl, rfl, rfl, rfl, rfl⟩, h2⟩; exact ⟨⟨rfl, rfl, rfl, rfl, rfl⟩, h1, h2⟩

/-- Functions with the signatures they were declared with, under the same keys and in the same order. -/
def SameFuncs (p : Pkg) (l : List (Name × Found)) (r : List (Name × Func)) : Prop :=
  r.length = l.length ∧ ∀ x ∈ l.zip r, x.2.1 = x.1.1 ∧
    parseFunc (resolve p.name p.declared x.1.2.file []) x.1.2.name x.1.2.sig = some x.2.2

/-- C84: the second pass keeps all interfaces, structs and functions, under their names, and all methods and fields, in order, each
with the signature or type that is written there; if (and only if) one of the types is not understood, there is no package at all.
(`C84_signature` says how signatures are read.) -/
theorem C84_parsed (p : Pkg) (q : Parsed) :
    parse p = some q ↔ q.name = p.name ∧ SameFuncs p p.funcs q.funcs ∧
      (q.ifaces.length = p.ifaces.length ∧ ∀ x ∈ p.ifaces.zip q.ifaces, x.2.1 = x.1.1 ∧ x.2.2.pkg = p.name ∧ x.2.2.name = x.1.1 ∧
        SameFuncs p x.1.2.methods x.2.2.methods) ∧
      q.structs.length = p.structs.length ∧ ∀ x ∈ p.structs.zip q.structs, x.2.1 = x.1.1 ∧ x.2.2.pkg = p.name ∧ x.2.2.name = x.1.1 ∧
        ((∀ f ∈ x.1.2.fields, resolve p.name p.declared x.1.2.file x.1.2.params f.type ≠ .nil) ∧
          x.2.2.fields = x.1.2.fields.map fun f => (f.name, resolve p.name p.declared x.1.2.file x.1.2.params f.type)) ∧
        SameFuncs p x.1.2.methods x.2.2.methods := by
  simp only [SameFuncs, ← parseFuncs_iff, ← parseFields_iff]
  rw [← parseIfaces_iff, ← parseStructs_iff]
  unfold parse
  obtain ⟨a, b, c, d⟩ := q
  cases parseIfaces p p.ifaces with
  | none => simp
  | some x =>
    cases parseStructs p p.structs with
    | none => simp
    | some y =>
      cases parseFuncs p p.funcs with
      | none => simp
      | some z =>
        simp only [Option.some.injEq, Parsed.mk.injEq]
        constructor
        · rintro ⟨rfl, rfl, rfl, rfl⟩; exact ⟨rfl, rfl, rfl, rfl⟩
        · rintro ⟨rfl, rfl, rfl, rfl⟩; exact ⟨rfl, rfl, rfl, rfl⟩

/-! ### Concrete cases -/

private def sig0 : Sig := ⟨[], [⟨[], .ident "error".toList⟩]⟩
private def generic : File := ⟨[], [⟨['S'], [['T']], .struct [⟨[['x'], ['y']], .ident "int".toList⟩]⟩],
  [⟨['A'], none, sig0⟩, ⟨['M'], some .pointerGeneric, sig0⟩, ⟨['B'], none, sig0⟩]⟩

-- `X, Y int`: only X
example : (([⟨[['x'], ['y']], .ident "int".toList⟩] : List Group).map loadField).map (·.name) = [some ['x']] := by decide
-- A is found, B (after the generic method) is not
example : (load ['p'] [generic] [generic]).funcs.map (·.1) = [['A']] := by decide
example : (load ['p'] [generic] [generic]).funcs.lookup ['B'] = none :=
  C84_generic_method_refuted ['p'] [generic] [] [] generic [⟨['A'], none, sig0⟩] [⟨['B'], none, sig0⟩] _ rfl rfl ['B']
    (by simp) (by decide)
-- The second pass goes through, and fails if there is a type that it does not know.
example : (parse (load ['p'] [generic] [generic])).map (fun q => (q.structs.map fun s => s.2.fields.length, q.funcs.length)) =
    some ([1], 1) := by decide
example : (parse (load ['p'] [⟨[], [⟨['S'], [], .struct [⟨[['x']], .ident "Nowhere".toList⟩]⟩], []⟩] [])).isNone = true := by decide

end Verif.GoParse
