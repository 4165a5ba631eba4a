import Verif.GoParse.Spec
/-
C83: the types that the parser reads are those that the Go language gives to the expressions.
-/
namespace Verif.GoParse

theorem lookup_insert {α : Type} (k k' : Name) (v : α) (m : List (Name × α)) :
    (insert k' v m).lookup k = if k = k' then some v else m.lookup k := by
  induction m with
  | nil =>
    simp only [insert, List.lookup_cons, List.lookup_nil]
    by_cases h : k = k'
    · simp [h]
    · rw [beq_eq_false_iff_ne.2 h, if_neg h]
  | cons e m ih =>
    obtain ⟨a, b⟩ := e
    simp only [insert]
    split
    · next h =>
      subst h
      simp only [List.lookup_cons]
      by_cases h : k = a
      · simp [h]
      · rw [beq_eq_false_iff_ne.2 h, if_neg h]
    · next h =>
      simp only [List.lookup_cons, ih]
      by_cases h1 : k = a
      · subst h1
        simp [h]
      · rw [beq_eq_false_iff_ne.2 h1]

private theorem last_part (pre c : Name) (hc : '/' ∉ c) (hp : pre = [] ∨ ∃ q, pre = q ++ ['/']) : lastPart (pre ++ c) = c := by
  unfold lastPart
  have h1 : ∀ (l r : Name), '/' ∉ l → (l ++ r).takeWhile (· != '/') = l ++ r.takeWhile (· != '/') := by
    intro l r hl
    rw [List.takeWhile_append_of_pos]
    intro a ha
    simp only [bne_iff_ne, ne_eq]
    rintro rfl
    exact hl ha
  rw [List.reverse_append, h1 _ _ (by simpa using hc)]
  rcases hp with rfl | ⟨q, rfl⟩
  · simp
  · simp [List.reverse_append]

variable {env : Env}

private theorem as_name (hs : env.Simple) {i : Import} (hi : i ∈ env.imports) : i.as = env.importName i := by
  unfold Import.as Env.importName
  cases hn : i.name with
  | some n => rfl
  | none =>
    obtain ⟨pre, h1, h2, -, h3⟩ := hs.clauses i hi hn
    have := last_part pre _ h2 h3
    rw [← h1] at this
    simpa using this

private theorem as_dot (hs : env.Simple) {i : Import} (hi : i ∈ env.imports) : i.as = ['.'] ↔ i.name = some ['.'] := by
  rw [as_name hs hi]
  unfold Env.importName
  cases hn : i.name with
  | some n => simp
  | none =>
    obtain ⟨pre, -, -, h, -⟩ := hs.clauses i hi hn
    simp [h]

private theorem basics_reserved {n : Name} (h : n ∈ basics) : n ∈ reserved := by
  revert n
  decide

private theorem any_reserved : anyName ∈ reserved := by decide

private theorem predeclared_basics {n : Name} (h : n ∈ predeclaredTypes) (hu : n ≠ "uintptr".toList) :
    n ∈ basics := by
  have : ∀ n ∈ predeclaredTypes, n ≠ "uintptr".toList → n ∈ basics := by decide
  exact this n h hu

private theorem predeclared_reserved {n : Name} (h : n ∈ predeclaredTypes) : n ∈ reserved := by
  revert n
  decide

private theorem ident_ok (hs : env.Simple) {n : Name} (hp : (Expr.ident n).plain) {g : GoTy} (h : env.ident n = some g) :
    Writes g (env.resolve (.ident n)) := by
  obtain ⟨p1, p2, p3⟩ := hp
  have free : n ∈ env.params ∨ n ∈ env.declared ∨ env.dotted n ≠ [] → n ∉ basics ∧ n ≠ anyName := by
    intro hx
    have : n ∉ reserved := by
      intro hr
      obtain ⟨a, b, c⟩ := hs.unshadowed n hr
      rcases hx with hx | hx | hx
      · exact a hx
      · exact b hx
      · exact hx c
    exact ⟨fun hb => this (basics_reserved hb), fun ha => this (ha ▸ any_reserved)⟩
  unfold Env.ident at h
  show Writes g (resolveIdent _ _ _ _ _)
  unfold resolveIdent
  split at h
  · next hx =>
    obtain ⟨f1, f2⟩ := free (.inl hx)
    cases h
    rw [if_neg f1, if_neg f2, if_neg (hs.params n hx), if_pos hx]
    exact .param n
  · next hx =>
    split at h
    · next hd =>
      obtain ⟨f1, f2⟩ := free (.inr (.inl hd))
      cases h
      rw [if_neg f1, if_neg f2, if_pos hd]
      exact .user _ n
    · next hd =>
      split at h
      · next p ps he =>
        obtain ⟨f1, f2⟩ := free (.inr (.inr (by rw [he]; simp)))
        cases h
        rw [if_neg f1, if_neg f2, if_neg hd, if_neg hx]
        have hmem : p ∈ (env.imports.filter fun i => i.name = some ['.']).map (·.path) := by
          have : p ∈ env.dotted n := by rw [he]; simp
          unfold Env.dotted at this
          simp only [List.mem_map, List.mem_filter, Bool.and_eq_true, decide_eq_true_eq] at this ⊢
          obtain ⟨i, ⟨a, b, -⟩, c⟩ := this
          exact ⟨i, ⟨a, b⟩, c⟩
        have hanon : (⟨env.imports, [], []⟩ : File).anonymous = (env.imports.filter fun i => i.name = some ['.']).map (·.path) := by
          unfold File.anonymous
          congr 1
          apply List.filter_congr
          intro i hi
          simp [as_dot hs hi]
        rw [hanon]
        have hl := hs.dots
        generalize (env.imports.filter fun i => i.name = some ['.']).map (·.path) = l at hmem hl
        cases l with
        | nil => simp at hmem
        | cons x l =>
          cases l with
          | nil =>
            have : p = x := by simpa using hmem
            subst this
            exact .user _ n
          | cons y l => simp at hl
      · unfold predeclared at h
        rw [if_neg p1, if_neg p2] at h
        split at h
        · next ha =>
          cases h
          subst ha
          exact .any
        · split at h
          · next hd' =>
            cases h
            rw [if_pos (predeclared_basics hd' p3)]
            exact .basic n
          · cases h

private theorem named_lookup (p x : Name) (l : List Import) (m : List (Name × Name))
    (hall : ∀ j ∈ l, j.as = p → j.path = x) (h : (∃ j ∈ l, j.as = p) ∨ m.lookup p = some x) :
    (l.foldl (fun m i => insert i.as i.path m) m).lookup p = some x := by
  induction l generalizing m with
  | nil => simpa using h
  | cons i l ih =>
    rw [List.foldl_cons]
    apply ih _ (fun j hj => hall j (.tail _ hj))
    rw [lookup_insert]
    by_cases hi : i.as = p
    · exact .inr (by rw [if_pos hi.symm, hall i (.head _) hi])
    · rw [if_neg fun e => hi e.symm]
      rcases h with ⟨j, hj, e⟩ | h
      · rcases List.mem_cons.1 hj with rfl | hj
        · exact absurd e hi
        · exact .inl ⟨j, hj, e⟩
      · exact .inr h

private theorem unique_name {α β : Type} (f : α → β) {l : List α} (h : (l.map f).Nodup) {x y : α} (hx : x ∈ l) (hy : y ∈ l)
    (e : f x = f y) : x = y := by
  induction l with
  | nil => simp at hx
  | cons a l ih =>
    simp only [List.map_cons, List.nodup_cons, List.mem_map, not_exists, not_and] at h
    rcases List.mem_cons.1 hx with h1 | h1 <;> rcases List.mem_cons.1 hy with h2 | h2
    · rw [h1, h2]
    · exact absurd (by rw [← e, h1]) (h.1 y h2)
    · exact absurd (by rw [e, h2]) (h.1 x h1)
    · exact ih h.2 h1 h2

private theorem selector_ok (hs : env.Simple) {p n : Name} (h1 : p ≠ ['_']) (h2 : p ≠ ['.']) {g : GoTy}
    (h : env.qualified p n = some g) : Writes g (env.resolve (.selector p n)) := by
  unfold Env.qualified at h
  cases hf : env.imports.find? (fun i => env.importName i = p) with
  | none => rw [hf] at h; simp at h
  | some i =>
    rw [hf] at h
    cases h
    have hi := List.mem_of_find?_eq_some hf
    have hn : env.importName i = p := by simpa using List.find?_some hf
    show Writes _ (resolveSelector _ _ _)
    unfold resolveSelector File.named
    have key : ∀ j ∈ env.imports, env.importName j = p → (j.name ≠ some ['.'] && j.name ≠ some ['_']) = true := by
      intro j hj e
      cases hjn : j.name with
      | none => simp
      | some x =>
        unfold Env.importName at e
        rw [hjn] at e
        simp only [Option.getD_some] at e
        subst e
        simp [h1, h2]
    rw [named_lookup p i.path]
    · exact .user _ _
    · intro j hj e
      obtain ⟨hj, -⟩ := List.mem_filter.1 hj
      rw [as_name hs hj] at e
      have : j = i := unique_name env.importName hs.names (List.mem_filter.2 ⟨hj, key j hj e⟩)
        (List.mem_filter.2 ⟨hi, key i hi hn⟩) (e.trans hn.symm)
      rw [this]
    · left
      refine ⟨i, List.mem_filter.2 ⟨hi, ?_⟩, (as_name hs hi).trans hn⟩
      rw [as_name hs hi, hn]
      simpa using h2

/-- C83: for every source file in which names are used in the usual way, and every type expression except arrays, generic
types, type literals, `byte`, `rune` and `uintptr`, the parser reads exactly the type that the Go language gives to it.
Missing from the full property: those expressions, and files with shadowed names, several dot imports or packages with
another name than the last part of their path, where the parser does something else (the `_refuted` theorems). -/
theorem C83_resolved_partial (env : Env) (hs : env.Simple) (e : Expr) (hp : e.plain) (hb : e.noBlank) (g : GoTy)
    (h : env.meaning e = some g) : Writes g (env.resolve e) := by
  induction e generalizing g with
  | ident n => exact ident_ok hs hp h
  | selector p n => exact selector_ok hs hb.1 hb.2 h
  | array k e ih =>
    cases k with
    | some k => exact hp.elim
    | none =>
      simp only [Env.meaning, Option.map_eq_some_iff] at h
      obtain ⟨a, h, rfl⟩ := h
      exact .slice (ih hp hb a h)
  | map k v ihk ihv =>
    simp only [Env.meaning] at h
    split at h
    · next a b ha hb' =>
      cases h
      exact .map (ihk hp.1 hb.1 a ha) (ihv hp.2 hb.2 b hb')
    · cases h
  | iface t => exact hp.elim
  | star e ih =>
    simp only [Env.meaning, Option.map_eq_some_iff] at h
    obtain ⟨a, h, rfl⟩ := h
    exact .pointer (ih hp hb a h)
  | ellipsis e ih =>
    simp only [Env.meaning, Option.map_eq_some_iff] at h
    obtain ⟨a, h, rfl⟩ := h
    exact .variadic (ih hp hb a h)
  | chan d e ih =>
    simp only [Env.meaning, Option.map_eq_some_iff] at h
    obtain ⟨a, h, rfl⟩ := h
    cases d with
    | both => exact .chan (ih hp hb a h)
    | send => exact .send (ih hp hb a h)
    | recv => exact .recv (ih hp hb a h)
  | func t => exact hp.elim
  | struct t => exact hp.elim
  | index e a ih1 ih2 => exact hp.elim

theorem writes_inj {g g' : GoTy} {t : Ty} (h : Writes g t) (h' : Writes g' t) : g = g' := by
  induction h generalizing g' with
  | basic n => cases h'; rfl
  | user p n => cases h'; rfl
  | slice _ ih => cases h' with | slice h' => rw [ih h']
  | variadic _ ih => cases h' with | variadic h' => rw [ih h']
  | pointer _ ih => cases h' with | pointer h' => rw [ih h']
  | map _ _ ih1 ih2 => cases h' with | map h1 h2 => rw [ih1 h1, ih2 h2]
  | chan _ ih => cases h' with | chan h' => rw [ih h']
  | send _ ih => cases h' with | send h' => rw [ih h']
  | recv _ ih => cases h' with | recv h' => rw [ih h']
  | any => cases h'; rfl
  | param n => cases h'; rfl

theorem writes_fun {g : GoTy} {t t' : Ty} (h : Writes g t) (h' : Writes g t') : t = t' := by
  induction h generalizing t' with
  | basic n => cases h'; rfl
  | user p n => cases h'; rfl
  | slice _ ih => cases h' with | slice h' => rw [ih h']
  | variadic _ ih => cases h' with | variadic h' => rw [ih h']
  | pointer _ ih => cases h' with | pointer h' => rw [ih h']
  | map _ _ ih1 ih2 => cases h' with | map h1 h2 => rw [ih1 h1, ih2 h2]
  | chan _ ih => cases h' with | chan h' => rw [ih h']
  | send _ ih => cases h' with | send h' => rw [ih h']
  | recv _ ih => cases h' with | recv h' => rw [ih h']
  | any => cases h'; rfl
  | param n => cases h'; rfl

/-- Comparing a type that has no nil part and no generic type does not panic, and is right. -/
theorem equals_writes {g : GoTy} {t : Ty} (h : Writes g t) (u : Ty) : t.equals u = some (decide (t = u)) := by
  induction h generalizing u with
  | basic n =>
    cases u with
    | basic m => simp only [Ty.equals, Ty.basic.injEq]; by_cases h : n = m <;> simp [h]
    | _ => simp [Ty.equals]
  | user p n =>
    cases u with
    | user q m =>
      simp only [Ty.equals, Ty.user.injEq, Option.some.injEq]
      by_cases h1 : p = q <;> by_cases h2 : n = m <;> simp [h1, h2]
    | _ => simp [Ty.equals]
  | slice _ ih => cases u <;> simp [Ty.equals, ih]
  | variadic _ ih => cases u <;> simp [Ty.equals, ih]
  | pointer _ ih => cases u <;> simp [Ty.equals, ih]
  | @map g t h u' _ _ ih1 ih2 =>
    cases u with
    | map k v =>
      simp only [Ty.equals, ih1, ih2, Ty.map.injEq]
      by_cases h1 : t = k
      · simp [h1]
      · simp [h1]
    | _ => simp [Ty.equals]
  | chan _ ih => cases u <;> simp [Ty.equals, ih]
  | send _ ih => cases u <;> simp [Ty.equals, ih]
  | recv _ ih => cases u <;> simp [Ty.equals, ih]
  | any => cases u <;> simp [Ty.equals]
  | param n =>
    cases u with
    | param m => simp only [Ty.equals, Ty.param.injEq]; by_cases h : n = m <;> simp [h]
    | _ => simp [Ty.equals]

/-- C83: two such expressions, in files of any two packages, are compared without a panic, and are the same type for the parser
exactly if they are the same type in Go. -/
theorem C83_same_type_partial (env env' : Env) (hs : env.Simple) (hs' : env'.Simple) (e e' : Expr) (hp : e.plain) (hb : e.noBlank)
    (hp' : e'.plain) (hb' : e'.noBlank) (g g' : GoTy) (h : env.meaning e = some g) (h' : env'.meaning e' = some g') :
    (env.resolve e).equals (env'.resolve e') = some (decide (g = g')) := by
  have w := C83_resolved_partial env hs e hp hb g h
  have w' := C83_resolved_partial env' hs' e' hp' hb' g' h'
  rw [equals_writes w]
  congr 1
  by_cases hg : g = g'
  · subst hg
    simp [writes_fun w w']
  · have : env.resolve e ≠ env'.resolve e' := by
      intro e1
      rw [← e1] at w'
      exact hg (writes_inj w w')
    simp [hg, this]

/-! ### Where parser and language differ -/

/-- C83 refuted: arrays are read as slices, whatever their length. -/
theorem C83_array_refuted (env : Env) (e : Expr) (g : GoTy) (h : env.meaning e = some g) (n m : Nat) (hnm : n ≠ m) :
    env.meaning (.array (some n) e) ≠ env.meaning (.array none e) ∧
    env.meaning (.array (some n) e) ≠ env.meaning (.array (some m) e) ∧
    env.resolve (.array (some n) e) = env.resolve (.array none e) ∧
    env.resolve (.array (some n) e) = env.resolve (.array (some m) e) := by
  refine ⟨?_, ?_, rfl, rfl⟩
  · simp [Env.meaning, h]
  · simp [Env.meaning, h, hnm]

/-- C83 refuted: the type arguments of a generic type are dropped, and comparing two types with the same generic type panics. -/
theorem C83_generic_refuted (env : Env) (hs : env.Simple) (e a : Expr) (hp : e.plain) (hb : e.noBlank) (g : GoTy)
    (h : env.meaning e = some g) (b : Expr) :
    env.resolve (.index e a) = env.resolve (.index e b) ∧
    (env.resolve (.index e a)).equals (env.resolve (.index e b)) = none := by
  refine ⟨rfl, ?_⟩
  show Ty.equals (.generic (env.resolve e)) (.generic (env.resolve e)) = none
  simp only [Ty.equals]
  rw [equals_writes (C83_resolved_partial env hs e hp hb g h)]
  simp

/-- C83 refuted: `byte` and `uint8` are the same type, and so are `any` and `interface{}`, but not for the parser. -/
theorem C83_alias_refuted (env : Env) (h : ∀ n ∈ reserved, n ∉ env.params ∧ n ∉ env.declared ∧ env.dotted n = []) :
    env.meaning (.ident "byte".toList) = env.meaning (.ident "uint8".toList) ∧
    env.meaning (.ident "any".toList) = env.meaning (.iface []) ∧
    (env.resolve (.ident "byte".toList)).equals (env.resolve (.ident "uint8".toList)) = some false ∧
    (env.resolve (.ident "any".toList)).equals (env.resolve (.iface [])) = some false := by
  have hid : ∀ n ∈ reserved, env.ident n = predeclared n := by
    intro n hn
    obtain ⟨a, b, c⟩ := h n hn
    unfold Env.ident
    rw [if_neg a, if_neg b, c]
  refine ⟨?_, ?_, ?_, ?_⟩
  · simp only [Env.meaning]
    rw [hid _ (by decide), hid _ (by decide)]
    decide
  · simp only [Env.meaning]
    rw [hid _ (by decide), if_pos trivial]
    decide
  · simp only [Env.resolve, resolve, resolveIdent]
    rw [if_pos (by decide), if_pos (by decide)]
    decide
  · simp only [Env.resolve, resolve, resolveIdent]
    rw [if_neg (by decide), if_pos (by decide)]
    rfl

/-- C83 refuted: a type parameter that has the name of a type of the package is read as that type. -/
theorem C83_shadow_refuted (env : Env) (n : Name) (hn : n ∈ env.params) (hd : n ∈ env.declared) (hr : n ∉ basics)
    (ha : n ≠ anyName) : env.meaning (.ident n) = some (.param n) ∧ env.resolve (.ident n) = .user env.pkg n := by
  refine ⟨by simp [Env.meaning, Env.ident, hn], ?_⟩
  simp only [Env.resolve, resolve, resolveIdent]
  rw [if_neg hr, if_neg ha, if_pos hd]

/-- C83 refuted: a package that is imported without a name and whose name is not the last part of its path (`.../v2` say) is not
found, if no other import happens to have the name. -/
theorem C83_import_name_refuted (env : Env) (i : Import) (n : Name) (hi : i ∈ env.imports) (hn : i.name = none)
    (hc : ∀ j ∈ env.imports, j.as ≠ env.clause i.path) :
    (∃ g, env.meaning (.selector (env.clause i.path) n) = some g) ∧ env.resolve (.selector (env.clause i.path) n) = .nil := by
  constructor
  · simp only [Env.meaning, Env.qualified]
    cases hf : env.imports.find? fun j => env.importName j = env.clause i.path with
    | none =>
      have := List.find?_eq_none.1 hf i hi
      simp [Env.importName, hn] at this
    | some j => exact ⟨_, rfl⟩
  · simp only [Env.resolve, resolve, resolveSelector]
    have : ∀ (l : List Import) (m : List (Name × Name)), (∀ j ∈ l, j.as ≠ env.clause i.path) → m.lookup (env.clause i.path) = none →
        (l.foldl (fun m i => insert i.as i.path m) m).lookup (env.clause i.path) = none := by
      intro l
      induction l with
      | nil => intro m _ h; exact h
      | cons j l ih =>
        intro m hl h
        rw [List.foldl_cons]
        apply ih _ fun j hj => hl j (.tail _ hj)
        rw [lookup_insert, if_neg fun e => hl j (.head _) e.symm]
        exact h
    unfold File.named
    rw [this _ [] (fun j hj => hc j (List.mem_filter.1 hj).1) rfl]

/-- C83 refuted: that a name is not found is noticed only if the whole type is that name.  A slice of it, for instance, is
accepted, and comparing it with another slice panics. -/
theorem C83_unknown_part_refuted (env : Env) (e : Expr) (h : env.resolve e = .nil) (u : Ty) :
    env.resolve (.array none e) ≠ .nil ∧ (env.resolve (.array none e)).equals (.slice u) = none := by
  have : env.resolve (.array none e) = .slice .nil := by
    show Ty.slice (env.resolve e) = _
    rw [h]
  rw [this]
  simp [Ty.equals]

/-! ### Concrete cases -/

private def app : Env where
  pkg := "shop/cart".toList
  declared := ["Item".toList, "Cart".toList]
  imports := [⟨"context".toList, none⟩, ⟨"shop/user".toList, some "u".toList⟩, ⟨"shop/types".toList, some ['.']⟩,
    ⟨"x/db/v2".toList, some "db".toList⟩]
  params := ["T".toList]
  clause := fun p => if p = "x/db/v2".toList then "db".toList else lastPart p
  exports := fun p => if p = "shop/types".toList then ["Price".toList] else []

example : app.Simple := by
  refine ⟨by decide +kernel, by decide +kernel, by decide +kernel, ?_, by decide +kernel, by decide +kernel⟩
  · intro i hi hn
    have h : ∀ i ∈ app.imports, i.name = none → i.path = "context".toList := by decide +kernel
    have this := h i hi hn
    rw [this]
    exact ⟨[], by decide +kernel, by decide +kernel, by decide +kernel, .inl rfl⟩

example : app.meaning (.map (.ident "string".toList) (.array none (.star (.selector "u".toList "User".toList)))) =
    some (.map (.predeclared "string".toList) (.slice (.pointer (.named "shop/user".toList "User".toList)))) := by decide
example : app.resolve (.ellipsis (.ident "Price".toList)) = .ellipsis (.user "shop/types".toList "Price".toList) := by decide
example : app.resolve (.chan .send (.ident "Item".toList)) = .send (.user "shop/cart".toList "Item".toList) := by decide

-- C83_import_name_refuted
private def versioned : Env := { app with imports := [⟨"x/db/v2".toList, none⟩] }
example : ∀ j ∈ versioned.imports, j.as ≠ versioned.clause "x/db/v2".toList := by decide

end Verif.GoParse
