import Verif.Wiring.Spec
/-
C14, C15: the wiring spec.
-/
namespace Verif.Wiring

namespace GoMap
variable {α : Type}

theorem get_del (m : GoMap α) (k j : Name) :
    (m.del k).get j = if j = k then none else m.get j := by
  induction m with
  | nil => simp [get, del]
  | cons e m ih =>
    unfold get del at *
    by_cases hk : e.1 = k
    · rw [List.filter_cons_of_neg (by simp [hk]), ih]
      by_cases hj : j = k
      · simp [hj]
      · have : ¬ e.1 = j := fun h => hj (by rw [← h, hk])
        simp [hj, this]
    · rw [List.filter_cons_of_pos (by simp [hk])]
      by_cases hj : e.1 = j
      · have : ¬ j = k := fun h => hk (by rw [hj, h])
        simp [hj, this]
      · simp only [List.find?_cons_of_neg (p := fun e : Name × α => e.1 == j) (by simp [hj] : ¬ (e.1 == j) = true)]
        exact ih

theorem get_set (m : GoMap α) (k j : Name) (v : α) :
    (m.set k v).get j = if j = k then some v else m.get j := by
  by_cases h : j = k
  · subst h; simp [set, get]
  · rw [if_neg h]
    have : (m.set k v).get j = (m.del k).get j := by
      unfold set get
      rw [List.find?_cons_of_neg (by simpa using fun h' => h h'.symm)]
    rw [this, get_del, if_neg h]

theorem mem_keys (m : GoMap α) (k : Name) : k ∈ m.map (·.1) ↔ (m.get k).isSome := by
  induction m with
  | nil => simp [get]
  | cons e m ih =>
    unfold get at *
    by_cases h : e.1 = k
    · simp [h]
    · rw [List.find?_cons_of_neg (by simpa using h), ← ih]
      simp [Ne.symm h]

end GoMap

variable {T B P : Type}

/-! ### How one call changes the two maps -/

theorem update_defs (s : Spec T B P) (n j : Name) (f : Def T B P → Def T B P) :
    (s.update n f).defs.get j
      = if j = n then some (f ((s.defs.get n).getD ⟨n, none, none, fun _ => []⟩))
        else s.defs.get j := by
  unfold Spec.update Spec.getOrCreate
  cases h : s.defs.get n with
  | some d => simp [GoMap.get_set]
  | none =>
    simp only [GoMap.get_set, Option.getD_none]
    by_cases hj : j = n <;> simp [hj]

theorem update_aliases (s : Spec T B P) (n j : Name) (f : Def T B P → Def T B P) :
    (s.update n f).aliases.get j
      = if j = n ∧ s.defs.get n = none then none else s.aliases.get j := by
  unfold Spec.update Spec.getOrCreate
  cases h : s.defs.get n with
  | some d => simp
  | none =>
    simp only [GoMap.get_del]
    by_cases hj : j = n <;> simp [hj]

theorem lastOn_concat (ops : List (Op T B P)) (o : Op T B P) (n : Name) :
    lastOn (ops ++ [o]) n = if o.name = n then some o else lastOn ops n := by
  unfold lastOn
  rw [List.filter_append]
  by_cases h : o.name = n
  · simp [h]
  · simp [h]

theorem run_concat (ops : List (Op T B P)) (o : Op T B P) :
    Spec.run (ops ++ [o]) = (Spec.run ops).step o := by
  simp [Spec.run, List.foldl_append]

theorem concat_induction {α : Type} {motive : List α → Prop} (nil : motive [])
    (append : ∀ l a, motive l → motive (l ++ [a])) : ∀ l, motive l := by
  intro l
  have : ∀ r : List α, motive r.reverse := by
    intro r
    induction r with
    | nil => exact nil
    | cons a r ih => rw [List.reverse_cons]; exact append _ _ ih
  simpa using this l.reverse

/-- What holds of the two maps after any calls. -/
theorem maps_inv (ops : List (Op T B P)) : ∀ n : Name,
    (Spec.run ops).aliases.get n = (lastOn ops n).bind Op.target ∧
    (((Spec.run ops).defs.get n).isSome = true ↔ ∃ o, lastOn ops n = some o ∧ o.target = none) := by
  induction ops using concat_induction with
  | nil => intro n; simp [Spec.run, Spec.new, GoMap.get, lastOn]
  | append ops o ih =>
    intro n
    rw [run_concat, lastOn_concat]
    have upd : ∀ (m : Name) (f : Def T B P → Def T B P), o.name = m → o.target = none →
        (((Spec.run ops).update m f).aliases.get n
          = (if o.name = n then some o else lastOn ops n).bind Op.target) ∧
        ((((Spec.run ops).update m f).defs.get n).isSome = true ↔
          ∃ q, (if o.name = n then some o else lastOn ops n) = some q ∧ q.target = none) := by
      intro m f hm ht
      rw [update_defs, update_aliases]
      obtain ⟨ih1, ih2⟩ := ih n
      by_cases hn : n = m
      · subst hn
        rw [if_pos hm]
        constructor
        · cases hd : (Spec.run ops).defs.get n with
          | none => simp [ht]
          | some d =>
            rw [if_neg (by simp), ih1]
            rw [hd] at ih2
            obtain ⟨q, hq, hqt⟩ := ih2.1 rfl
            simp [hq, hqt, ht]
        · simp [ht]
      · have hne : ¬ o.name = n := fun h => hn (by rw [← h, hm])
        rw [if_neg hne, if_neg (by simp [hn]), if_neg hn]
        exact ih n
    cases o with
    | define m t b st => exact upd m _ rfl rfl
    | setProperty m k v => exact upd m _ rfl rfl
    | addProperty m k v => exact upd m _ rfl rfl
    | alias a p =>
      simp only [Spec.step, GoMap.get_del, GoMap.get_set, Op.name]
      by_cases hn : n = a
      · subst hn; simp [Op.target]
      · have hne : ¬ a = n := fun h => hn h.symm
        simp only [hn, if_false, hne]
        exact ih n

theorem sinceAlias_concat (ops : List (Op T B P)) (o : Op T B P) (n : Name) :
    sinceAlias (ops ++ [o]) n
      = if o.name = n then (if o.target.isNone then sinceAlias ops n ++ [o] else [])
        else sinceAlias ops n := by
  unfold sinceAlias
  rw [List.filter_append]
  by_cases h : o.name = n
  · by_cases ht : o.target.isNone
    · simp [h, ht]
    · simp [h, ht]
  · simp [h]

theorem valuesOf_concat (key : Name) (o : Op T B P) : ∀ (ops : List (Op T B P)) (vs : List P),
    valuesOf key (ops ++ [o]) vs = valuesOf key [o] (valuesOf key ops vs) := by
  intro ops
  induction ops with
  | nil => intro vs; rfl
  | cons q ops ih =>
    intro vs
    cases q <;> simp only [List.cons_append, valuesOf] <;> exact ih _

theorem lastDefine_concat (ops : List (Op T B P)) (o : Op T B P) :
    lastDefine (ops ++ [o]) = match o with
      | .define _ t b _ => some (t, b)
      | _ => lastDefine ops := by
  unfold lastDefine
  rw [List.filterMap_append]
  cases o <;> simp

/-- The content of every definition. -/
theorem content_inv (ops : List (Op T B P)) : ∀ (n : Name) (d : Def T B P),
    (Spec.run ops).defs.get n = some d →
      d.name = n ∧ d.nodeType = (lastDefine (sinceAlias ops n)).map (·.1) ∧
      d.build = (lastDefine (sinceAlias ops n)).map (·.2) ∧
      ∀ k, d.properties k = valuesOf k (sinceAlias ops n) [] := by
  induction ops using concat_induction with
  | nil => intro n d h; simp [Spec.run, Spec.new, GoMap.get] at h
  | append ops o ih =>
    intro n d h
    rw [run_concat] at h
    rw [sinceAlias_concat]
    -- the definition the call works on
    have base : ∀ m, o.name = m → o.target = none →
        let e := (((Spec.run ops).defs.get m).getD ⟨m, none, none, fun _ => []⟩)
        e.name = m ∧ e.nodeType = (lastDefine (sinceAlias ops m)).map (·.1) ∧
        e.build = (lastDefine (sinceAlias ops m)).map (·.2) ∧
        ∀ k, e.properties k = valuesOf k (sinceAlias ops m) [] := by
      intro m hm ht
      cases hd : (Spec.run ops).defs.get m with
      | some e => exact ih m e hd
      | none =>
        have hs : sinceAlias ops m = [] := by
          obtain ⟨-, h2⟩ := maps_inv ops m
          rw [hd] at h2
          have hno : ¬ ∃ q, lastOn ops m = some q ∧ q.target = none := by
            rw [← h2]; simp
          unfold sinceAlias
          unfold lastOn at hno
          cases hf : (ops.filter fun o => o.name == m).reverse with
          | nil => simp
          | cons q qs =>
            have hl : (ops.filter fun o => o.name == m).getLast? = some q := by
              rw [List.getLast?_eq_head?_reverse, hf]; rfl
            have hq : q.target.isNone = false := by
              cases hqt : q.target with
              | none => exact absurd ⟨q, hl, hqt⟩ hno
              | some _ => rfl
            simp [hq]
        rw [hs]
        simp [lastDefine, valuesOf]
    have other : ∀ m (f : Def T B P → Def T B P), o.name = m → n ≠ m →
        ((Spec.run ops).update m f).defs.get n = some d →
        d.name = n ∧ d.nodeType = (lastDefine (sinceAlias ops n)).map (·.1) ∧
        d.build = (lastDefine (sinceAlias ops n)).map (·.2) ∧
        ∀ k, d.properties k = valuesOf k (sinceAlias ops n) [] := by
      intro m f _ hn h
      rw [update_defs, if_neg hn] at h
      exact ih n d h
    cases o with
    | define m t b st =>
      by_cases hn : n = m
      · subst hn
        obtain ⟨b1, b2, b3, b4⟩ := base n rfl rfl
        simp only [Spec.step, update_defs, if_true, Option.some.injEq] at h
        subst h
        simp only [Op.name, Op.target, Option.isNone_none, if_true, lastDefine_concat,
          valuesOf_concat]
        refine ⟨b1, rfl, rfl, fun k => ?_⟩
        simp only [valuesOf]
        split
        · rfl
        · exact b4 k
      · rw [if_neg (fun h' => hn h'.symm)]
        exact other m _ rfl hn h
    | setProperty m key v =>
      by_cases hn : n = m
      · subst hn
        obtain ⟨b1, b2, b3, b4⟩ := base n rfl rfl
        simp only [Spec.step, update_defs, if_true, Option.some.injEq] at h
        subst h
        simp only [Op.name, Op.target, Option.isNone_none, if_true, lastDefine_concat,
          valuesOf_concat]
        refine ⟨b1, b2, b3, fun k => ?_⟩
        simp only [valuesOf]
        by_cases hk : k = key
        · simp [hk]
        · rw [if_neg hk, if_neg (fun h' => hk h'.symm)]; exact b4 k
      · rw [if_neg (fun h' => hn h'.symm)]
        exact other m _ rfl hn h
    | addProperty m key v =>
      by_cases hn : n = m
      · subst hn
        obtain ⟨b1, b2, b3, b4⟩ := base n rfl rfl
        simp only [Spec.step, update_defs, if_true, Option.some.injEq] at h
        subst h
        simp only [Op.name, Op.target, Option.isNone_none, if_true, lastDefine_concat,
          valuesOf_concat]
        refine ⟨b1, b2, b3, fun k => ?_⟩
        simp only [valuesOf]
        by_cases hk : k = key
        · subst hk; simp only [if_true]; rw [b4 k]
        · rw [if_neg hk, if_neg (fun h' => hk h'.symm)]; exact b4 k
      · rw [if_neg (fun h' => hn h'.symm)]
        exact other m _ rfl hn h
    | alias a p =>
      simp only [Spec.step, GoMap.get_del] at h
      by_cases hn : n = a
      · simp [hn] at h
      · rw [if_neg hn] at h
        rw [if_neg (fun h' => hn h'.symm)]
        exact ih n d h

/-! ### C14 -/

/-- **C14**, one kind per name.  After any calls, a name is an alias exactly when the
last call about it was Alias (and then points to that call's target), is listed by
Defs exactly when the last call about it was another one, and is never both. -/
theorem C14_kind (ops : List (Op T B P)) (n : Name) :
    let s := Spec.run ops
    (∀ p, s.getAlias n = some p ↔ ∃ o, lastOn ops n = some o ∧ o.target = some p) ∧
    (n ∈ s.defNames ↔ ∃ o, lastOn ops n = some o ∧ o.target = none) ∧
    ¬ (n ∈ s.defNames ∧ s.getAlias n ≠ none) := by
  obtain ⟨h1, h2⟩ := maps_inv ops n
  have hd : n ∈ (Spec.run ops).defNames ↔ ∃ o, lastOn ops n = some o ∧ o.target = none := by
    rw [Spec.defNames, GoMap.mem_keys]; exact h2
  refine ⟨fun p => ?_, hd, ?_⟩
  · rw [Spec.getAlias, h1]
    cases lastOn ops n <;> simp
  · rintro ⟨g1, g2⟩
    obtain ⟨o, ho, hot⟩ := hd.1 g1
    rw [Spec.getAlias, h1, ho] at g2
    exact g2 hot

/-- **C14**, content: a listed name carries the node type and build function of the
last Define since it was last an alias. -/
theorem C14_content (ops : List (Op T B P)) (n : Name) (d : Def T B P)
    (h : (Spec.run ops).defs.get n = some d) :
    d.name = n ∧ d.nodeType = (lastDefine (sinceAlias ops n)).map (·.1) ∧
    d.build = (lastDefine (sinceAlias ops n)).map (·.2) := by
  obtain ⟨h1, h2, h3, -⟩ := content_inv ops n d h
  exact ⟨h1, h2, h3⟩

/-- GetDef ends exactly on the names that the aliases lead to. -/
theorem resolveAlias_iff (s : Spec T B P) (a b : Name) :
    (∃ fuel, s.resolveAlias fuel a = some b) ↔ Leads s a b := by
  constructor
  · rintro ⟨fuel, h⟩
    induction fuel generalizing a with
    | zero => simp [Spec.resolveAlias] at h
    | succ n ih =>
      rw [Spec.resolveAlias] at h
      cases hg : s.aliases.get a with
      | none =>
        rw [hg] at h
        simp only [Option.some.injEq] at h
        subst h; exact .stop hg
      | some p => rw [hg] at h; exact .follow hg (ih p h)
  · intro h
    induction h with
    | stop hg => exact ⟨1, by simp only [Spec.resolveAlias]; rw [Spec.getAlias] at hg; rw [hg]⟩
    | follow hg _ ih =>
      obtain ⟨fuel, ih⟩ := ih
      exact ⟨fuel + 1, by rw [Spec.resolveAlias]; rw [Spec.getAlias] at hg; rw [hg]; exact ih⟩

/-- **C14**, resolution.  GetDef on a name returns the definition (if any) of the
name at the end of its chain of aliases. -/
theorem C14_getDef (s : Spec T B P) (a : Name) (r : Option (Def T B P)) :
    (∃ fuel, s.getDef fuel a = some r) ↔ ∃ b, Leads s a b ∧ s.defs.get b = r := by
  unfold Spec.getDef
  constructor
  · rintro ⟨fuel, h⟩
    cases hr : s.resolveAlias fuel a with
    | none => simp [hr] at h
    | some b =>
      simp only [hr, Option.map_some, Option.some.injEq] at h
      exact ⟨b, (resolveAlias_iff s a b).1 ⟨fuel, hr⟩, h⟩
  · rintro ⟨b, hb, hr⟩
    obtain ⟨fuel, h⟩ := (resolveAlias_iff s a b).2 hb
    exact ⟨fuel, by rw [h, Option.map_some, hr]⟩

/-- **C14**, termination: if the aliases have no cycle (each points to a name of
lower rank), GetDef ends for every name. -/
theorem C14_getDef_ends (s : Spec T B P) (rank : Name → Nat)
    (hr : ∀ a p, s.getAlias a = some p → rank p < rank a) (a : Name) :
    ∃ fuel r, s.getDef fuel a = some r := by
  have key : ∀ n a, rank a ≤ n → ∃ b, Leads s a b := by
    intro n
    induction n with
    | zero =>
      intro a ha
      cases hg : s.getAlias a with
      | none => exact ⟨a, .stop hg⟩
      | some p => have := hr a p hg; omega
    | succ n ih =>
      intro a ha
      cases hg : s.getAlias a with
      | none => exact ⟨a, .stop hg⟩
      | some p =>
        have := hr a p hg
        obtain ⟨b, hb⟩ := ih p (by omega)
        exact ⟨b, .follow hg hb⟩
  obtain ⟨b, hb⟩ := key _ a (Nat.le_refl _)
  obtain ⟨fuel, h⟩ := (C14_getDef s a (s.defs.get b)).2 ⟨b, hb, rfl⟩
  exact ⟨fuel, _, h⟩

/-- **C14 refuted** for alias cycles: after `Alias("a","b")` and `Alias("b","a")`,
GetDef("a") never returns. -/
theorem C14_alias_cycle_refuted :
    let s : Spec T B P := Spec.run [.alias "a" "b", .alias "b" "a"]
    ∀ fuel, s.getDef fuel "a" = none := by
  intro s
  have ha : s.aliases.get "a" = some "b" := by
    have := (maps_inv ([.alias "a" "b", .alias "b" "a"] : List (Op T B P)) "a").1
    rw [this]; simp [lastOn, Op.name, Op.target]
  have hb : s.aliases.get "b" = some "a" := by
    have := (maps_inv ([.alias "a" "b", .alias "b" "a"] : List (Op T B P)) "b").1
    rw [this]; simp [lastOn, Op.name, Op.target]
  have key : ∀ fuel, s.resolveAlias fuel "a" = none ∧ s.resolveAlias fuel "b" = none := by
    intro fuel
    induction fuel with
    | zero => exact ⟨rfl, rfl⟩
    | succ n ih =>
      simp only [Spec.resolveAlias, ha, hb]
      exact ⟨ih.2, ih.1⟩
  intro fuel
  simp [Spec.getDef, (key fuel).1]

/-- **C14 refuted** for property calls: setting a property of an alias silently
removes the alias, and leaves a definition that nobody defined and that cannot be
built. -/
theorem C14_property_on_alias_refuted (t : T) (b : B) (st v : P) :
    let s : Spec T B P := Spec.run [.define "svc" t b st, .alias "ptr" "svc",
      .setProperty "ptr" "key" v]
    s.getAlias "ptr" = none ∧
    ∃ d, s.getDef 9 "ptr" = some (some d) ∧ d.name = "ptr" ∧ d.build = none := by
  intro s
  have h1 := (maps_inv ([.define "svc" t b st, .alias "ptr" "svc",
    .setProperty "ptr" "key" v] : List (Op T B P)) "ptr")
  have e1 : s.aliases.get "ptr" = none := by
    rw [show s = Spec.run _ from rfl, h1.1]; simp [lastOn, Op.name, Op.target]
  refine ⟨e1, ?_⟩
  have e2 : (s.defs.get "ptr").isSome = true := by
    rw [show s = Spec.run _ from rfl, h1.2]; simp [lastOn, Op.name, Op.target]
  obtain ⟨d, hd⟩ := Option.isSome_iff_exists.1 e2
  obtain ⟨c1, c2, c3⟩ := C14_content _ _ _ hd
  refine ⟨d, ?_, c1, ?_⟩
  · simp [Spec.getDef, Spec.resolveAlias, e1, hd]
  · rw [c3]; simp [sinceAlias, lastDefine, Op.name, Op.target]

/-! ### C15 -/

/-- **C15**.  After any calls, GetProperties delivers the values of the key that the
calls about this very name and key left (SetProperty replaces, AddProperty appends
in call order), and GetProperty delivers a value only if there is exactly one;
without a definition both leave the destination alone. -/
theorem C15_properties (ops : List (Op T B P)) (n key : Name) :
    let s := Spec.run ops
    let vs := valuesOf key (sinceAlias ops n) []
    (n ∈ s.defNames → s.getProperties n key = some vs ∧
      ((∃ v, vs = [v] ∧ s.getProperty n key = .value v) ∨
        (vs.length ≠ 1 ∧ s.getProperty n key = .zero))) ∧
    (n ∉ s.defNames → s.getProperties n key = none ∧ s.getProperty n key = .untouched) := by
  constructor
  · intro hn
    rw [Spec.defNames, GoMap.mem_keys] at hn
    obtain ⟨d, hd⟩ := Option.isSome_iff_exists.1 hn
    obtain ⟨-, -, -, h⟩ := content_inv ops n d hd
    refine ⟨by rw [Spec.getProperties, hd, Option.map_some, h key], ?_⟩
    rw [Spec.getProperty, hd]
    simp only [h key]
    cases hv : valuesOf key (sinceAlias ops n) [] with
    | nil => exact Or.inr ⟨by simp, rfl⟩
    | cons v vs =>
      cases vs with
      | nil => exact Or.inl ⟨v, rfl, rfl⟩
      | cons w vs => exact Or.inr ⟨by simp, rfl⟩
  · intro hn
    rw [Spec.defNames, GoMap.mem_keys] at hn
    have hd : (Spec.run ops).defs.get n = none := by
      cases h : (Spec.run ops).defs.get n with
      | none => rfl
      | some d => simp [h] at hn
    exact ⟨by rw [Spec.getProperties, hd]; rfl, by rw [Spec.getProperty, hd]⟩

/-- **C15**, no leaks: a call about another name or (for properties) another key
changes nothing. -/
theorem C15_no_leak (ops : List (Op T B P)) (o : Op T B P) (n key : Name)
    (h : o.name ≠ n ∨ (∃ m k v, (o = .setProperty m k v ∨ o = .addProperty m k v) ∧ k ≠ key) ∧
      n ∈ (Spec.run ops).defNames) :
    (Spec.run (ops ++ [o])).getProperties n key = (Spec.run ops).getProperties n key := by
  have hk := C14_kind ops n
  have hk' := C14_kind (ops ++ [o]) n
  simp only [] at hk hk'
  have c1 := C15_properties ops n key
  have c2 := C15_properties (ops ++ [o]) n key
  simp only [] at c1 c2
  have same : sinceAlias (ops ++ [o]) n = sinceAlias ops n ∨
      (valuesOf key (sinceAlias (ops ++ [o]) n) [] = valuesOf key (sinceAlias ops n) [] ∧
        n ∈ (Spec.run ops).defNames ∧ n ∈ (Spec.run (ops ++ [o])).defNames) := by
    by_cases hn : o.name = n
    · rcases h with h | ⟨⟨m, k, v, ho, hkey⟩, hdef⟩
      · exact absurd hn h
      · right
        have ht : o.target = none := by rcases ho with rfl | rfl <;> rfl
        refine ⟨?_, hdef, ?_⟩
        · rw [sinceAlias_concat, if_pos hn, ht]
          simp only [Option.isNone_none, if_true]
          rw [valuesOf_concat]
          rcases ho with rfl | rfl <;> simp [valuesOf, hkey]
        · rw [hk'.2.1, lastOn_concat, if_pos hn]
          exact ⟨o, rfl, ht⟩
    · left; rw [sinceAlias_concat, if_neg hn]
  rcases same with same | ⟨hv, hd, hd'⟩
  · by_cases hn : o.name = n
    · rcases h with h | ⟨⟨m, k, v, ho, hkey⟩, hdef⟩
      · exact absurd hn h
      · have ht : o.target = none := by rcases ho with rfl | rfl <;> rfl
        have hd' : n ∈ (Spec.run (ops ++ [o])).defNames := by
          rw [hk'.2.1, lastOn_concat, if_pos hn]; exact ⟨o, rfl, ht⟩
        rw [(c1.1 hdef).1, (c2.1 hd').1, same]
    · by_cases hd : n ∈ (Spec.run ops).defNames
      · have hd' : n ∈ (Spec.run (ops ++ [o])).defNames := by
          rw [hk'.2.1, lastOn_concat, if_neg hn, ← hk.2.1]; exact hd
        rw [(c1.1 hd).1, (c2.1 hd').1, same]
      · have hd' : n ∉ (Spec.run (ops ++ [o])).defNames := by
          rw [hk'.2.1, lastOn_concat, if_neg hn, ← hk.2.1]; exact hd
        rw [(c1.2 hd).1, (c2.2 hd').1]
  · rw [(c1.1 hd).1, (c2.1 hd').1, hv]

/-- A concrete history: redefinition keeps the properties, aliasing drops them. -/
example : ((Spec.run [.addProperty "a" "k" 1, .define "a" () () 0, .addProperty "a" "k" 2,
    .define "a" () () 3] : Spec Unit Unit Nat).getProperties "a" "k") = some [1, 2] := by decide
example : ((Spec.run [.addProperty "a" "k" 1, .alias "a" "b", .define "a" () () 3]
    : Spec Unit Unit Nat).getProperties "a" "k") = some [] := by decide
example : ((Spec.run [.define "s" () () 0, .alias "p" "s", .alias "q" "p"]
    : Spec Unit Unit Nat).getDef 5 "q").map (·.map (·.name)) = some (some "s") := by decide

end Verif.Wiring
