import Verif.GoCode.Spec
/-
C28-C30: imports, type names and interfaces.
-/
namespace Verif.GoCode

/-! ### C29 -/

/-- C29: two types are reported equal iff they are the same type. -/
theorem C29_equals_iff_same (a b : Ty) : a.equals b = true ↔ a = b := by
  induction a generalizing b with
  | basic n => cases b <;> simp [Ty.equals]
  | user p n => cases b <;> simp [Ty.equals]
  | slice a ih => cases b <;> simp [Ty.equals, ih]
  | ellipsis a ih => cases b <;> simp [Ty.equals, ih]
  | pointer a ih => cases b <;> simp [Ty.equals, ih]
  | map k v ihk ihv => cases b <;> simp [Ty.equals, ihk, ihv]
  | chan a ih => cases b <;> simp [Ty.equals, ih]
  | recv a ih => cases b <;> simp [Ty.equals, ih]
  | send a ih => cases b <;> simp [Ty.equals, ih]
  | iface => cases b <;> simp [Ty.equals]
  | any => cases b <;> simp [Ty.equals]
  | func => cases b <;> simp [Ty.equals]
  | struct => cases b <;> simp [Ty.equals]
  | generic x y ihx ihy => cases b <;> simp [Ty.equals, ihx, ihy]
  | param n => cases b <;> simp [Ty.equals]

/-- C29: equality of types is reflexive, symmetric and transitive, and equal types print identically. -/
theorem C29_equivalence :
    (∀ a : Ty, a.equals a = true) ∧
    (∀ a b : Ty, a.equals b = true → b.equals a = true) ∧
    (∀ a b c : Ty, a.equals b = true → b.equals c = true → a.equals c = true) ∧
    (∀ a b : Ty, a.equals b = true → a.str = b.str) := by
  simp only [C29_equals_iff_same]
  exact ⟨fun _ => trivial, fun _ _ h => h.symm, fun _ _ _ h1 h2 => h1.trans h2, fun _ _ h => h ▸ rfl⟩

/-- The converse fails, so printed names must not be compared instead of types: types of the same name from
packages with the same last path element print identically. -/
theorem C29_printing_not_injective : ∃ a b : Ty, a.equals b = false ∧ a.str = b.str :=
  ⟨.user ['a', '/', 'x'] ['T'], .user ['b', '/', 'x'] ['T'], by decide, by decide⟩

/-! ### C30 -/

private theorem sameTypes_iff (a b : List Var) : sameTypes a b = true ↔ a.map (·.type) = b.map (·.type) := by
  induction a generalizing b with
  | nil => cases b <;> simp [sameTypes]
  | cons x a ih => cases b <;> simp [sameTypes, C29_equals_iff_same, ih]

private theorem funcEquals_iff (f g : Func) : f.equals g = true ↔ SameSignature f g := by
  simp [Func.equals, SameSignature, sameTypes_iff, and_assoc]

private theorem lookup_iff {l : List (Name × Func)} (h : (l.map (·.1)).Nodup) (n : Name) (f : Func) :
    l.lookup n = some f ↔ (n, f) ∈ l := by
  induction l with
  | nil => simp
  | cons x l ih =>
    obtain ⟨m, g⟩ := x
    simp only [List.map_cons, List.nodup_cons] at h
    by_cases hn : n = m
    · subst hn
      simp only [List.lookup_cons, beq_self_eq_true, List.mem_cons]
      constructor
      · intro hh; cases hh; exact .inl rfl
      · rintro (hh | hh)
        · cases hh; rfl
        · exact absurd (List.mem_map.2 ⟨_, hh, rfl⟩) h.1
    · simp only [List.lookup_cons, beq_eq_false_iff_ne.2 hn, List.mem_cons, ih h.2]
      simp [hn]

/-- C30: an interface contains another iff every method of the other is present under its name with the
same name, argument types and result types. -/
theorem C30_contains_iff (i j : Iface) :
    contains (some i) (some j) = true ↔
      ∀ name f, j.get name = some f → ∃ g, i.get name = some g ∧ SameSignature f g := by
  simp only [contains, List.all_eq_true]
  constructor
  · intro h name f hf
    have := h (name, f) ((lookup_iff j.nodup name f).1 hf)
    simp only at this
    cases hg : i.get name with
    | none => simp [hg] at this
    | some g => simp only [hg] at this; exact ⟨g, rfl, (funcEquals_iff f g).1 this⟩
  · intro h ⟨name, f⟩ hf
    obtain ⟨g, hg, hs⟩ := h name f ((lookup_iff j.nodup name f).2 hf)
    simp only [hg]
    exact (funcEquals_iff f g).2 hs

/-- C30: containment is reflexive and transitive on interfaces; nil contains and is contained in nothing. -/
theorem C30_preorder :
    (∀ i : Iface, contains (some i) (some i) = true) ∧
    (∀ i j k : Iface, contains (some i) (some j) = true → contains (some j) (some k) = true →
      contains (some i) (some k) = true) ∧
    (∀ i, contains none i = false ∧ contains i none = false) := by
  refine ⟨?_, ?_, ?_⟩
  · intro i
    rw [C30_contains_iff]
    exact fun name f hf => ⟨f, hf, rfl, rfl, rfl⟩
  · intro i j k h1 h2
    rw [C30_contains_iff] at *
    intro name f hf
    obtain ⟨g, hg, a1, a2, a3⟩ := h2 name f hf
    obtain ⟨g', hg', b1, b2, b3⟩ := h1 name g hg
    exact ⟨g', hg', a1.trans b1, a2.trans b2, a3.trans b3⟩
  · intro i
    cases i <;> simp [contains]

/-! ### C28 -/

private theorem length_le_of_subset {l m : List Name} (hn : l.Nodup) (hs : ∀ x ∈ l, x ∈ m) :
    l.length ≤ m.length := by
  induction l generalizing m with
  | nil => simp
  | cons a l ih =>
    have ha := hs a (by simp)
    have hn' := List.nodup_cons.1 hn
    have := ih (m := m.erase a) hn'.2 (by
      intro x hx
      have hxa : x ≠ a := fun h => hn'.1 (h ▸ hx)
      exact (List.mem_erase_of_ne hxa).2 (hs x (by simp [hx])))
    have h1 := List.length_erase_of_mem ha
    have h2 := List.length_pos_of_mem ha
    simp; omega

private theorem numbered_inj (n : Name) {i j : Nat} (h : numbered n i = numbered n j) : i = j := by
  have := List.append_cancel_left h
  rw [← Nat.ofDigitChars_ten_toDigits (n := i), ← Nat.ofDigitChars_ten_toDigits (n := j), this]

private theorem freeName_some (seen : List Name) (d : Name) : ∀ fuel i c n,
    freeName seen d fuel i c = some n → n ∉ seen := by
  intro fuel
  induction fuel with
  | zero => intro i c n h; simp [freeName] at h
  | succ fuel ih =>
    intro i c n h
    simp only [freeName] at h
    split at h
    · exact ih _ _ _ h
    · cases h; assumption

private theorem freeName_none (seen : List Name) (d : Name) : ∀ fuel i c,
    freeName seen d fuel i c = none → (0 < fuel → c ∈ seen) ∧ ∀ j, j + 1 < fuel → numbered d (i + j) ∈ seen := by
  intro fuel
  induction fuel with
  | zero => intro i c _; simp
  | succ fuel ih =>
    intro i c h
    simp only [freeName] at h
    split at h
    · obtain ⟨h1, h2⟩ := ih _ _ h
      refine ⟨fun _ => by assumption, ?_⟩
      intro j hj
      cases j with
      | zero => exact h1 (by omega)
      | succ j => have := h2 j (by omega); rwa [show i + 1 + j = i + (j + 1) by omega] at this
    · simp at h

private theorem freeName_total (seen : List Name) (d : Name) (fuel : Nat) (hf : seen.length + 1 ≤ fuel) :
    ∃ n, freeName seen d fuel 2 d = some n := by
  cases h : freeName seen d fuel 2 d with
  | some n => exact ⟨n, rfl⟩
  | none =>
    exfalso
    obtain ⟨h1, h2⟩ := freeName_none seen d fuel 2 d h
    have hpos : ∀ i, Nat.toDigits 10 i ≠ [] := by
      intro i hi
      have : (Nat.toDigits 10 i).length = 0 := by rw [hi]; rfl
      have := Nat.length_toDigits_pos (b := 10) (n := i)
      omega
    have := length_le_of_subset (l := d :: (List.range (fuel - 1)).map fun j => numbered d (2 + j)) (m := seen) ?_ ?_
    · simp at this; omega
    · refine List.nodup_cons.2 ⟨?_, ?_⟩
      · intro hm
        obtain ⟨j, _, hj⟩ := List.mem_map.1 hm
        have : numbered d (2 + j) = d ++ [] := by simpa using hj
        exact hpos _ (List.append_cancel_left this)
      · refine List.pairwise_map.2 (List.Pairwise.imp ?_ List.nodup_range)
        intro i j hij he
        have := numbered_inj d he
        omega
    · intro x hx
      rcases List.mem_cons.1 hx with rfl | hx
      · exact h1 (by omega)
      · obtain ⟨j, hj, rfl⟩ := List.mem_map.1 hx
        exact h2 j (by simp at hj; omega)

/-- Invariant of the import table. -/
private structure Good (im : Imports) : Prop where
  keys : (im.packages.map (·.1)).Nodup
  names : (im.packages.map (·.2)).Nodup
  seen : ∀ n, n ∈ im.seen ↔ n ∈ im.packages.map (·.2)
  notLocal : im.localPackage ∉ im.packages.map (·.1)
  decl : (declarations im).map (fun d => (d.1, declaredName d)) |>.Perm im.packages

private theorem lookup_some_mem {l : List (Name × Name)} {k v : Name} (h : l.lookup k = some v) : (k, v) ∈ l := by
  induction l with
  | nil => simp at h
  | cons x l ih =>
    obtain ⟨a, b⟩ := x
    by_cases hk : k = a
    · subst hk; simp at h; subst h; simp
    · simp only [List.lookup_cons, beq_eq_false_iff_ne.2 hk] at h; simp [ih h]

private theorem lookup_none_iff {l : List (Name × Name)} {k : Name} : l.lookup k = none ↔ k ∉ l.map (·.1) := by
  induction l with
  | nil => simp
  | cons x l ih =>
    obtain ⟨a, b⟩ := x
    by_cases hk : k = a
    · subst hk; simp
    · simp only [List.lookup_cons, beq_eq_false_iff_ne.2 hk, ih, List.map_cons, List.mem_cons, not_or]
      simp [hk]

private theorem mem_lookup {l : List (Name × Name)} (h : (l.map (·.1)).Nodup) {k v : Name} (hm : (k, v) ∈ l) :
    l.lookup k = some v := by
  induction l with
  | nil => simp at hm
  | cons x l ih =>
    obtain ⟨a, b⟩ := x
    simp only [List.map_cons, List.nodup_cons] at h
    by_cases hk : k = a
    · subst hk
      rcases List.mem_cons.1 hm with hm | hm
      · cases hm; simp
      · exact absurd (List.mem_map.2 ⟨_, hm, rfl⟩) h.1
    · simp only [List.lookup_cons, beq_eq_false_iff_ne.2 hk]
      rcases List.mem_cons.1 hm with hm | hm
      · cases hm; exact absurd rfl hk
      · exact ih h.2 hm

/-- Later tables extend earlier ones. -/
private def Ext (im im' : Imports) : Prop :=
  im'.localPackage = im.localPackage ∧ ∀ p n, im.packages.lookup p = some n → im'.packages.lookup p = some n

private theorem Ext.refl (im : Imports) : Ext im im := ⟨rfl, fun _ _ h => h⟩
private theorem Ext.trans {a b c : Imports} (h1 : Ext a b) (h2 : Ext b c) : Ext a c :=
  ⟨h2.1.trans h1.1, fun p n h => h2.2 p n (h1.2 p n h)⟩

private theorem addPackage_spec (im : Imports) (pkg : Name) (hg : Good im) :
    ∃ n im', addPackage im pkg = some (n, im') ∧ Good im' ∧ Ext im im' ∧
      (pkg = im.localPackage → n = [] ∧ im' = im) ∧
      (pkg ≠ im.localPackage → im'.packages.lookup pkg = some n) := by
  unfold addPackage
  by_cases hl : pkg = im.localPackage
  · rw [if_pos hl]; exact ⟨[], im, rfl, hg, .refl _, fun _ => ⟨rfl, rfl⟩, fun h => absurd hl h⟩
  · rw [if_neg hl]
    cases hlk : im.packages.lookup pkg with
    | some n => exact ⟨n, im, rfl, hg, .refl _, fun h => absurd h hl, fun _ => hlk⟩
    | none =>
      obtain ⟨n, hn⟩ := freeName_total im.seen (shortName pkg) (im.seen.length + 1) (Nat.le_refl _)
      simp only [hn]
      have hns := freeName_some _ _ _ _ _ _ hn
      have hk := lookup_none_iff.1 hlk
      have hext : ∀ p m, im.packages.lookup p = some m → ((pkg, n) :: im.packages).lookup p = some m := by
        intro p m hpm
        have : p ≠ pkg := by rintro rfl; rw [hlk] at hpm; cases hpm
        simp only [List.lookup_cons, beq_eq_false_iff_ne.2 this]; exact hpm
      have hkeys : (((pkg, n) :: im.packages).map (·.1)).Nodup := List.nodup_cons.2 ⟨hk, hg.keys⟩
      have hnames : (((pkg, n) :: im.packages).map (·.2)).Nodup :=
        List.nodup_cons.2 ⟨fun h => hns ((hg.seen n).2 h), hg.names⟩
      have hseen : ∀ m, m ∈ n :: im.seen ↔ m ∈ ((pkg, n) :: im.packages).map (·.2) := by
        intro m
        have := hg.seen m
        simp only [List.mem_cons, List.map_cons, this]
      have hloc : im.localPackage ∉ ((pkg, n) :: im.packages).map (·.1) := by
        intro h
        rcases List.mem_cons.1 h with h | h
        · exact hl h.symm
        · exact hg.notLocal h
      by_cases hd : n = shortName pkg
      · refine ⟨n, _, rfl, ?_, ?_, fun h => absurd h hl, ?_⟩
        · rw [if_pos hd]
          refine ⟨hkeys, hnames, hseen, hloc, ?_⟩
          have := hg.decl
          simp only [declarations, List.map_cons, List.cons_append, declaredName] at this ⊢
          rw [← hd]
          exact this.cons _
        · rw [if_pos hd]; exact ⟨rfl, hext⟩
        · rw [if_pos hd]; simp
      · refine ⟨n, _, rfl, ?_, ?_, fun h => absurd h hl, ?_⟩
        · rw [if_neg hd]
          refine ⟨hkeys, hnames, hseen, hloc, ?_⟩
          have := hg.decl
          simp only [declarations, List.map_cons, List.map_append, declaredName] at this ⊢
          exact List.perm_middle.trans (this.cons _)
        · rw [if_neg hd]; exact ⟨rfl, hext⟩
        · rw [if_neg hd]; simp

/-- The packages a type makes `AddType` import. -/
private def imported : Ty → List Name
  | .user p _ => [p]
  | .slice a | .pointer a | .chan a | .recv a | .send a => imported a
  | .map k v => imported k ++ imported v
  | _ => []

private theorem addType_spec (t : Ty) : ∀ im, Good im → ∃ im', addType im t = some im' ∧ Good im' ∧ Ext im im' ∧
    (∀ p ∈ imported t, p ≠ im.localPackage → ∃ n, im'.packages.lookup p = some n) ∧
    ((∀ p ∈ imported t, p ≠ im.localPackage → ∃ n, im.packages.lookup p = some n) → im' = im) := by
  have one : ∀ im, Good im → ∃ im', some im = some im' ∧ Good im' ∧ Ext im im' ∧
      (∀ p ∈ ([] : List Name), p ≠ im.localPackage → ∃ n, im'.packages.lookup p = some n) ∧
      ((∀ p ∈ ([] : List Name), p ≠ im.localPackage → ∃ n, im.packages.lookup p = some n) → im' = im) :=
    fun im hg => ⟨im, rfl, hg, .refl _, by simp, fun _ => rfl⟩
  induction t with
  | user p n =>
    intro im hg
    obtain ⟨m, im', h1, h2, h3, h4, h5⟩ := addPackage_spec im p hg
    refine ⟨im', by simp [addType, h1], h2, h3, ?_, ?_⟩
    · intro q hq hne
      simp [imported] at hq; subst hq
      exact ⟨m, h5 hne⟩
    · intro hall
      by_cases hl : p = im.localPackage
      · exact (h4 hl).2
      · obtain ⟨n', hn'⟩ := hall p (by simp [imported]) hl
        simp [addPackage, hl, hn'] at h1
        exact h1.2.symm
  | slice a ih => exact ih
  | pointer a ih => exact ih
  | chan a ih => exact ih
  | recv a ih => exact ih
  | send a ih => exact ih
  | map k v ihk ihv =>
    intro im hg
    obtain ⟨im1, h1, g1, e1, p1, q1⟩ := ihk im hg
    obtain ⟨im2, h2, g2, e2, p2, q2⟩ := ihv im1 g1
    refine ⟨im2, by simp [addType, h1, h2], g2, e1.trans e2, ?_, ?_⟩
    · intro p hp hne
      rcases List.mem_append.1 hp with hp | hp
      · obtain ⟨n, hn⟩ := p1 p hp hne; exact ⟨n, e2.2 p n hn⟩
      · exact p2 p hp (by rw [e1.1]; exact hne)
    · intro hall
      have : im1 = im := q1 fun p hp => hall p (by simp [imported, hp])
      subst this
      exact q2 fun p hp => hall p (by simp [imported, hp])
  | basic n => exact one
  | ellipsis a _ => exact one
  | iface => exact one
  | any => exact one
  | func => exact one
  | struct => exact one
  | generic a b _ _ => exact one
  | param n => exact one

/-- How a package is referred to according to a table. -/
private def ref (im : Imports) (p : Name) : Option Name :=
  if p = im.localPackage then none else
    match im.packages.lookup p with
    | some n => some n
    | none => some p

private theorem nameOf_spec (t : Ty) : ∀ im, Good im → ∃ s im', nameOf im t = some (s, im') ∧ Good im' ∧ Ext im im' ∧
    (∀ p ∈ imported t, p ≠ im.localPackage → ∃ n, im'.packages.lookup p = some n) ∧
    ((∀ p ∈ imported t, p ≠ im.localPackage → ∃ n, im.packages.lookup p = some n) → im' = im) ∧
    s = t.render (ref im') := by
  induction t with
  | user p n =>
    intro im hg
    obtain ⟨im', h1, h2, h3, h4, h5⟩ := addType_spec (.user p n) im hg
    refine ⟨qualify im' p n, im', by rw [nameOf, h1]; rfl, h2, h3, h4, h5, ?_⟩
    simp only [qualify, Ty.render, ref]
    by_cases hl : p = im'.localPackage
    · simp [hl]
    · simp only [if_neg hl]
      cases im'.packages.lookup p <;> rfl
  | slice a ih =>
    intro im hg
    obtain ⟨im0, h0, g0, e0, p0, q0⟩ := addType_spec (.slice a) im hg
    obtain ⟨s, im', h1, h2, h3, h4, h5, h6⟩ := ih im0 g0
    have he : im' = im0 := h5 (by rw [e0.1]; exact p0)
    subst he
    refine ⟨(Ty.slice a).render (ref im'), im', ?_, h2, e0, p0, q0, rfl⟩
    rw [nameOf, h0]; simp only [Option.bind_some, h1, Option.map_some, h6]; rfl
  | pointer a ih =>
    intro im hg
    obtain ⟨im0, h0, g0, e0, p0, q0⟩ := addType_spec (.pointer a) im hg
    obtain ⟨s, im', h1, h2, h3, h4, h5, h6⟩ := ih im0 g0
    have he : im' = im0 := h5 (by rw [e0.1]; exact p0)
    subst he
    refine ⟨(Ty.pointer a).render (ref im'), im', ?_, h2, e0, p0, q0, rfl⟩
    rw [nameOf, h0]; simp only [Option.bind_some, h1, Option.map_some, h6]; rfl
  | chan a ih =>
    intro im hg
    obtain ⟨im0, h0, g0, e0, p0, q0⟩ := addType_spec (.chan a) im hg
    obtain ⟨s, im', h1, h2, h3, h4, h5, h6⟩ := ih im0 g0
    have he : im' = im0 := h5 (by rw [e0.1]; exact p0)
    subst he
    refine ⟨(Ty.chan a).render (ref im'), im', ?_, h2, e0, p0, q0, rfl⟩
    rw [nameOf, h0]; simp only [Option.bind_some, h1, Option.map_some, h6]; rfl
  | recv a ih =>
    intro im hg
    obtain ⟨im0, h0, g0, e0, p0, q0⟩ := addType_spec (.recv a) im hg
    obtain ⟨s, im', h1, h2, h3, h4, h5, h6⟩ := ih im0 g0
    have he : im' = im0 := h5 (by rw [e0.1]; exact p0)
    subst he
    refine ⟨(Ty.recv a).render (ref im'), im', ?_, h2, e0, p0, q0, rfl⟩
    rw [nameOf, h0]; simp only [Option.bind_some, h1, Option.map_some, h6]; rfl
  | send a ih =>
    intro im hg
    obtain ⟨im0, h0, g0, e0, p0, q0⟩ := addType_spec (.send a) im hg
    obtain ⟨s, im', h1, h2, h3, h4, h5, h6⟩ := ih im0 g0
    have he : im' = im0 := h5 (by rw [e0.1]; exact p0)
    subst he
    refine ⟨(Ty.send a).render (ref im'), im', ?_, h2, e0, p0, q0, rfl⟩
    rw [nameOf, h0]; simp only [Option.bind_some, h1, Option.map_some, h6]; rfl
  | map k v ihk ihv =>
    intro im hg
    obtain ⟨im0, h0, g0, e0, p0, q0⟩ := addType_spec (.map k v) im hg
    obtain ⟨s, im', h1, h2, h3, h4, h5, h6⟩ := ihk im0 g0
    have he : im' = im0 := h5 (by rw [e0.1]; exact fun p hp => p0 p (by simp [imported, hp]))
    subst he
    obtain ⟨s', im'', k1, k2, k3, k4, k5, k6⟩ := ihv im' g0
    have he : im'' = im' := k5 (by rw [e0.1]; exact fun p hp => p0 p (by simp [imported, hp]))
    subst he
    refine ⟨(Ty.map k v).render (ref im''), im'', ?_, h2, e0, p0, q0, rfl⟩
    rw [nameOf, h0]; simp only [Option.bind_some, h1, k1, Option.map_some, h6, k6]; rfl
  | basic n => intro im hg; exact ⟨_, im, rfl, hg, .refl _, by simp [imported], fun _ => rfl, rfl⟩
  | ellipsis a _ => intro im hg; exact ⟨_, im, rfl, hg, .refl _, by simp [imported], fun _ => rfl, rfl⟩
  | iface => intro im hg; exact ⟨_, im, rfl, hg, .refl _, by simp [imported], fun _ => rfl, rfl⟩
  | any => intro im hg; exact ⟨_, im, rfl, hg, .refl _, by simp [imported], fun _ => rfl, rfl⟩
  | func => intro im hg; exact ⟨_, im, rfl, hg, .refl _, by simp [imported], fun _ => rfl, rfl⟩
  | struct => intro im hg; exact ⟨_, im, rfl, hg, .refl _, by simp [imported], fun _ => rfl, rfl⟩
  | generic a b _ _ => intro im hg; exact ⟨_, im, rfl, hg, .refl _, by simp [imported], fun _ => rfl, rfl⟩
  | param n => intro im hg; exact ⟨_, im, rfl, hg, .refl _, by simp [imported], fun _ => rfl, rfl⟩

private theorem step_spec (im : Imports) (op : Op) (hg : Good im) : ∃ im', step im op = some im' ∧ Good im' ∧ Ext im im' := by
  cases op with
  | addPackage p =>
    obtain ⟨n, im', h1, h2, h3, _⟩ := addPackage_spec im p hg
    exact ⟨im', by simp [step, h1], h2, h3⟩
  | addType t =>
    obtain ⟨im', h1, h2, h3, _⟩ := addType_spec t im hg
    exact ⟨im', h1, h2, h3⟩
  | nameOf t =>
    obtain ⟨s, im', h1, h2, h3, _⟩ := nameOf_spec t im hg
    exact ⟨im', by simp [step, h1], h2, h3⟩

private theorem run_spec (ops : List Op) : ∀ im, Good im → ∃ im', ops.foldlM step im = some im' ∧ Good im' ∧ Ext im im' := by
  induction ops with
  | nil => intro im hg; exact ⟨im, rfl, hg, .refl _⟩
  | cons op ops ih =>
    intro im hg
    obtain ⟨im1, h1, g1, e1⟩ := step_spec im op hg
    obtain ⟨im2, h2, g2, e2⟩ := ih im1 g1
    exact ⟨im2, by simp [List.foldlM_cons, h1, h2], g2, e1.trans e2⟩

private theorem good_new (l : Name) : Good { localPackage := l } :=
  ⟨by simp, by simp, by simp, by simp, by simp [declarations]⟩

/-- C28: whatever calls were made before, adding a package ends and gives it a name; adding it again later,
after any further calls, gives the same name; different packages get different names. -/
theorem C28_names_unique_and_stable (localPackage : Name) (before between : List Op) (p q : Name)
    (hp : p ≠ localPackage) (hq : q ≠ localPackage) :
    ∃ im n im1 im2 m im3,
      run localPackage before = some im ∧ addPackage im p = some (n, im1) ∧
      between.foldlM step im1 = some im2 ∧ addPackage im2 q = some (m, im3) ∧
      (p = q ↔ n = m) := by
  obtain ⟨im, h1, g1, e1⟩ := run_spec before _ (good_new localPackage)
  obtain ⟨n, im1, h2, g2, e2, _, l2⟩ := addPackage_spec im p g1
  obtain ⟨im2, h3, g3, e3⟩ := run_spec between im1 g2
  obtain ⟨m, im3, h4, g4, e4, _, l4⟩ := addPackage_spec im2 q g3
  refine ⟨im, n, im1, im2, m, im3, h1, h2, h3, h4, ?_⟩
  have hl1 : im.localPackage = localPackage := e1.1
  have hl3 : im2.localPackage = localPackage := by rw [e3.1, e2.1, hl1]
  have k2 := e4.2 _ _ (e3.2 _ _ (l2 (by rw [hl1]; exact hp)))
  have k4 := l4 (by rw [hl3]; exact hq)
  constructor
  · rintro rfl; rw [k2] at k4; exact Option.some.inj k4
  · rintro rfl
    have m1 := lookup_some_mem k2
    have m2 := lookup_some_mem k4
    have hnd := g4.names
    have : ∀ (l : List (Name × Name)), (l.map (·.2)).Nodup → (p, n) ∈ l → (q, n) ∈ l → p = q := by
      intro l
      induction l with
      | nil => simp
      | cons x l ih =>
        intro hn h1 h2
        simp only [List.map_cons, List.nodup_cons] at hn
        rcases List.mem_cons.1 h1 with h1 | h1 <;> rcases List.mem_cons.1 h2 with h2 | h2
        · rw [← h1] at h2; exact (Prod.mk.inj h2).1.symm
        · exact absurd (List.mem_map.2 ⟨_, h2, by rw [← h1]⟩) hn.1
        · exact absurd (List.mem_map.2 ⟨_, h1, by rw [← h2]⟩) hn.1
        · exact ih hn.2 h1 h2
    exact this _ hnd m1 m2

/-- C28: the import declarations printed in the end name every package at most once, make all of them
available under different names, under exactly the names that were handed out, and do not import the
package being generated. -/
theorem C28_declarations (localPackage : Name) (ops : List Op) (im : Imports) (h : run localPackage ops = some im) :
    ((declarations im).map (·.1)).Nodup ∧
    ((declarations im).map declaredName).Nodup ∧
    localPackage ∉ (declarations im).map (·.1) ∧
    (∀ p, p ≠ localPackage → ∀ n im', addPackage im p = some (n, im') →
      (p ∈ (declarations im).map (·.1) ↔ ∃ d ∈ declarations im, d.1 = p ∧ declaredName d = n)) := by
  obtain ⟨im', h1, g, e⟩ := run_spec ops _ (good_new localPackage)
  have : im = im' := by
    have h2 : ops.foldlM step { localPackage := localPackage } = some im := h
    rw [h1] at h2; exact (Option.some.inj h2).symm
  subst this
  have hl : im.localPackage = localPackage := e.1
  have hd := g.decl
  have k1 : ((declarations im).map (·.1)).Perm (im.packages.map (·.1)) := by
    have := hd.map (·.1)
    rw [List.map_map] at this
    exact this
  have k2 : ((declarations im).map declaredName).Perm (im.packages.map (·.2)) := by
    have := hd.map (·.2)
    rw [List.map_map] at this
    exact this
  refine ⟨k1.nodup_iff.2 g.keys, k2.nodup_iff.2 g.names, ?_, ?_⟩
  · intro hm; exact g.notLocal (hl ▸ k1.mem_iff.1 hm)
  · intro p hp n im' ha
    constructor
    · intro hm
      have hm2 := k1.mem_iff.1 hm
      cases hlk : im.packages.lookup p with
      | none => exact absurd hm2 (lookup_none_iff.1 hlk)
      | some n' =>
        have hpl : p ≠ im.localPackage := hl ▸ hp
        simp [addPackage, hpl, hlk] at ha
        have := hd.mem_iff.2 (lookup_some_mem hlk)
        obtain ⟨d, hd1, hd2⟩ := List.mem_map.1 this
        exact ⟨d, hd1, congrArg Prod.fst hd2, by rw [← ha.1]; exact congrArg Prod.snd hd2⟩
    · rintro ⟨d, h1, rfl, _⟩; exact List.mem_map_of_mem h1

/-- The text before the first occurrence of `c`, or all of it. -/
private theorem takeWhile_iff (c : Char) (l t : Name) :
    l.takeWhile (· != c) = t ↔ c ∉ t ∧ (l = t ∨ ∃ rest, l = t ++ c :: rest) := by
  induction l generalizing t with
  | nil =>
    constructor
    · rintro rfl; exact ⟨by simp, .inl rfl⟩
    · rintro ⟨-, h | ⟨r, h⟩⟩
      · exact h
      · cases t <;> simp at h
  | cons d l ih =>
    by_cases hd : d = c
    · subst hd
      have e : (d :: l).takeWhile (· != d) = [] := by simp
      rw [e]
      constructor
      · rintro rfl; exact ⟨by simp, .inr ⟨l, rfl⟩⟩
      · rintro ⟨h1, h | ⟨r, h⟩⟩
        · rw [← h] at h1; simp at h1
        · cases t with
          | nil => rfl
          | cons x t => rw [← (List.cons.inj h).1] at h1; simp at h1
    · have e : (d :: l).takeWhile (· != c) = d :: l.takeWhile (· != c) := by simp [List.takeWhile_cons, hd]
      rw [e]
      constructor
      · rintro rfl
        obtain ⟨h1, h2⟩ := (ih _).1 rfl
        refine ⟨by simpa [Ne.symm hd] using h1, ?_⟩
        rcases h2 with h | ⟨r, h⟩
        · exact .inl (congrArg _ h)
        · exact .inr ⟨r, congrArg (d :: ·) h⟩
      · rintro ⟨h1, h2⟩
        cases t with
        | nil =>
          rcases h2 with h | ⟨r, h⟩
          · cases h
          · exact absurd (List.cons.inj h).1 hd
        | cons x t =>
          have h1' : c ∉ t := fun h => h1 (List.mem_cons_of_mem _ h)
          rcases h2 with h | ⟨r, h⟩
          · obtain ⟨rfl, h'⟩ := List.cons.inj h
            rw [(ih t).2 ⟨h1', .inl h'⟩]
          · obtain ⟨rfl, h'⟩ := List.cons.inj h
            rw [(ih t).2 ⟨h1', .inr ⟨r, h'⟩⟩]

/-- C28, C56: an import declaration without a name makes the package available under the part of its path
after the last slash, or the whole path if it has none. -/
theorem C28_default_name (path n : Name) :
    declaredName (path, none) = n ↔ '/' ∉ n ∧ (path = n ∨ ∃ dir, path = dir ++ '/' :: n) := by
  have h := takeWhile_iff '/' path.reverse n.reverse
  have e : declaredName (path, none) = n ↔ path.reverse.takeWhile (· != '/') = n.reverse := by
    show (path.reverse.takeWhile (· != '/')).reverse = n ↔ _
    constructor
    · intro h; rw [← h, List.reverse_reverse]
    · intro h; rw [h, List.reverse_reverse]
  rw [e, h]
  refine and_congr (by simp) (or_congr ⟨fun h => ?_, fun h => by rw [h]⟩ ⟨?_, ?_⟩)
  · rw [← List.reverse_reverse path, h, List.reverse_reverse]
  · rintro ⟨r, h⟩
    exact ⟨r.reverse, by rw [← List.reverse_reverse path, h]; simp⟩
  · rintro ⟨d, rfl⟩; exact ⟨d.reverse, by simp⟩

example : declaredName ("github.com/example/app/user".toList, none) = "user".toList := by decide +kernel

/-- C56: a plain type is written with, for each package it mentions, the name under which the printed
declarations import that package, also after further calls; the local package is not qualified. -/
theorem C56_type_names_refer_to_imports_partial (localPackage : Name) (before after : List Op) (t : Ty) (ht : t.plain) :
    ∃ im s im1 im2, run localPackage before = some im ∧ nameOf im t = some (s, im1) ∧
      after.foldlM step im1 = some im2 ∧
      ∃ q : Name → Option Name, s = t.render q ∧
        (∀ p ∈ t.packages, p = localPackage → q p = none) ∧
        (∀ p ∈ t.packages, p ≠ localPackage → ∃ n, q p = some n ∧ ∃ d ∈ declarations im2, d.1 = p ∧ declaredName d = n) := by
  obtain ⟨im, h1, g1, e1⟩ := run_spec before _ (good_new localPackage)
  obtain ⟨s, im1, h2, g2, e2, p2, _, r2⟩ := nameOf_spec t im g1
  obtain ⟨im2, h3, g3, e3⟩ := run_spec after im1 g2
  have hl1 : im.localPackage = localPackage := e1.1
  have hl2 : im1.localPackage = localPackage := by rw [e2.1, hl1]
  have himp : ∀ t : Ty, t.plain → imported t = t.packages := by
    intro t
    induction t with
    | map k v ihk ihv => intro h; simp [imported, Ty.packages, ihk h.1, ihv h.2]
    | slice a ih => intro h; simp [imported, Ty.packages, ih h]
    | pointer a ih => intro h; simp [imported, Ty.packages, ih h]
    | chan a ih => intro h; simp [imported, Ty.packages, ih h]
    | recv a ih => intro h; simp [imported, Ty.packages, ih h]
    | send a ih => intro h; simp [imported, Ty.packages, ih h]
    | _ => intro h; first | rfl | exact absurd h (by simp [Ty.plain])
  refine ⟨im, s, im1, im2, h1, h2, h3, ref im1, r2, ?_, ?_⟩
  · intro p _ hp; simp [ref, hl2, hp]
  · intro p hp hne
    rw [← himp t ht] at hp
    obtain ⟨n, hn⟩ := p2 p hp (hl1 ▸ hne)
    refine ⟨n, by simp [ref, hl2, hne, hn], ?_⟩
    have := g3.decl.mem_iff.2 (lookup_some_mem (e3.2 _ _ hn))
    obtain ⟨d, hd1, hd2⟩ := List.mem_map.1 this
    exact ⟨d, hd1, congrArg Prod.fst hd2, congrArg Prod.snd hd2⟩

/-- The restriction to plain types is needed: a variadic argument of a type from another package is printed
with a package name that no declaration imports. -/
theorem C56_variadic_type_not_imported_refuted :
    ∃ (t : Ty) (p s : Name) (im : Imports), p ∈ t.packages ∧ p ≠ ['m', 'e'] ∧
      nameOf { localPackage := ['m', 'e'] } t = some (s, im) ∧ declarations im = [] :=
  ⟨.ellipsis (.user ['a', '/', 'x'] ['T']), ['a', '/', 'x'], _, _, by decide, by decide, rfl, rfl⟩

/-! ### Concrete cases -/

example : (run ['m', 'e'] [.addPackage "a/x".toList, .addPackage "b/x".toList, .addPackage "a/x".toList,
    .nameOf (.slice (.user "c/x".toList "T".toList))]).map (·.packages) =
    some [("c/x".toList, "x3".toList), ("b/x".toList, "x2".toList), ("a/x".toList, "x".toList)] := by
  decide +kernel
example : (Ty.map (.basic ['i']) (.slice (.user ['a'] ['T']))).plain := ⟨trivial, trivial⟩
example : contains (some ⟨[(['F'], ⟨['F'], [], []⟩), (['G'], ⟨['G'], [⟨['x'], .any⟩], []⟩)], by decide⟩)
    (some ⟨[(['G'], ⟨['G'], [⟨['y'], .any⟩], []⟩)], by decide⟩) = true := by decide

end Verif.GoCode
