import Verif.NoSQL.CollProps
/-
Collections whose documents carry a string in one field, used as their key.
-/
namespace Verif.NoSQL
variable {F : Type} [Host F]

/-- The query for a key. -/
abbrev byKey (k c : Name) : Doc F := [(k, .str c)]

/-- The document that a lookup of the key finds. -/
def get (k : Name) (items : List (Doc F)) (c : Name) : Option (Doc F) := items.find? (hit (byKey k c))

/-- Every document has a key. -/
def Keyed (k : Name) (items : List (Doc F)) : Prop := ∀ d ∈ items, ∃ s, field k d = some (.str s)

/-- No two documents have the same key. -/
def OnePerKey (k : Name) (items : List (Doc F)) : Prop :=
  items.Pairwise fun a b => ∀ s, field k a = some (.str s) → field k b ≠ some (.str s)

theorem hit_key {k : Name} (hk : Plain k) {s : Name} {d : Doc F} (h : field k d = some (.str s)) (c : Name) :
    hit (byKey k c) d = decide (c = s) := by
  rw [hit, C34_field_partial k hk _ rfl, h]
  simp only [same]
  by_cases hc : c = s <;> simp [hc]

theorem defined_key {k : Name} (hk : Plain k) (c : Name) (items : List (Doc F)) : Defined (byKey k c) items := by
  have h : ∀ d : Doc F, (matchesQuery (byKey k c) d).isSome := by
    intro d; rw [C34_field_partial k hk _ rfl]; rfl
  refine ⟨?_, fun d _ => h d⟩
  have := h []
  rw [matchesQuery_eq] at this
  unfold findMany
  cases hp : parseFilter (byKey k c : Doc F) with
  | none => rw [hp] at this; cases this
  | some f => rfl

theorem findOne_key {k : Name} (hk : Plain k) (items : List (Doc F)) (c : Name) :
    findOne items (byKey k c) = .ok (get k items c) := (C35_find_one _ items (defined_key hk c items)).1

theorem get_key {k : Name} (hk : Plain k) {items : List (Doc F)} (hi : Keyed k items) {c : Name} {d : Doc F}
    (h : get k items c = some d) : d ∈ items ∧ field k d = some (.str c) := by
  have hm := List.mem_of_find?_eq_some h
  refine ⟨hm, ?_⟩
  obtain ⟨s, hs⟩ := hi d hm
  have := List.find?_some h
  rw [hit_key hk hs, decide_eq_true_eq] at this
  rw [hs, this]

private theorem get_mid {k : Name} (hk : Plain k) (pre post : List (Doc F)) (old d : Doc F) (c : Name)
    (hd : field k d = some (.str c)) (ho : field k old = some (.str c)) (hpre : ∀ e ∈ pre, hit (byKey k c) e = false) :
    get k (pre ++ d :: post) c = some d ∧
    ∀ c', c' ≠ c → get k (pre ++ d :: post) c' = get k (pre ++ old :: post) c' := by
  constructor
  · unfold get
    rw [List.find?_append, List.find?_eq_none.2 (by intro e he; simp [hpre e he])]
    simp [List.find?_cons, hit_key hk hd]
  · intro c' hc
    unfold get
    simp [List.find?_append, List.find?_cons, hit_key hk hd, hit_key hk ho, hc]

private theorem one_mid {k : Name} (pre post : List (Doc F)) (old d : Doc F) (c : Name)
    (hd : field k d = some (.str c)) (ho : field k old = some (.str c)) (h : OnePerKey k (pre ++ old :: post)) :
    OnePerKey k (pre ++ d :: post) := by
  unfold OnePerKey at *
  rw [List.pairwise_append, List.pairwise_cons] at *
  refine ⟨h.1, ⟨?_, h.2.1.2⟩, ?_⟩
  · intro b hb s hs
    refine h.2.1.1 b hb s ?_
    rw [hd] at hs; rw [ho]; exact hs
  · intro a ha b hb s hs
    rcases List.mem_cons.1 hb with rfl | hb
    · have := h.2.2 a ha old (by simp) s hs
      rw [ho] at this; rw [hd]; exact this
    · exact h.2.2 a ha b (by simp [hb]) s hs

private theorem keyed_mid {k : Name} (pre post : List (Doc F)) (old d : Doc F) (c : Name)
    (hd : field k d = some (.str c)) (h : Keyed k (pre ++ old :: post)) : Keyed k (pre ++ d :: post) := by
  intro e he
  rcases List.mem_append.1 he with he | he
  · exact h e (by simp [he])
  · rcases List.mem_cons.1 he with rfl | he
    · exact ⟨c, hd⟩
    · exact h e (by simp [he])

private theorem get_none {k : Name} {items : List (Doc F)} {c : Name} (h : get k items c = none) :
    ∀ e ∈ items, hit (byKey k c) e = false := by
  intro e he
  have := List.find?_eq_none.1 h e he
  simpa using this

private theorem get_end {k : Name} (hk : Plain k) (items : List (Doc F)) (d : Doc F) (c : Name)
    (hd : field k d = some (.str c)) (hn : get k items c = none) :
    get k (items ++ [d]) c = some d ∧ ∀ c', c' ≠ c → get k (items ++ [d]) c' = get k items c' := by
  unfold get at *
  constructor
  · rw [List.find?_append, hn]
    simp [List.find?_cons, hit_key hk hd]
  · intro c' hc
    rw [List.find?_append]
    simp [List.find?_cons, hit_key hk hd, hc]

private theorem keyed_end {k : Name} {items : List (Doc F)} {d : Doc F} {c : Name}
    (hd : field k d = some (.str c)) (h : Keyed k items) : Keyed k (items ++ [d]) := by
  intro e he
  rcases List.mem_append.1 he with he | he
  · exact h e he
  · rw [List.mem_singleton.1 he]; exact ⟨c, hd⟩

private theorem one_end {k : Name} (hk : Plain k) {items : List (Doc F)} {d : Doc F} {c : Name}
    (hd : field k d = some (.str c)) (hn : get k items c = none) (h : OnePerKey k items) :
    OnePerKey k (items ++ [d]) := by
  unfold OnePerKey at *
  rw [List.pairwise_append]
  refine ⟨h, List.pairwise_singleton _ _, ?_⟩
  intro a ha b hb s hs
  rw [List.mem_singleton.1 hb, hd]
  intro e
  cases e
  have := get_none hn a ha
  rw [hit_key hk hs] at this
  simp at this

/-- Inserting a document with a new key. -/
theorem insertOne_key {k : Name} (hk : Plain k) (hkid : k ≠ kId) (items : List (Doc F)) (hi : Keyed k items)
    (ho : OnePerKey k items) (c : Name) (d : Doc F) (hd : field k d = some (.str c)) (hid : kId ∉ d.map (·.1)) (newId : Nat)
    (hn : get k items c = none) :
    ∃ items', insertOne items (.obj (some d)) newId = (items', .ok ()) ∧ Keyed k items' ∧ OnePerKey k items' ∧
      get k items' c = some ((kId, .oid newId) :: d) ∧ ∀ c', c' ≠ c → get k items' c' = get k items c' := by
  obtain ⟨d', h1, -, h2, -⟩ := C37_insert_one items (.obj (some d)) d newId (Or.inr rfl)
  have e := h2 hid
  subst e
  have hd' : field k ((kId, .oid newId) :: d) = some (.str c) := by
    rw [field, if_neg (Ne.symm hkid), hd]
  obtain ⟨g1, g2⟩ := get_end hk items _ c hd' hn
  exact ⟨_, h1, keyed_end hd' hi, one_end hk hd' hn ho, g1, g2⟩

/-- `Upsert` by key: the key now has the document (with an identifier if it is a new one), all other keys keep
theirs. -/
theorem upsert_key {k : Name} (hk : Plain k) (hkid : k ≠ kId) (items : List (Doc F)) (hi : Keyed k items)
    (ho : OnePerKey k items) (c : Name) (d : Doc F) (hd : field k d = some (.str c)) (hid : kId ∉ d.map (·.1)) (newId : Nat) :
    ∃ items' b d', upsert items (byKey k c) (.obj (some d)) newId = (items', b, .ok) ∧ Keyed k items' ∧
      OnePerKey k items' ∧ (d' = d ∨ d' = (kId, .oid newId) :: d) ∧ get k items' c = some d' ∧
      ∀ c', c' ≠ c → get k items' c' = get k items c' := by
  rcases C43_upsert (byKey k c) items (.obj (some d)) d newId (defined_key hk c items) rfl with
    ⟨h1, h2, -⟩ | ⟨pre, old, post, h1, h2, h3, h4⟩
  · have hn : get k items c = none := List.find?_eq_none.2 (by intro e he; simp [h1 e he])
    obtain ⟨items', e1, e2, e3, e4, e5⟩ := insertOne_key hk hkid items hi ho c d hd hid newId hn
    exact ⟨items', false, _, by rw [h2, e1], e2, e3, Or.inr rfl, e4, e5⟩
  · subst h1
    have hold : field k old = some (.str c) := by
      obtain ⟨s, hs⟩ := hi old (by simp)
      rw [hit_key hk hs, decide_eq_true_eq] at h3
      rw [hs, h3]
    obtain ⟨g1, g2⟩ := get_mid hk pre post old d c hd hold h2
    exact ⟨_, true, d, h4, keyed_mid pre post old d c hd hi, one_mid pre post old d c hd hold ho, Or.inl rfl, g1, g2⟩

/-- `ReplaceOne` by key. -/
theorem replaceOne_key {k : Name} (hk : Plain k) (items : List (Doc F)) (hi : Keyed k items)
    (ho : OnePerKey k items) (c : Name) (d : Doc F) (hd : field k d = some (.str c)) :
    (get k items c = none ∧ replaceOne items (byKey k c) (.obj (some d)) = (items, 0, .ok)) ∨
    ∃ items', replaceOne items (byKey k c) (.obj (some d)) = (items', 1, .ok) ∧ Keyed k items' ∧ OnePerKey k items' ∧
      get k items' c = some d ∧ (get k items c).isSome ∧ ∀ c', c' ≠ c → get k items' c' = get k items c' := by
  rcases C61_replace_one (byKey k c) items (.obj (some d)) d (defined_key hk c items) rfl with
    ⟨h1, h2⟩ | ⟨pre, old, post, h1, h2, h3, h4⟩
  · exact Or.inl ⟨List.find?_eq_none.2 (by intro e he; simp [h1 e he]), h2⟩
  · right
    subst h1
    have hold : field k old = some (.str c) := by
      obtain ⟨s, hs⟩ := hi old (by simp)
      rw [hit_key hk hs, decide_eq_true_eq] at h3
      rw [hs, h3]
    obtain ⟨g1, g2⟩ := get_mid hk pre post old d c hd hold h2
    obtain ⟨g3, -⟩ := get_mid hk pre post old old c hold hold h2
    exact ⟨_, h4, keyed_mid pre post old d c hd hi, one_mid pre post old d c hd hold ho, g1, by rw [g3]; rfl, g2⟩

private theorem keyed_sub {k : Name} {items l : List (Doc F)} (hl : List.Sublist l items) (h : Keyed k items) :
    Keyed k l := fun d hd => h d (hl.subset hd)

private theorem find_congr {α : Type} {p q : α → Bool} {l : List α} (h : ∀ a ∈ l, p a = q a) :
    l.find? p = l.find? q := by
  induction l with
  | nil => rfl
  | cons a l ih => rw [List.find?_cons, List.find?_cons, h a (by simp), ih (fun b hb => h b (by simp [hb]))]

/-- `DeleteMany` by key. -/
theorem deleteMany_key {k : Name} (hk : Plain k) (items : List (Doc F)) (hi : Keyed k items)
    (ho : OnePerKey k items) (c : Name) :
    ∃ items', deleteMany items (byKey k c) = (items', .ok ()) ∧ Keyed k items' ∧ OnePerKey k items' ∧
      get k items' c = none ∧ ∀ c', c' ≠ c → get k items' c' = get k items c' := by
  refine ⟨_, C36_delete_many _ items (defined_key hk c items), keyed_sub List.filter_sublist hi,
    List.Pairwise.sublist List.filter_sublist ho, ?_, ?_⟩
  · refine List.find?_eq_none.2 ?_
    intro e he
    have := (List.mem_filter.1 he).2
    simpa using this
  · intro c' hc
    unfold get
    rw [List.find?_filter]
    refine find_congr ?_
    intro d hd
    obtain ⟨s, hs⟩ := hi d hd
    rw [hit_key hk hs, hit_key hk hs]
    by_cases h : c' = s
    · have : c ≠ s := fun e => hc (h.trans e.symm)
      simp [h, this]
    · simp [h]

/-- `DeleteOne` by key. -/
theorem deleteOne_key {k : Name} (hk : Plain k) (items : List (Doc F)) (hi : Keyed k items)
    (ho : OnePerKey k items) (c : Name) :
    ∃ items', deleteOne items (byKey k c) = (items', .ok ()) ∧ Keyed k items' ∧ OnePerKey k items' ∧
      get k items' c = none ∧ ∀ c', c' ≠ c → get k items' c' = get k items c' := by
  refine ⟨_, C36_delete_one _ items (defined_key hk c items), keyed_sub List.eraseP_sublist hi,
    List.Pairwise.sublist List.eraseP_sublist ho, ?_, ?_⟩
  · induction items with
    | nil => rfl
    | cons d ds ih =>
      rw [List.eraseP_cons]
      cases hh : hit (byKey k c) d with
      | true =>
        refine List.find?_eq_none.2 ?_
        intro e he
        obtain ⟨s, hs⟩ := hi d (by simp)
        obtain ⟨t, ht⟩ := hi e (by simp [show e ∈ ds from he])
        rw [hit_key hk hs, decide_eq_true_eq] at hh
        rw [hit_key hk ht]
        have := (List.pairwise_cons.1 ho).1 e he s hs
        rw [ht] at this
        intro hc
        rw [decide_eq_true_eq] at hc
        exact this (by rw [← hh, ← hc])
      | false =>
        have := ih (fun e he => hi e (by simp [he])) (List.pairwise_cons.1 ho).2
        unfold get at *
        simp only [cond_false, List.find?_cons, hh]
        exact this
  · intro c' hc
    induction items with
    | nil => rfl
    | cons d ds ih =>
      rw [List.eraseP_cons]
      have ih := ih (fun e he => hi e (by simp [he])) (List.pairwise_cons.1 ho).2
      obtain ⟨s, hs⟩ := hi d (by simp)
      unfold get at *
      cases hh : hit (byKey k c) d with
      | true =>
        rw [hit_key hk hs, decide_eq_true_eq] at hh
        simp [List.find?_cons, hit_key hk hs, ← hh, hc]
      | false =>
        simp only [cond_false, List.find?_cons]
        rw [ih]

end Verif.NoSQL
