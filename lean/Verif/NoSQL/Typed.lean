import Verif.NoSQL.CollProps
/-
Collections that hold the documents of one Go struct: what the operations do to the list of structs.
-/
set_option linter.unusedSectionVars false
namespace Verif.NoSQL
variable {F : Type} [Host F] {T : Type}

/-- How values of a Go type are stored: `bson.Marshal` and `bson.Unmarshal`. -/
structure Codec (F T : Type) where
  enc : T → Doc F
  dec : Doc F → T

/-- What is used of a codec: decoding gives back what was encoded, with or without the identifier the database adds, and the type has
no field `_id`. -/
structure Codec.Ok (c : Codec F T) : Prop where
  dec_enc : ∀ t, c.dec (c.enc t) = t
  dec_id : ∀ t n, c.dec ((kId, .oid n) :: c.enc t) = t
  no_id : ∀ t, kId ∉ (c.enc t).map (·.1)

/-- The document stands for the value. -/
def Codec.Row (c : Codec F T) (d : Doc F) (t : T) : Prop := d = c.enc t ∨ ∃ n, d = (kId, .oid n) :: c.enc t

/-- Every document stands for a value. -/
def Codec.Rows (c : Codec F T) (docs : List (Doc F)) : Prop := ∀ d ∈ docs, ∃ t, c.Row d t

/-- The values in a collection. -/
def Codec.rows (c : Codec F T) (docs : List (Doc F)) : List T := docs.map c.dec

/-- The query is the test `p` on values. -/
structure Codec.Asks (c : Codec F T) (q : Doc F) (p : T → Bool) : Prop where
  accepted : findMany [] q = .ok []
  answer : ∀ d t, c.Row d t → matchesQuery q d = some (p t)

/-- The first value that passes the test is replaced. -/
def replaceFirst (p : T → Bool) (new : T) : List T → List T
  | [] => []
  | t :: l => if p t then new :: l else t :: replaceFirst p new l

theorem accepted_of {q d : Doc F} {b : Bool} (h : matchesQuery q d = some b) : findMany [] q = .ok [] := by
  rw [matchesQuery_eq] at h
  unfold findMany
  cases hp : parseFilter q with
  | none => rw [hp] at h; cases h
  | some f => rfl

namespace Codec
variable {c : Codec F T} {q : Doc F} {p : T → Bool} {docs : List (Doc F)}

theorem Ok.row (ok : c.Ok) {d : Doc F} {t : T} (h : c.Row d t) : c.dec d = t := by
  rcases h with rfl | ⟨n, rfl⟩
  · exact ok.dec_enc t
  · exact ok.dec_id t n

theorem Asks.defined (a : c.Asks q p) (h : c.Rows docs) : Defined q docs :=
  ⟨a.accepted, fun d hd => by obtain ⟨t, ht⟩ := h d hd; rw [a.answer d t ht]; rfl⟩

theorem Asks.hit (a : c.Asks q p) (ok : c.Ok) (h : c.Rows docs) : ∀ d ∈ docs, hit q d = p (c.dec d) := by
  intro d hd
  obtain ⟨t, ht⟩ := h d hd
  rw [NoSQL.hit, a.answer d t ht, ok.row ht]
  cases p t <;> rfl

theorem Rows.sub {docs' : List (Doc F)} (h : c.Rows docs) (hs : ∀ d ∈ docs', d ∈ docs) : c.Rows docs' :=
  fun d hd => h d (hs d hd)

theorem Rows.nil : c.Rows [] := by intro d hd; cases hd

private theorem filter_rows (f : Doc F → Bool) (g : T → Bool) (docs : List (Doc F)) (h : ∀ d ∈ docs, f d = g (c.dec d)) :
    (docs.filter f).map c.dec = (docs.map c.dec).filter g := by
  induction docs with
  | nil => rfl
  | cons d ds ih =>
    simp only [List.map_cons, List.filter_cons, h d (by simp)]
    split <;> simp [ih (fun e he => h e (by simp [he]))]

private theorem find_rows (f : Doc F → Bool) (g : T → Bool) (docs : List (Doc F)) (h : ∀ d ∈ docs, f d = g (c.dec d)) :
    (docs.find? f).map c.dec = (docs.map c.dec).find? g := by
  induction docs with
  | nil => rfl
  | cons d ds ih =>
    simp only [List.map_cons, List.find?_cons, h d (by simp)]
    split
    · rfl
    · exact ih (fun e he => h e (by simp [he]))

private theorem erase_rows (f : Doc F → Bool) (g : T → Bool) (docs : List (Doc F)) (h : ∀ d ∈ docs, f d = g (c.dec d)) :
    (docs.eraseP f).map c.dec = (docs.map c.dec).eraseP g := by
  induction docs with
  | nil => rfl
  | cons d ds ih =>
    simp only [List.map_cons, List.eraseP_cons, h d (by simp)]
    cases g (c.dec d)
    · simp [ih (fun e he => h e (by simp [he]))]
    · simp

/-- `FindMany`. -/
theorem find_many (a : c.Asks q p) (ok : c.Ok) (h : c.Rows docs) :
    ∃ ds, findMany docs q = .ok ds ∧ ds.map c.dec = (c.rows docs).filter p :=
  ⟨_, C35_find_many q docs (a.defined h), filter_rows _ _ docs (a.hit ok h)⟩

/-- `FindOne`. -/
theorem find_one (a : c.Asks q p) (ok : c.Ok) (h : c.Rows docs) :
    ∃ d, findOne docs q = .ok d ∧ d.map c.dec = (c.rows docs).find? p :=
  ⟨_, (C35_find_one q docs (a.defined h)).1, find_rows _ _ docs (a.hit ok h)⟩

/-- `DeleteOne`. -/
theorem delete_one (a : c.Asks q p) (ok : c.Ok) (h : c.Rows docs) :
    ∃ docs', deleteOne docs q = (docs', .ok ()) ∧ c.Rows docs' ∧ c.rows docs' = (c.rows docs).eraseP p :=
  ⟨_, C36_delete_one q docs (a.defined h), h.sub fun _ hd => List.mem_of_mem_eraseP hd, erase_rows _ _ docs (a.hit ok h)⟩

/-- `DeleteMany`. -/
theorem delete_many (a : c.Asks q p) (ok : c.Ok) (h : c.Rows docs) :
    ∃ docs', deleteMany docs q = (docs', .ok ()) ∧ c.Rows docs' ∧ c.rows docs' = (c.rows docs).filter fun t => !p t :=
  ⟨_, C36_delete_many q docs (a.defined h), h.sub fun _ hd => (List.mem_filter.1 hd).1,
    filter_rows _ (fun t => !p t) docs (fun d hd => by rw [a.hit ok h d hd])⟩

/-- `InsertOne`. -/
theorem insert_one (ok : c.Ok) (h : c.Rows docs) (t : T) (newId : Nat) :
    ∃ docs', insertOne docs (.obj (some (c.enc t))) newId = (docs', .ok ()) ∧ c.Rows docs' ∧ c.rows docs' = c.rows docs ++ [t] := by
  obtain ⟨d', h1, -, h2, -⟩ := C37_insert_one docs (.obj (some (c.enc t))) (c.enc t) newId (Or.inr rfl)
  have e := h2 (ok.no_id t)
  subst e
  refine ⟨_, h1, ?_, ?_⟩
  · intro d hd
    rcases List.mem_append.1 hd with hd | hd
    · exact h d hd
    · rw [List.mem_singleton.1 hd]; exact ⟨t, Or.inr ⟨newId, rfl⟩⟩
  · simp [rows, ok.dec_id]

private theorem replace_mid (pre : List T) (old new : T) (post : List T) (hp : ∀ t ∈ pre, p t = false) (ho : p old = true) :
    replaceFirst p new (pre ++ old :: post) = pre ++ new :: post := by
  induction pre with
  | nil => simp [replaceFirst, ho]
  | cons t l ih => simp [replaceFirst, hp t (by simp), ih (fun u hu => hp u (by simp [hu]))]

theorem rows_mem (h : t ∈ c.rows docs) : ∃ d ∈ docs, c.dec d = t := by simpa [rows] using h

/-- `ReplaceOne`. -/
theorem replace_one (a : c.Asks q p) (ok : c.Ok) (h : c.Rows docs) (t : T) :
    ∃ docs', replaceOne docs q (.obj (some (c.enc t))) = (docs', (if (c.rows docs).any p then 1 else 0), .ok) ∧ c.Rows docs' ∧
      c.rows docs' = replaceFirst p t (c.rows docs) := by
  have hh := a.hit ok h
  rcases C61_replace_one q docs (.obj (some (c.enc t))) (c.enc t) (a.defined h) rfl with
    ⟨h1, h2⟩ | ⟨pre, old, post, h1, h2, h3, h4⟩
  · have hn : ∀ u ∈ c.rows docs, p u = false := by
      intro u hu
      obtain ⟨d, hd, rfl⟩ := rows_mem hu
      rw [← hh d hd, h1 d hd]
    refine ⟨docs, ?_, h, ?_⟩
    · rw [h2, if_neg]
      intro e
      obtain ⟨u, hu, e⟩ := List.any_eq_true.1 e
      rw [hn u hu] at e; cases e
    · generalize c.rows docs = l at hn
      induction l with
      | nil => rfl
      | cons u l ih => rw [replaceFirst, hn u (by simp), ← ih (fun v hv => hn v (by simp [hv]))]; rfl
  · subst h1
    have ho : p (c.dec old) = true := by rw [← hh old (by simp), h3]
    refine ⟨pre ++ c.enc t :: post, ?_, ?_, ?_⟩
    · rw [h4, if_pos]
      refine List.any_eq_true.2 ⟨c.dec old, ?_, ho⟩
      simp [rows]
    · intro d hd
      rcases List.mem_append.1 hd with hd | hd
      · exact h d (by simp [hd])
      · rcases List.mem_cons.1 hd with rfl | hd
        · exact ⟨t, Or.inl rfl⟩
        · exact h d (by simp [hd])
    · simp only [rows, List.map_append, List.map_cons, ok.dec_enc]
      rw [replace_mid]
      · intro u hu
        obtain ⟨d, hd, rfl⟩ := List.mem_map.1 hu
        rw [← hh d (by simp [hd]), h2 d hd]
      · exact ho

/-- `Upsert`. -/
theorem upsert_one (a : c.Asks q p) (ok : c.Ok) (h : c.Rows docs) (t : T) (newId : Nat) :
    ∃ docs', upsert docs q (.obj (some (c.enc t))) newId = (docs', (c.rows docs).any p, .ok) ∧ c.Rows docs' ∧
      c.rows docs' = if (c.rows docs).any p then replaceFirst p t (c.rows docs) else c.rows docs ++ [t] := by
  obtain ⟨docs', h1, h2, h3⟩ := replace_one a ok h t
  cases ha : (c.rows docs).any p with
  | true =>
    refine ⟨docs', ?_, h2, by simp [h3]⟩
    simp [upsert, h1, ha]
  | false =>
    have hn : replaceFirst p t (c.rows docs) = c.rows docs := by
      have hn : ∀ u ∈ c.rows docs, p u = false := by
        intro u hu
        cases hp : p u with
        | false => rfl
        | true => rw [List.any_eq_true.2 ⟨u, hu, hp⟩] at ha; cases ha
      generalize c.rows docs = l at hn
      induction l with
      | nil => rfl
      | cons u l ih => rw [replaceFirst, hn u (by simp), ih (fun v hv => hn v (by simp [hv]))]; rfl
    obtain ⟨docs'', i1, i2, i3⟩ := insert_one ok h2 t newId
    refine ⟨docs'', ?_, i2, ?_⟩
    · simp [upsert, h1, ha, i1]
    · simp [i3, h3, hn]

/-! ### Queries -/

/-- The empty query. -/
theorem asks_all (c : Codec F T) : c.Asks [] fun _ => true := ⟨rfl, fun _ _ _ => rfl⟩

theorem row_field {k : Name} (hk : k ≠ kId) {d : Doc F} {t : T} (h : c.Row d t) : field k d = field k (c.enc t) := by
  rcases h with rfl | ⟨n, rfl⟩
  · rfl
  · rw [field, if_neg (Ne.symm hk)]

/-- A string field. -/
theorem asks_str {k : Name} (hp : Plain k) (hk : k ≠ kId) {get : T → Name} (hg : ∀ t, field k (c.enc t) = some (.str (get t)))
    (s : Name) : c.Asks [(k, .str s)] fun t => s == get t := by
  have : ∀ d t, c.Row d t → matchesQuery [(k, .str s)] d = some (s == get t) := by
    intro d t h
    rw [C34_field_partial k hp _ rfl, row_field hk h, hg]
    rfl
  refine ⟨?_, this⟩
  exact accepted_of (d := ([] : Doc F)) (C34_field_partial k hp _ rfl _)

/-- An integer field. -/
theorem asks_int {k : Name} (hp : Plain k) (hk : k ≠ kId) {get : T → Int} {kd : T → IntKind}
    (hg : ∀ t, field k (c.enc t) = some (.int (kd t) (get t))) (kl : IntKind) (n : Int) :
    c.Asks [(k, .int kl n)] fun t => n == get t := by
  have : ∀ d t, c.Row d t → matchesQuery [(k, .int kl n)] d = some (n == get t) := by
    intro d t h
    rw [C34_field_partial k hp _ rfl, row_field hk h, hg]
    rfl
  refine ⟨?_, this⟩
  exact accepted_of (d := ([] : Doc F)) (C34_field_partial k hp _ rfl _)

/-- Two queries in one. -/
theorem asks_both {q' : Doc F} {p' : T → Bool} (a : c.Asks q p) (b : c.Asks q' p') (t0 : T) :
    c.Asks (q ++ q') fun t => p t && p' t := by
  have : ∀ d t, c.Row d t → matchesQuery (q ++ q') d = some (p t && p' t) := by
    intro d t h
    rw [C31_several_conditions _ _ _ (by rw [a.answer d t h]; rfl) (by rw [b.answer d t h]; rfl), a.answer d t h, b.answer d t h]
    cases p t <;> cases p' t <;> rfl
  exact ⟨accepted_of (this (c.enc t0) t0 (Or.inl rfl)), this⟩

/-- `$and` of two queries. -/
theorem asks_and {q' : Doc F} {p' : T → Bool} (a : c.Asks q p) (b : c.Asks q' p') (t0 : T) (sp : List (Value F)) :
    c.Asks [(kAnd, .arr [.doc q, .doc q'] sp)] fun t => p t && p' t := by
  have : ∀ d t, c.Row d t → matchesQuery [(kAnd, .arr [.doc q, .doc q'] sp)] d = some (p t && p' t) := by
    intro d t h
    have := C31_and [q, q'] sp d (by
      intro x hx
      simp only [List.mem_cons, List.not_mem_nil, or_false] at hx
      rcases hx with rfl | rfl
      · rw [a.answer d t h]; rfl
      · rw [b.answer d t h]; rfl)
    rw [show ([q, q'].map Value.doc : List (Value F)) = [.doc q, .doc q'] from rfl] at this
    rw [this]
    simp only [List.all_cons, List.all_nil, a.answer d t h, b.answer d t h]
    cases p t <;> cases p' t <;> rfl
  exact ⟨accepted_of (this (c.enc t0) t0 (Or.inl rfl)), this⟩

/-- `$in` on a string field. -/
theorem asks_in {k : Name} (hp : Plain k) (hk : k ≠ kId) {get : T → Name} (hg : ∀ t, field k (c.enc t) = some (.str (get t)))
    (ss : List Name) (sp : List (Value F)) : c.Asks [(k, .doc [(kIn, .arr (ss.map .str) sp)])] fun t => ss.contains (get t) := by
  have hl : ∀ v ∈ ss.map (Value.str (F := F)), literal v = true := by
    intro v hv
    obtain ⟨s, -, rfl⟩ := List.mem_map.1 hv
    rfl
  have : ∀ d t, c.Row d t → matchesQuery [(k, .doc [(kIn, .arr (ss.map .str) sp)])] d = some (ss.contains (get t)) := by
    intro d t h
    rw [C59_in k (plain_selector hp) _ _ hl, valuesAt_plain hp, row_field hk h, hg]
    have hs : ∀ l : List Name, (l.map (Value.str (F := F))).any (fun v => same v (.str (get t))) = l.contains (get t) := by
      intro l
      induction l with
      | nil => rfl
      | cons s l ih =>
        rw [List.map_cons, List.any_cons, ih, List.contains_cons]
        congr 1
        simp only [same]
        rw [Bool.eq_iff_iff, beq_iff_eq, beq_iff_eq]
        exact eq_comm
    rw [show (some (Value.str (F := F) (get t))).toList.flatMap spread = [.str (get t)] from rfl, List.any_cons, List.any_nil, hs,
      Bool.or_false]
  refine ⟨?_, this⟩
  exact accepted_of (d := ([] : Doc F)) (C59_in k (plain_selector hp) _ _ hl _)

end Codec
end Verif.NoSQL
