import Verif.NoSQL.CollProps
/-
C38-C42: updates.
-/
namespace Verif.NoSQL
variable {F : Type} [Host F]

/-! ### One entry -/

theorem update_entry (op k : Name) (v : Value F) (u : Update F) (h : parseUpdateEntry op k v = some u)
    (hop : op ∈ [kSet, kUnset, kInc, kPush, kPull, kAddToSet]) (d : Doc F) :
    updateDoc [(op, .doc [(k, v)])] d = (asDoc (u.apply (.doc d)).1, (u.apply (.doc d)).2) := by
  have : parseUpdate [(op, .doc [(k, v)])] = some [u] := by
    simp [parseUpdate, h, hop]
  rw [updateDoc_eq _ _ _ this]
  simp only [applyAll]
  cases hu : u.apply (.doc d) with
  | mk x o => cases o <;> rfl

private theorem updatePath_plain {k : Name} (hk : Plain k) (u : Update F) : updatePath k u = .field k true u := by
  simp [updatePath, splitDots_plain hk.noDot, pathPieces, hk.notNumber]

/-- The value of a field as an update sees it: null if it is missing. -/
private def before (k : Name) (d : Doc F) : Value F := (field k d).getD .null

/-- The document with one field given a value: replaced in place, or added at the end. -/
def put (k : Name) (v : Value F) (d : Doc F) : Doc F :=
  match d with
  | [] => [(k, v)]
  | (k', w) :: d => if k' = k then (k', v) :: d else (k', w) :: put k v d

omit [Host F] in
theorem put_eq (k : Name) (v : Value F) (d : Doc F) :
    put k v d = match field k d with
      | some _ => setField k v d
      | none => d ++ [(k, v)] := by
  induction d with
  | nil => rfl
  | cons e d ih =>
    obtain ⟨k', w⟩ := e
    simp only [put, field, setField, List.cons_append, ih]
    split
    · rfl
    · cases field k d <;> rfl

omit [Host F] in
/-- C38: `put` is what its description says: that field has the value, the others and their order are as
before. -/
theorem C38_put (k : Name) (v : Value F) (d : Doc F) :
    field k (put k v d) = some v ∧ (∀ k', k' ≠ k → field k' (put k v d) = field k' d) ∧
    (put k v d).map (·.1) = (if k ∈ d.map (·.1) then d.map (·.1) else d.map (·.1) ++ [k]) ∧
    (∀ e ∈ d, e.1 ≠ k → e ∈ put k v d) := by
  induction d with
  | nil => simp [put, field]; intro k' h; simp [Ne.symm h]
  | cons e d ih =>
    obtain ⟨k', w⟩ := e
    obtain ⟨i1, i2, i3, i4⟩ := ih
    by_cases hk : k' = k
    · subst hk
      refine ⟨by simp [put, field], ?_, by simp [put], ?_⟩
      · intro k'' h; simp [put, field, Ne.symm h]
      · intro e he hne
        rcases List.mem_cons.1 he with rfl | he
        · exact absurd rfl hne
        · simp [put, he]
    · refine ⟨by simp [put, field, hk, i1], ?_, ?_, ?_⟩
      · intro k'' h; simp only [put, if_neg hk, field]; split
        · rfl
        · exact i2 k'' h
      · simp only [put, if_neg hk, List.map_cons, i3, List.mem_cons, Ne.symm hk, false_or]
        split <;> simp
      · intro e he hne
        simp only [put, if_neg hk, List.mem_cons]
        rcases List.mem_cons.1 he with rfl | he
        · exact Or.inl rfl
        · exact Or.inr (i4 e he hne)

/-- An update of a top-level field: the operator is applied to the value of the field, null if missing. -/
private theorem apply_field (k : Name) (u : Update F) (d : Doc F) :
    (Update.field k true u).apply (.doc d) =
      match u.apply (before k d) with
      | (v, .ok) => (.doc (put k v d), .ok)
      | (v, o) => (match field k d with
        | some _ => .doc (setField k v d)
        | none => .doc d, o) := by
  simp only [Update.apply, before, put_eq]
  cases field k d with
  | some x =>
    simp only [Option.getD_some]
    cases u.apply x with
    | mk v o => cases o <;> rfl
  | none =>
    simp only [Option.getD_none, Bool.not_true, Bool.false_eq_true, if_false]
    cases u.apply .null with
    | mk v o => cases o <;> rfl

private theorem update_field (op k : Name) (hk : Plain k) (v : Value F) (u : Update F) (w : Value F)
    (h : parseUpdateEntry op k v = some (updatePath k u)) (hop : op ∈ [kSet, kUnset, kInc, kPush, kPull, kAddToSet])
    (d : Doc F) (hu : u.apply (before k d) = (w, .ok)) :
    updateDoc [(op, .doc [(k, v)])] d = (put k w d, .ok) := by
  rw [update_entry op k v _ h hop, updatePath_plain hk, apply_field, hu]
  rfl

omit [Host F] in
theorem setField_same (k : Name) (d : Doc F) (v : Value F) (h : field k d = some v) : setField k v d = d := by
  induction d with
  | nil => rfl
  | cons e d ih =>
    obtain ⟨k', w⟩ := e
    simp only [field] at h
    simp only [setField]
    split
    · rename_i hk; rw [if_pos hk] at h; cases h; rfl
    · rename_i hk; rw [if_neg hk] at h; rw [ih h]

private theorem update_field_fails (op k : Name) (hk : Plain k) (v : Value F) (u : Update F) (o : Outcome) (ho : o ≠ .ok)
    (h : parseUpdateEntry op k v = some (updatePath k u)) (hop : op ∈ [kSet, kUnset, kInc, kPush, kPull, kAddToSet])
    (d : Doc F) (hu : u.apply (before k d) = (before k d, o)) :
    updateDoc [(op, .doc [(k, v)])] d = (d, o) := by
  rw [update_entry op k v _ h hop, updatePath_plain hk, apply_field, hu]
  unfold before
  cases hf : field k d with
  | none => cases o <;> first | exact absurd rfl ho | rfl
  | some x =>
    cases o with
    | ok => exact absurd rfl ho
    | _ => simp [asDoc, setField_same k d x hf]

/-! ### C38: `$set` -/

/-- C38: `$set` of a top-level field to a value other than null stores the value (as BSON would) in that field
and changes nothing else (`C38_put`).  Missing from the full property: null (`C38_set_null_refuted`). -/
theorem C38_set_partial (k : Name) (hk : Plain k) (v w : Value F) (d : Doc F) (hv : normalise v = some w)
    (hw : w ≠ .null) : updateDoc [(kSet, .doc [(k, v)])] d = (put k w d, .ok) := by
  apply update_field kSet k hk v (.set w) w
  · simp [parseUpdateEntry, hv]
  · decide
  · cases w <;> first | exact absurd rfl hw | rfl

/-- C38 refuted: `$set` to null panics. -/
theorem C38_set_null_refuted (k : Name) (hk : Plain k) (d : Doc F) :
    (updateDoc [(kSet, .doc [(k, .null)])] d).2 = .panic := by
  rw [update_field_fails kSet k hk .null (.set .null) .panic (by simp)]
  · simp [parseUpdateEntry, normalise]
  · decide
  · rfl

mutual
private theorem storable_literal (v : Value F) (h : storable v = true) : literal v = true := by
  match v, h with
  | .null, _ => rfl
  | .bool _, _ => rfl
  | .int _ _, _ => rfl
  | .float _, _ => rfl
  | .str _, _ => rfl
  | .oid _, _ => rfl
  | .other _, _ => rfl
  | .doc d, h =>
    simp only [storable] at h
    simp only [literal]
    exact storableFields_literal d h
  | .arr _ _, h => simp [storable] at h
  | .bad, h => simp [storable] at h
private theorem storableFields_literal (d : List (Name × Value F)) (h : storableFields d = true) :
    literalFields d = true := by
  match d, h with
  | [], _ => rfl
  | (k, v) :: d, h =>
    simp only [storableFields, Bool.and_eq_true] at h
    simp only [literalFields, Bool.and_eq_true]
    exact ⟨⟨h.1.1.1, storable_literal v h.1.1.2⟩, storableFields_literal d h.2⟩
end

omit [Host F] in
private theorem normaliseFields_keys [Host F] (d e : Doc F) (h : normaliseFields d = some e) :
    e.map (·.1) = d.map (·.1) := by
  induction d generalizing e with
  | nil => simp only [normaliseFields, Option.some.injEq] at h; subst h; rfl
  | cons x d ih =>
    obtain ⟨k, v⟩ := x
    simp only [normaliseFields] at h
    cases hv : normalise v with
    | none => rw [hv] at h; cases h
    | some w =>
      rw [hv] at h
      obtain ⟨e', he, rfl⟩ := Option.map_eq_some_iff.1 h
      simp [ih e' he]

mutual
private theorem normalise_storable (v : Value F) (h : storable v = true) :
    ∃ w, normalise v = some w ∧ same v w = true ∧ (v ≠ .null → w ≠ .null) := by
  match v, h with
  | .null, _ => exact ⟨.null, rfl, rfl, fun h => h⟩
  | .bool b, _ => exact ⟨.bool b, rfl, by simp [same], by simp⟩
  | .int k n, _ =>
    simp only [normalise]
    split
    · exact ⟨_, rfl, by simp [same], by simp⟩
    · split
      · exact ⟨_, rfl, by simp [same], by simp⟩
      · exact ⟨_, rfl, by simp [same], by simp⟩
  | .float f, h => exact ⟨.float f, rfl, by simpa [same, storable] using h, by simp⟩
  | .str s, _ => exact ⟨.str s, rfl, by simp [same], by simp⟩
  | .oid n, _ => exact ⟨.oid n, rfl, by simp [same], by simp⟩
  | .other n, _ => exact ⟨.other n, rfl, by simp [same], by simp⟩
  | .doc d, h =>
    simp only [storable] at h
    obtain ⟨e, he, hs⟩ := normaliseFields_storable d h
    refine ⟨.doc e, by simp [normalise, he], ?_, by simp⟩
    simp only [same, Bool.and_eq_true]
    refine ⟨by simpa using hs [] (by simp), ?_⟩
    rw [← normaliseFields_keys d e he]
    simp only [List.all_eq_true, List.contains_iff_mem]
    intro x hx
    exact List.mem_map_of_mem hx
  | .arr _ _, h => simp [storable] at h
  | .bad, h => simp [storable] at h
private theorem normaliseFields_storable (d : List (Name × Value F)) (h : storableFields d = true) :
    ∃ e, normaliseFields d = some e ∧ ∀ pre : Doc F, (∀ k ∈ d.map (·.1), k ∉ pre.map (·.1)) →
      sameFields d (pre ++ e) = true := by
  match d, h with
  | [], _ => exact ⟨[], rfl, fun _ _ => rfl⟩
  | (k, v) :: d, h =>
    simp only [storableFields, Bool.and_eq_true] at h
    obtain ⟨w, h1, h2, -⟩ := normalise_storable v h.1.1.2
    obtain ⟨e, h3, h4⟩ := normaliseFields_storable d h.2
    refine ⟨(k, w) :: e, by simp [normaliseFields, h1, h3], ?_⟩
    intro pre hpre
    have hk : k ∉ pre.map (·.1) := hpre k (by simp)
    have hf : field k (pre ++ (k, w) :: e) = some w := by
      clear hpre h4
      induction pre with
      | nil => simp [field]
      | cons x pre ih =>
        obtain ⟨k', y⟩ := x
        simp only [List.map_cons, List.mem_cons, not_or] at hk
        simp only [List.cons_append, field, if_neg (Ne.symm hk.1)]
        exact ih hk.2
    simp only [sameFields, hf, h2, Bool.true_and]
    rw [show pre ++ (k, w) :: e = (pre ++ [(k, w)]) ++ e by simp]
    apply h4
    intro k' hk'
    simp only [List.map_append, List.mem_append, not_or]
    refine ⟨hpre k' (by simp [hk']), ?_⟩
    simp only [List.map_cons, List.map_nil, List.mem_singleton]
    rintro rfl
    have := h.1.2
    rw [List.contains_iff_mem.2 hk'] at this
    cases this
end

/-- C38: after `$set` of a field to a value (without arrays, null and NaN), a query for that value in that
field matches. -/
theorem C38_set_then_find (k : Name) (hk : Plain k) (v : Value F) (d : Doc F) (hs : storable v = true)
    (hn : v ≠ .null) :
    hit [(k, v)] (updateDoc [(kSet, .doc [(k, v)])] d).1 = true := by
  obtain ⟨w, h1, h2, h3⟩ := normalise_storable v hs
  rw [C38_set_partial k hk v w d h1 (h3 hn), hit, C34_field_partial k hk v (storable_literal v hs), (C38_put k w d).1]
  cases w with
  | arr es sp => cases v <;> simp [same] at h2
  | _ => simp [h2]

/-- C38: an integer is stored with its value, in a type that can hold it. -/
theorem C38_stored_integer (t : IntKind) (n : Int) (h : -(2 ^ (t.bits - 1) : Int) ≤ n ∧ n < 2 ^ (t.bits - 1)) :
    ∃ t', normalise (.int t n : Value F) = some (.int t' n) ∧ -(2 ^ (t'.bits - 1) : Int) ≤ n ∧ n < 2 ^ (t'.bits - 1) := by
  simp only [normalise]
  split
  · rename_i ht; subst ht; exact ⟨.int64, rfl, h⟩
  · split
    · rename_i ht; rw [ht.1] at h; exact ⟨.int64, rfl, h⟩
    · rename_i h1 h2
      refine ⟨.int32, rfl, ?_⟩
      show -(2 ^ 31 : Int) ≤ n ∧ n < 2 ^ 31
      cases t with
      | int => have : ¬ ¬ (-2147483648 ≤ n ∧ n ≤ 2147483647) := fun h => h2 ⟨rfl, h⟩; omega
      | int64 => exact absurd rfl h1
      | int32 => exact h
      | int8 => simp only [IntKind.bits] at h; omega
      | int16 => simp only [IntKind.bits] at h; omega

/-! ### C39 -/

private theorem updatePath_index {k p : Name} {i : Nat} (hk : Plain k) (hp : atoi p = some (i : Int)) (hd : '.' ∉ p)
    (u : Update F) : updatePath (k ++ '.' :: p) u = .field k true (.index i true u) := by
  simp [updatePath, splitDots_append hk.noDot, splitDots_plain hd, pathPieces, hk.notNumber, hp]

private theorem set_index (k p : Name) (i : Nat) (hk : Plain k) (hp : atoi p = some (i : Int)) (hd : '.' ∉ p)
    (v w : Value F) (hv : normalise v = some w) (hw : w ≠ .null) (d : Doc F) (es sp : List (Value F))
    (hf : field k d = some (.arr es sp)) :
    updateDoc [(kSet, .doc [(k ++ '.' :: p, v)])] d =
      (put k (let full := if es.length + sp.length ≤ i then es ++ List.replicate (i + 1 - es.length) .null else es ++ sp
        .arr ((full.set i w).take (i + 1)) ((full.set i w).drop (i + 1))) d, .ok) := by
  rw [update_entry kSet _ v (updatePath (k ++ '.' :: p) (.set w)) (by simp [parseUpdateEntry, hv]) (by decide),
    updatePath_index hk hp hd, apply_field]
  have hb : before k d = .arr es sp := by simp [before, hf]
  have hset : ∀ x : Value F, (Update.set w).apply x = (w, .ok) := by
    intro x; cases w <;> first | exact absurd rfl hw | rfl
  rw [hb]
  simp only [Update.apply, Bool.not_true, Bool.false_and, Bool.false_eq_true, if_false, Int.toNat_natCast,
    if_neg (show ¬ ((i : Int) < 0) by omega)]
  have hlt : i < (if es.length + sp.length ≤ i then es ++ List.replicate (i + 1 - es.length) .null else es ++ sp).length := by
    split <;> simp <;> omega
  rw [List.getElem?_eq_getElem hlt]
  simp only [hset, if_true]
  rfl

/-- C39: `$set` of the last element, or of the position after it when the array has no spare capacity, replaces
or appends that element and leaves the others alone.  Missing from the full property: all other positions
(`C39_truncates_refuted`). -/
theorem C39_set_last_partial (k p : Name) (i : Nat) (hk : Plain k) (hp : atoi p = some (i : Int)) (hd : '.' ∉ p)
    (v w : Value F) (hv : normalise v = some w) (hw : w ≠ .null) (d : Doc F) (es sp : List (Value F))
    (hf : field k d = some (.arr es sp)) (hi : i + 1 = es.length ∨ i = es.length ∧ sp = []) :
    ∃ x, updateDoc [(kSet, .doc [(k ++ '.' :: p, v)])] d = (put k x d, .ok) ∧
      elements x = some (if i < es.length then es.set i w else es ++ [w]) := by
  refine ⟨_, set_index k p i hk hp hd v w hv hw d es sp hf, ?_⟩
  simp only [elements, Option.some.injEq]
  rcases hi with hi | ⟨hi, rfl⟩
  · rw [if_neg (by omega), if_pos (by omega), List.set_append_left _ _ (by omega), List.take_append_of_le_length (by simp; omega)]
    exact List.take_of_length_le (by simp; omega)
  · subst hi
    simp only [List.length_nil, Nat.add_zero, Nat.le_refl, if_true, Nat.lt_irrefl, if_false,
      show es.length + 1 - es.length = 1 by omega, List.replicate_one]
    rw [List.set_append_right _ _ (Nat.le_refl _), Nat.sub_self, List.set_cons_zero]
    exact List.take_of_length_le (by simp)

/-- C39 refuted: `$set` of any element but the last removes all the elements after it. -/
theorem C39_truncates_refuted (k p : Name) (i : Nat) (hk : Plain k) (hp : atoi p = some (i : Int)) (hd : '.' ∉ p)
    (v w : Value F) (hv : normalise v = some w) (hw : w ≠ .null) (d : Doc F) (es sp : List (Value F))
    (hf : field k d = some (.arr es sp)) (hi : i + 1 < es.length) :
    ∃ x, updateDoc [(kSet, .doc [(k ++ '.' :: p, v)])] d = (put k x d, .ok) ∧
      elements x = some (es.take i ++ [w]) ∧ elements x ≠ some (es.set i w) := by
  have he : ∀ (l : List (Value F)), i + 1 < l.length → (l.set i w).take (i + 1) = l.take i ++ [w] := by
    intro l hl
    rw [List.take_succ_eq_append_getElem (by simp; omega), List.take_set_of_le (Nat.le_refl _)]
    simp
  refine ⟨_, set_index k p i hk hp hd v w hv hw d es sp hf, ?_⟩
  have : elements (F := F) (let full := if es.length + sp.length ≤ i then es ++ List.replicate (i + 1 - es.length) .null else es ++ sp
        .arr ((full.set i w).take (i + 1)) ((full.set i w).drop (i + 1))) = some (es.take i ++ [w]) := by
    simp only [elements, Option.some.injEq]
    rw [if_neg (by omega), he _ (by simp; omega), List.take_append_of_le_length (by omega)]
  rw [this]
  refine ⟨rfl, ?_⟩
  intro h
  have := congrArg List.length (Option.some.inj h)
  simp at this
  omega

/-- C39 refuted: the removed elements are still behind the array: setting a later element brings them back. -/
theorem C39_stale_elements_refuted (k : Name) (hk : Plain k) (a b c : Value F) (sp : List (Value F)) (n m : Int) :
    let d := [(k, Value.arr [a, b, c] sp)]
    let d1 := (updateDoc [(kSet, .doc [(k ++ ['.', '0'], .int .int64 n)])] d).1
    let d2 := (updateDoc [(kSet, .doc [(k ++ ['.', '2'], .int .int64 m)])] d1).1
    (field k d1).bind elements = some [.int .int64 n] ∧
    (field k d2).bind elements = some [.int .int64 n, b, .int .int64 m] := by
  have h0 : ∀ x : Value F, field k [(k, x)] = some x := by intro x; simp [field]
  have h1 : ∀ x y : Value F, put k x [(k, y)] = [(k, x)] := by intro x y; simp [put]
  intro d d1 d2
  have e1 : d1 = [(k, .arr [.int .int64 n] (b :: c :: sp))] := by
    show (updateDoc _ _).1 = _
    rw [set_index k ['0'] 0 hk (by decide) (by decide) (.int .int64 n) (.int .int64 n) rfl (by simp) d [a, b, c] sp (h0 _)]
    simp [d, h1]
  have e2 : d2 = [(k, .arr [.int .int64 n, b, .int .int64 m] sp)] := by
    show (updateDoc _ d1).1 = _
    rw [e1, set_index k ['2'] 2 hk (by decide) (by decide) (.int .int64 m) (.int .int64 m) rfl (by simp) _ [.int .int64 n] (b :: c :: sp) (h0 _)]
    simp only [h1]
    rw [if_neg (by simp; omega)]
    rfl
  rw [e1, e2, h0, h0]
  exact ⟨rfl, rfl⟩

/-! ### C40 -/

omit [Host F] in
private theorem before_some {k : Name} {d : Doc F} {v : Value F} (h : field k d = some v) : before k d = v := by
  simp [before, h]

omit [Host F] in
private theorem before_none {k : Name} {d : Doc F} (h : field k d = none) : before k d = .null := by
  simp [before, h]

private theorem elements_appendTo (es sp : List (Value F)) (v : Value F) :
    elements (appendTo es sp v) = some (es ++ [v]) := by
  cases sp <;> rfl

/-- C40: `$push` appends the value to the array, or makes an array of it if the field is missing; it refuses
other fields and then changes nothing. -/
theorem C40_push (k : Name) (hk : Plain k) (v w : Value F) (d : Doc F) (hv : normalise v = some w)
    (hm : hasModifiers v = false) :
    let r := updateDoc [(kPush, .doc [(k, v)])] d
    (field k d = none → ∃ x, r = (put k x d, .ok) ∧ elements x = some [w]) ∧
    (∀ es sp, field k d = some (.arr es sp) → ∃ x, r = (put k x d, .ok) ∧ elements x = some (es ++ [w])) ∧
    (∀ y, field k d = some y → y ≠ .null → elements y = none → r = (d, .error)) := by
  have hp : parseUpdateEntry kPush k v = some (updatePath k (.push w)) := by
    simp [parseUpdateEntry, hv, hm, kPush, kSet, kUnset, kInc]
  refine ⟨?_, ?_, ?_⟩
  · intro h
    exact ⟨_, update_field kPush k hk v (.push w) _ hp (by decide) d (by rw [before_none h]; rfl), elements_appendTo [] [] w⟩
  · intro es sp h
    exact ⟨_, update_field kPush k hk v (.push w) _ hp (by decide) d (by rw [before_some h]; rfl), elements_appendTo es sp w⟩
  · intro y h hn he
    apply update_field_fails kPush k hk v (.push w) .error (by simp) hp (by decide)
    rw [before_some h]
    cases y <;> first | exact absurd rfl hn | rfl | cases he

mutual
/-- `reflect.DeepEqual` decides whether two values are identical. -/
theorem deepEq_iff : ∀ a b : Value F, deepEq a b = true ↔ Identical a b
  | .doc a, .doc b => by
    rw [deepEq, deepEqFields_iff a b]
    exact ⟨.doc, fun h => by cases h; assumption⟩
  | .arr a _, .arr b _ => by
    rw [deepEq, deepEqList_iff a b]
    exact ⟨.arr, fun h => by cases h; assumption⟩
  | .null, b => by
    cases b <;> first | exact ⟨fun _ => .null, fun _ => rfl⟩ | exact ⟨fun h => by simp [deepEq] at h, fun h => by cases h⟩
  | .bool x, b => by
    cases b with
    | bool y => simp only [deepEq, beq_iff_eq]; exact ⟨fun h => h ▸ .bool x, fun h => by cases h; rfl⟩
    | _ => exact ⟨fun h => by simp [deepEq] at h, fun h => by cases h⟩
  | .int t x, b => by
    cases b with
    | int t' y =>
      simp only [deepEq, Bool.and_eq_true, beq_iff_eq]
      exact ⟨fun h => by obtain ⟨rfl, rfl⟩ := h; exact .int _ _, fun h => by cases h; exact ⟨rfl, rfl⟩⟩
    | _ => exact ⟨fun h => by simp [deepEq] at h, fun h => by cases h⟩
  | .float x, b => by
    cases b with
    | float y => simp only [deepEq]; exact ⟨.float, fun h => by cases h; assumption⟩
    | _ => exact ⟨fun h => by simp [deepEq] at h, fun h => by cases h⟩
  | .str x, b => by
    cases b with
    | str y => simp only [deepEq, beq_iff_eq]; exact ⟨fun h => h ▸ .str x, fun h => by cases h; rfl⟩
    | _ => exact ⟨fun h => by simp [deepEq] at h, fun h => by cases h⟩
  | .oid x, b => by
    cases b with
    | oid y => simp only [deepEq, beq_iff_eq]; exact ⟨fun h => h ▸ .oid x, fun h => by cases h; rfl⟩
    | _ => exact ⟨fun h => by simp [deepEq] at h, fun h => by cases h⟩
  | .other x, b => by
    cases b with
    | other y => simp only [deepEq, beq_iff_eq]; exact ⟨fun h => h ▸ .other x, fun h => by cases h; rfl⟩
    | _ => exact ⟨fun h => by simp [deepEq] at h, fun h => by cases h⟩
  | .bad, b => by cases b <;> exact ⟨fun h => by simp [deepEq] at h, fun h => by cases h⟩
  | .doc a, .null | .doc a, .bool _ | .doc a, .int _ _ | .doc a, .float _ | .doc a, .str _ | .doc a, .oid _
  | .doc a, .other _ | .doc a, .arr _ _ | .doc a, .bad => ⟨fun h => by simp [deepEq] at h, fun h => by cases h⟩
  | .arr a s, .null | .arr a s, .bool _ | .arr a s, .int _ _ | .arr a s, .float _ | .arr a s, .str _ | .arr a s, .oid _
  | .arr a s, .other _ | .arr a s, .doc _ | .arr a s, .bad => ⟨fun h => by simp [deepEq] at h, fun h => by cases h⟩
theorem deepEqFields_iff : ∀ a b : List (Name × Value F), deepEqFields a b = true ↔ IdenticalFields a b
  | [], [] => ⟨fun _ => .nil, fun _ => rfl⟩
  | [], _ :: _ | _ :: _, [] => ⟨fun h => by simp [deepEqFields] at h, fun h => by cases h⟩
  | (k, v) :: a, (k', w) :: b => by
    simp only [deepEqFields, Bool.and_eq_true, beq_iff_eq, deepEq_iff v w, deepEqFields_iff a b]
    exact ⟨fun h => by obtain ⟨⟨rfl, h1⟩, h2⟩ := h; exact .cons h1 h2, fun h => by cases h; exact ⟨⟨rfl, by assumption⟩, by assumption⟩⟩
theorem deepEqList_iff : ∀ a b : List (Value F), deepEqList a b = true ↔ IdenticalElements a b
  | [], [] => ⟨fun _ => .nil, fun _ => rfl⟩
  | [], _ :: _ | _ :: _, [] => ⟨fun h => by simp [deepEqList] at h, fun h => by cases h⟩
  | v :: a, w :: b => by
    simp only [deepEqList, Bool.and_eq_true, deepEq_iff v w, deepEqList_iff a b]
    exact ⟨fun h => .cons h.1 h.2, fun h => by cases h; exact ⟨by assumption, by assumption⟩⟩
end

/-- C40: `$addToSet` appends the value iff the array has no identical element (`Identical`: the same Go type and the
same contents); otherwise it changes nothing. -/
theorem C40_add_to_set (k : Name) (hk : Plain k) (v w : Value F) (d : Doc F) (hv : normalise v = some w)
    (hm : hasModifiers v = false) :
    let r := updateDoc [(kAddToSet, .doc [(k, v)])] d
    (field k d = none → ∃ x, r = (put k x d, .ok) ∧ elements x = some [w]) ∧
    (∀ es sp, field k d = some (.arr es sp) → (∃ e ∈ es, Identical w e) → r = (d, .ok)) ∧
    (∀ es sp, field k d = some (.arr es sp) → (¬ ∃ e ∈ es, Identical w e) →
      ∃ x, r = (put k x d, .ok) ∧ elements x = some (es ++ [w])) ∧
    (∀ y, field k d = some y → y ≠ .null → elements y = none → r = (d, .error)) := by
  have hp : parseUpdateEntry kAddToSet k v = some (updatePath k (.addToSet w)) := by
    simp [parseUpdateEntry, hv, hm, kAddToSet, kPush, kSet, kUnset, kInc]
  have hany : ∀ es : List (Value F), es.any (deepEq w) = true ↔ ∃ e ∈ es, Identical w e := by
    intro es; simp only [List.any_eq_true, deepEq_iff]
  refine ⟨?_, ?_, ?_, ?_⟩
  · intro h
    exact ⟨_, update_field kAddToSet k hk v (.addToSet w) _ hp (by decide) d (by rw [before_none h]; rfl), elements_appendTo [] [] w⟩
  · intro es sp h ha
    have ha := (hany es).2 ha
    rw [update_field kAddToSet k hk v (.addToSet w) (.arr es sp) hp (by decide) d
      (by rw [before_some h]; simp [Update.apply, ha]), put_eq, h]
    simp [setField_same k d _ h]
  · intro es sp h ha
    have ha := fun e => ha ((hany es).1 e)
    refine ⟨_, update_field kAddToSet k hk v (.addToSet w) _ hp (by decide) d (by rw [before_some h]; simp only [Update.apply, if_neg ha]; rfl), ?_⟩
    rw [elements_appendTo]
  · intro y h hn he
    apply update_field_fails kAddToSet k hk v (.addToSet w) .error (by simp) hp (by decide)
    rw [before_some h]
    cases y <;> first | exact absurd rfl hn | rfl | cases he

/-- C40: `$addToSet` is idempotent for values that are identical to themselves (no NaN inside). -/
theorem C40_add_to_set_idempotent (k : Name) (hk : Plain k) (v w : Value F) (d : Doc F) (hv : normalise v = some w)
    (hm : hasModifiers v = false) (hr : Identical w w) (hd : ∀ y, field k d = some y → y ≠ .null) :
    let u : Doc F := [(kAddToSet, .doc [(k, v)])]
    (updateDoc u (updateDoc u d).1).1 = (updateDoc u d).1 := by
  intro u
  obtain ⟨a1, a2, a3, a4⟩ := C40_add_to_set k hk v w d hv hm
  have again : ∀ x es, updateDoc u d = (put k x d, .ok) → elements x = some es → (∃ e ∈ es, Identical w e) →
      (updateDoc u (updateDoc u d).1).1 = (updateDoc u d).1 := by
    intro x es hx he hany
    rw [hx]
    cases x with
    | arr es' sp =>
      cases he
      obtain ⟨-, b2, -⟩ := C40_add_to_set k hk v w (put k (.arr es sp) d) hv hm
      rw [b2 es sp (C38_put k _ d).1 hany]
    | _ => cases he
  cases hf : field k d with
  | none =>
    obtain ⟨x, hx, he⟩ := a1 hf
    exact again x _ hx he ⟨w, by simp, hr⟩
  | some y =>
    cases he : elements y with
    | none =>
      have h1 : updateDoc u d = (d, .error) := a4 y hf (hd y hf) he
      rw [h1, h1]
    | some es =>
      cases y with
      | arr es' sp =>
        cases he
        by_cases hi : ∃ e ∈ es, Identical w e
        · have h1 : updateDoc u d = (d, .ok) := a2 es sp hf hi
          rw [h1, h1]
        · obtain ⟨x, hx, he⟩ := a3 es sp hf hi
          exact again x _ hx he ⟨w, by simp, hr⟩
      | _ => cases he

/-- C40 refuted: `$addToSet` does not recognise the element it is given if the document was inserted with a
plain Go `int`, because it compares Go types. -/
theorem C40_add_to_set_refuted (k : Name) (hk : Plain k) (n : Int) (hn : -2147483648 ≤ n ∧ n ≤ 2147483647) :
    let d : Doc F := [(k, .arr [.int .int n] [])]
    hit [(k, .int .int n)] d = true ∧
    ∃ x, updateDoc [(kAddToSet, .doc [(k, .int .int n)])] d = ([(k, x)], .ok) ∧
      elements x = some [.int .int n, .int .int32 n] := by
  have h0 : ∀ x : Value F, field k [(k, x)] = some x := by intro x; simp [field]
  have h1 : ∀ x y : Value F, put k x [(k, y)] = [(k, x)] := by intro x y; simp [put]
  refine ⟨?_, ?_⟩
  · rw [hit, C34_field_partial k hk _ rfl, h0]
    simp only [same, List.any_cons, List.any_nil, beq_self_eq_true, Bool.true_or]
  · obtain ⟨-, -, a3, -⟩ := C40_add_to_set k hk (.int .int n) (.int .int32 n) [(k, (.arr [.int .int n] [] : Value F))]
      (by simp [normalise, hn]) rfl
    obtain ⟨x, hx, he⟩ := a3 [.int .int n] [] (h0 _) (by rintro ⟨e, he, hi⟩; cases List.mem_singleton.1 he; cases hi)
    rw [h1] at hx
    exact ⟨x, hx, he⟩

private theorem reject_eq (f : Filter F) (p : Value F → Bool) (es : List (Value F)) (h : ∀ e ∈ es, f.eval e = some (p e)) :
    reject f es = some (es.filter fun e => !p e) := by
  induction es with
  | nil => rfl
  | cons e es ih =>
    simp only [reject, h e (by simp), ih (fun x hx => h x (by simp [hx])), Option.map_some, List.filter_cons]
    cases p e <;> rfl

private theorem pull_general (k : Name) (hk : Plain k) (v : Value F) (f : Filter F) (p : Value F → Bool)
    (hp : parseUpdateEntry kPull k v = some (updatePath k (.pull f))) (d : Doc F) (es sp : List (Value F))
    (hf : field k d = some (.arr es sp)) (h : ∀ e ∈ es, f.eval e = some (p e)) :
    ∃ x, updateDoc [(kPull, .doc [(k, v)])] d = (put k x d, .ok) ∧ elements x = some (es.filter fun e => !p e) := by
  have hrej := reject_eq f p es h
  by_cases hl : (es.filter fun e => !p e).length = es.length
  · refine ⟨.arr es sp, update_field kPull k hk v (.pull f) _ hp (by decide) d ?_, ?_⟩
    · rw [before_some hf]
      simp only [Update.apply, hrej, hl, if_true]
    · rw [elements, Option.some.injEq]
      exact ((List.filter_sublist).eq_of_length hl).symm
  · refine ⟨_, update_field kPull k hk v (.pull f) (.arr (es.filter fun e => !p e) (List.replicate (Host.room F (es.filter fun e => !p e).length) .null)) hp (by decide) d ?_, rfl⟩
    rw [before_some hf]
    simp only [Update.apply, hrej, if_neg hl]

/-- C40: `$pull` of a plain value removes exactly the elements equal to it, and keeps the order. -/
theorem C40_pull_value (k : Name) (hk : Plain k) (v : Value F) (d : Doc F) (es sp : List (Value F))
    (hf : field k d = some (.arr es sp)) (hv : literal v = true) (hd : ∀ q, v ≠ .doc q) :
    ∃ x, updateDoc [(kPull, .doc [(k, v)])] d = (put k x d, .ok) ∧ elements x = some (es.filter fun e => !same v e) := by
  obtain ⟨f, h1, h2⟩ := parseValue_literal v hv
  apply pull_general k hk v f (same v) ?_ d es sp hf (fun e _ => h2 e)
  cases v with
  | doc q => exact absurd rfl (hd q)
  | arr => simp [literal] at hv
  | bad => simp [literal] at hv
  | _ =>
    simp only [parseValue, Option.some.injEq] at h1
    subst h1
    simp [parseUpdateEntry, hasModifiers, kPull, kAddToSet, kPush, kSet, kUnset, kInc]

/-- C40: `$pull` of conditions removes exactly the documents in the array that match the conditions. -/
theorem C40_pull_matching (k : Name) (hk : Plain k) (q : Doc F) (d : Doc F) (ds : List (Doc F)) (sp : List (Value F))
    (hf : field k d = some (.arr (ds.map .doc) sp)) (hq : Defined q ds) (hm : ∀ e ∈ q, isOp e.1 = false) :
    ∃ x, updateDoc [(kPull, .doc [(k, .doc q)])] d = (put k x d, .ok) ∧
      elements x = some ((ds.filter fun e => !hit q e).map .doc) := by
  have h1 := hq.accepted
  unfold findMany at h1
  cases hp : parseFilter q with
  | none => rw [hp] at h1; cases h1
  | some f =>
    have hmod : hasModifiers (.doc q) = false := by
      simp only [hasModifiers, List.any_eq_false]
      intro e he; simp [hm e he]
    obtain ⟨x, hx, he⟩ := pull_general k hk (.doc q) f (fun v => match v with
        | .doc e => hit q e
        | _ => false) (by simp [parseUpdateEntry, hmod, hp, kPull, kAddToSet, kPush, kSet, kUnset, kInc]) d (ds.map .doc) sp hf (by
      intro e he
      obtain ⟨e, he', rfl⟩ := List.mem_map.1 he
      have := hq.total e he'
      rw [matchesQuery_eq, hp] at this
      simp only [Option.bind_some] at this
      simp only [hit, matchesQuery_eq, hp, Option.bind_some]
      cases hv : f.eval (.doc e) with
      | none => rw [hv] at this; cases this
      | some b => cases b <;> rfl)
    refine ⟨x, hx, ?_⟩
    rw [he, List.filter_map]
    rfl

/-- C40 refuted: `$pull` from a missing field creates the field, with the value null. -/
theorem C40_pull_missing_refuted (k : Name) (hk : Plain k) (v : Value F) (d : Doc F)
    (hf : field k d = none) (hv : literal v = true) (hd : ∀ q, v ≠ .doc q) :
    updateDoc [(kPull, .doc [(k, v)])] d = (d ++ [(k, .null)], .ok) := by
  obtain ⟨f, h1, h2⟩ := parseValue_literal v hv
  rw [update_field kPull k hk v (.pull f) .null ?_ (by decide) d (by rw [before_none hf]; rfl), put_eq, hf]
  cases v with
  | doc q => exact absurd rfl (hd q)
  | arr => simp [literal] at hv
  | bad => simp [literal] at hv
  | _ =>
    simp only [parseValue, Option.some.injEq] at h1
    subst h1
    simp [parseUpdateEntry, hasModifiers, kPull, kAddToSet, kPush, kSet, kUnset, kInc]

/-! ### C41 -/

/-- C41: `$inc` adds to the integer field, in the field's own type, and starts from zero (as `int64`) if the
field is missing. -/
theorem C41_inc (k : Name) (hk : Plain k) (kv : IntKind) (n : Int) (d : Doc F) :
    let r := updateDoc [(kInc, .doc [(k, .int kv n)])] d
    (field k d = none → r = (put k (.int .int64 (IntKind.int64.wrap n)) d, .ok)) ∧
    (∀ t m, field k d = some (.int t m) → r = (put k (.int t (t.wrap (m + n))) d, .ok)) ∧
    (∀ y, field k d = some y → intValue y = none → floatValue y = none → y ≠ .null → r = (d, .error)) := by
  have hp : parseUpdateEntry kInc k (.int kv n : Value F) = some (updatePath k (.incInt n)) := by
    simp [parseUpdateEntry, kSet, kUnset, kInc]
  refine ⟨?_, ?_, ?_⟩
  · intro h
    exact update_field kInc k hk _ (.incInt n) _ hp (by decide) d (by rw [before_none h]; rfl)
  · intro t m h
    exact update_field kInc k hk _ (.incInt n) _ hp (by decide) d (by rw [before_some h]; rfl)
  · intro y h h1 h2 h3
    apply update_field_fails kInc k hk _ (.incInt n) .error (by simp) hp (by decide)
    rw [before_some h]
    cases y <;> first | exact absurd rfl h3 | rfl | cases h2

private theorem wrap_add (t : IntKind) (m a b : Int) : t.wrap (t.wrap (m + a) + b) = t.wrap (m + (a + b)) := by
  unfold IntKind.wrap
  generalize (2 : Int) ^ (t.bits - 1) = h
  generalize (2 : Int) ^ t.bits = M
  rw [show (m + a + h) % M - h + b + h = (m + a + h) % M + b by omega, Int.emod_add_emod,
    show m + a + h + b = m + (a + b) + h by omega]

/-- C41: the wrapping of a type does not change the integers that fit in it. -/
theorem C41_wrap (t : IntKind) (n : Int) (h : -(2 ^ (t.bits - 1) : Int) ≤ n ∧ n < 2 ^ (t.bits - 1)) : t.wrap n = n := by
  unfold IntKind.wrap
  have h2 : (2 ^ t.bits : Int) = 2 * 2 ^ (t.bits - 1) := by cases t <;> rfl
  rw [h2]
  generalize (2 : Int) ^ (t.bits - 1) = M at h ⊢
  rw [Int.emod_eq_of_lt (by omega) (by omega)]
  omega

/-- C41: two increments compose by addition. -/
theorem C41_inc_twice (k : Name) (hk : Plain k) (k1 k2 k3 : IntKind) (a b : Int) (d : Doc F)
    (h : field k d = none ∨ ∃ t m, field k d = some (.int t m)) :
    let inc (kv : IntKind) (n : Int) (d : Doc F) := (updateDoc [(kInc, .doc [(k, .int kv n)])] d).1
    inc k2 b (inc k1 a d) = inc k3 (a + b) d := by
  have put_put : ∀ (v w : Value F) (d : Doc F), put k w (put k v d) = put k w d := by
    intro v w d
    induction d with
    | nil => simp [put]
    | cons e d ih =>
      obtain ⟨k', x⟩ := e
      by_cases hk : k' = k
      · simp [put, hk]
      · simp [put, hk, ih]
  obtain ⟨a1, a2, -⟩ := C41_inc k hk k1 a d
  obtain ⟨c1, c2, -⟩ := C41_inc k hk k3 (a + b) d
  intro inc
  simp only [inc]
  rcases h with h | ⟨t, m, h⟩
  · obtain ⟨-, b2, -⟩ := C41_inc k hk k2 b (put k (.int .int64 (IntKind.int64.wrap a)) d)
    rw [a1 h, c1 h, b2 _ _ (C38_put k _ d).1, put_put]
    have := wrap_add .int64 0 a b
    simp only [Int.zero_add] at this
    rw [this]
  · obtain ⟨-, b2, -⟩ := C41_inc k hk k2 b (put k (.int t (t.wrap (m + a))) d)
    rw [a2 t m h, c2 t m h, b2 _ _ (C38_put k _ d).1, put_put, wrap_add]

/-- C41: `$unset` removes the field (its first element) and nothing else. -/
theorem C41_unset (k : Name) (hk : Plain k) (v : Value F) (d : Doc F) :
    updateDoc [(kUnset, .doc [(k, v)])] d = (d.eraseP (fun e => e.1 == k), .ok) := by
  have hp : parseUpdateEntry kUnset k v = some (unsetPath k) := by
    simp [parseUpdateEntry, kSet, kUnset]
  have hu : unsetPath k = (.unsetField k : Update F) := by
    simp [unsetPath, splitDots_plain hk.noDot, pathPieces, hk.notNumber]
  rw [update_entry kUnset k v _ hp (by decide), hu]
  simp only [Update.apply, asDoc, Prod.mk.injEq, and_true]
  induction d with
  | nil => rfl
  | cons e d ih =>
    obtain ⟨k', w⟩ := e
    simp only [eraseField, List.eraseP_cons]
    by_cases h : k' = k
    · simp [h]
    · rw [if_neg h, beq_eq_false_iff_ne.2 h, ih]; rfl

/-- C41: with distinct field names, `$unset` makes the field absent and leaves the others alone; unsetting an
absent field changes nothing. -/
theorem C41_unset_field (k : Name) (hk : Plain k) (v : Value F) (d : Doc F) (hn : (d.map (·.1)).Nodup) :
    let d' := (updateDoc [(kUnset, .doc [(k, v)])] d).1
    field k d' = none ∧ (∀ k', k' ≠ k → field k' d' = field k' d) ∧ (field k d = none → d' = d) := by
  rw [C41_unset k hk v d]
  simp only
  induction d with
  | nil => exact ⟨rfl, fun _ _ => rfl, fun _ => rfl⟩
  | cons e d ih =>
    obtain ⟨k', w⟩ := e
    simp only [List.map_cons, List.nodup_cons] at hn
    obtain ⟨i1, i2, i3⟩ := ih hn.2
    by_cases h : k' = k
    · subst h
      simp only [List.eraseP_cons, beq_self_eq_true, cond_true]
      refine ⟨?_, ?_, ?_⟩
      · cases hf : field k' d with
        | none => rfl
        | some x => exact absurd (field_keys hf) hn.1
      · intro k'' hne; simp [field, Ne.symm hne]
      · intro hf; simp [field] at hf
    · simp only [List.eraseP_cons, beq_eq_false_iff_ne.2 h, cond_false]
      refine ⟨by simp [field, h, i1], ?_, ?_⟩
      · intro k'' hne; simp only [field]; split
        · rfl
        · exact i2 k'' hne
      · intro hf
        simp only [field, if_neg h] at hf
        rw [i3 hf]

/-! ### C42 -/

/-- An update that fails leaves the value as it was. -/
private theorem apply_fails (u : Update F) : ∀ (item : Value F), (u.apply item).2 ≠ .ok → (u.apply item).1 = item := by
  induction u with
  | set v => intro item h; cases v <;> first | rfl | exact absurd rfl h
  | push v => intro item h; cases item <;> first | rfl | exact absurd rfl h
  | addToSet v =>
    intro item h
    cases item with
    | arr es sp =>
      simp only [Update.apply] at h ⊢
      split at h <;> exact absurd rfl h
    | null => exact absurd rfl h
    | _ => rfl
  | pull f =>
    intro item h
    cases item with
    | arr es sp =>
      simp only [Update.apply] at h ⊢
      split
      · rfl
      · rename_i hr
        rw [hr] at h
        simp only at h
        split at h <;> exact absurd rfl h
    | _ => rfl
  | unsetField k => intro item h; cases item <;> first | rfl | exact absurd rfl h
  | unsetElement i =>
    intro item h
    cases item with
    | arr es sp =>
      simp only [Update.apply] at h ⊢
      split at h
      · split at h
        · rw [if_pos (by assumption), if_pos (by assumption)]
        · exact absurd rfl h
      · exact absurd rfl h
    | _ => rfl
  | incInt n => intro item h; cases item <;> first | rfl | exact absurd rfl h
  | field k c u ih =>
    intro item h
    have key : ∀ d : Doc F, (item = .doc d ∨ item = .null ∧ d = []) →
        ((match field k d with
        | some v => (.doc (setField k (u.apply v).1 d), (u.apply v).2)
        | none => if (!c) = true then (item, .ok)
          else if (u.apply .null).2 = .ok then (.doc (d ++ [(k, (u.apply .null).1)]), .ok)
            else (item, (u.apply .null).2)) : Value F × Outcome).2 ≠ .ok →
        ((match field k d with
        | some v => (.doc (setField k (u.apply v).1 d), (u.apply v).2)
        | none => if (!c) = true then (item, .ok)
          else if (u.apply .null).2 = .ok then (.doc (d ++ [(k, (u.apply .null).1)]), .ok)
            else (item, (u.apply .null).2)) : Value F × Outcome).1 = item := by
      intro d hd h
      cases hf : field k d with
      | some v =>
        rw [hf] at h
        simp only at h ⊢
        have e := ih v h
        rcases hd with rfl | ⟨-, rfl⟩
        · rw [e, setField_same k d v hf]
        · cases hf
      | none =>
        rw [hf] at h
        simp only at h ⊢
        split
        · rfl
        · rename_i hc
          rw [if_neg hc] at h
          split
          · rename_i ho; rw [if_pos ho] at h; exact absurd rfl h
          · rfl
    cases item with
    | doc d => exact key d (Or.inl rfl) h
    | null => exact key [] (Or.inr ⟨rfl, rfl⟩) h
    | _ => rfl
  | index i c u ih =>
    intro item h
    have key : ∀ es sp : List (Value F), (item = .arr es sp ∨ item = .null ∧ es = [] ∧ sp = []) →
        (Update.index i c u).apply item = (if (!c && (isNull item || decide ((es.length : Int) ≤ i))) = true then (item, .ok)
      else if i < 0 then (item, .panic)
      else
        let full := if es.length + sp.length ≤ i.toNat
          then es ++ List.replicate (i.toNat + 1 - es.length) .null else es ++ sp
        match full[i.toNat]? with
        | none => (item, .panic)
        | some v =>
          let (v', o) := u.apply v
          let full := full.set i.toNat v'
          if o = .ok then (.arr (full.take (i.toNat + 1)) (full.drop (i.toNat + 1)), .ok)
          else if i.toNat < es.length then (.arr (es.set i.toNat v') sp, o)
          else (item, o)) := by
      intro es sp hd
      rcases hd with rfl | ⟨rfl, rfl, rfl⟩ <;> rfl
    have key2 : ∀ es sp : List (Value F), (item = .arr es sp ∨ item = .null ∧ es = [] ∧ sp = []) →
        ((Update.index i c u).apply item).1 = item := by
      intro es sp hd
      rw [key es sp hd] at h ⊢
      split
      · rfl
      · rename_i h1
        rw [if_neg h1] at h
        split
        · rfl
        · rename_i h2
          rw [if_neg h2] at h
          simp only at h ⊢
          split
          · rfl
          · rename_i v hv
            rw [hv] at h
            simp only at h ⊢
            split
            · rename_i ho; rw [if_pos ho] at h; exact absurd rfl h
            · rename_i ho
              split
              · rename_i hl
                rw [ih v ho]
                rcases hd with rfl | ⟨-, rfl, -⟩
                · rw [if_neg (by omega), List.getElem?_append_left hl, List.getElem?_eq_getElem hl] at hv
                  cases hv
                  rw [List.set_getElem_self]
                · simp at hl
              · rfl
    cases item with
    | arr es sp => exact key2 es sp (Or.inl rfl)
    | null => exact key2 [] [] (Or.inr ⟨rfl, rfl, rfl⟩)
    | _ => rfl
  | broadcast u ih => intro item h; exact ih item h

/-- C42: if `UpdateOne` with a single operator on a single path (of any depth) fails or panics, the collection
is unchanged.  Missing from the full property: updates with several entries and `UpdateMany`
(`C42_several_entries_refuted`, `C42_update_many_refuted`). -/
theorem C42_single_entry_partial (q : Doc F) (items : List (Doc F)) (op k : Name) (v : Value F)
    (h : (updateOne items q [(op, .doc [(k, v)])]).2.2 ≠ .ok) :
    (updateOne items q [(op, .doc [(k, v)])]).1 = items := by
  unfold updateOne at h ⊢
  cases hq : parseFilter q with
  | none => rfl
  | some f =>
    rw [hq] at h
    simp only at h ⊢
    cases hu : parseUpdate ([(op, .doc [(k, v)])] : Doc F) with
    | none => rfl
    | some us =>
      rw [hu] at h
      simp only at h ⊢
      have : ∃ u, us = [u] := by
        simp only [parseUpdate, List.mapM_cons, List.mapM_nil] at hu
        cases he : parseUpdateEntry op k v with
        | none => rw [he] at hu; cases hu
        | some u =>
          rw [he] at hu
          simp only [Option.pure_def, Option.bind_eq_bind, Option.bind_some] at hu
          split at hu
          · simp only [Option.map_some, Option.some.injEq, List.append_nil] at hu
            exact ⟨u, hu.symm⟩
          · cases hu
      obtain ⟨u, rfl⟩ := this
      cases hm : firstMatch f items with
      | error => rfl
      | panic => rfl
      | ok i? =>
        rw [hm] at h
        cases i? with
        | none => rfl
        | some i =>
          simp only at h ⊢
          cases hi : items[i]? with
          | none => rfl
          | some d =>
            rw [hi] at h
            simp only at h ⊢
            have hap : applyAll [u] (.doc d) = u.apply (.doc d) := by
              simp only [applyAll]
              cases u.apply (.doc d) with
              | mk x o => cases o <;> rfl
            rw [hap] at h ⊢
            rw [apply_fails u _ h]
            obtain ⟨hl, rfl⟩ := List.getElem?_eq_some_iff.1 hi
            exact List.set_getElem_self hl

/-- C42: a malformed query or update changes nothing. -/
theorem C42_malformed (q u : Doc F) (items : List (Doc F)) (h : findMany [] q = .error ∨ updateOne [] [] u = ([], 0, .error)) :
    updateOne items q u = (items, 0, .error) ∧ updateMany items q u = (items, 0, .error) := by
  have : parseFilter q = none ∨ parseUpdate u = none := by
    rcases h with h | h
    · left
      unfold findMany at h
      cases hp : parseFilter q with
      | none => rfl
      | some f => rw [hp] at h; cases h
    · right
      cases hu : parseUpdate u with
      | none => rfl
      | some us => simp [updateOne, parseFilter, parseConds, hu, firstMatch] at h
  unfold updateOne updateMany
  rcases this with h | h
  · rw [h]; exact ⟨rfl, rfl⟩
  · cases parseFilter q with
    | none => exact ⟨rfl, rfl⟩
    | some f => rw [h]; exact ⟨rfl, rfl⟩

/-- C42 refuted: an update whose second operator fails keeps the effect of the first. -/
theorem C42_several_entries_refuted :
    let d : Doc F := [(['s'], .str ['x'])]
    updateOne [d] [] [(kSet, .doc [(['a'], .int .int 1)]), (kInc, .doc [(['s'], .int .int 1)])] =
      ([[(['s'], .str ['x']), (['a'], .int .int32 1)]], 1, .error) := by
  rfl

/-- C42 refuted: when `UpdateMany` fails on a document, the documents before it stay changed. -/
theorem C42_update_many_refuted :
    let good : Doc F := [(['s'], .int .int 5)]
    let bad : Doc F := [(['s'], .str ['x'])]
    updateMany [good, bad] [] [(kInc, .doc [(['s'], .int .int 1)])] = ([[(['s'], .int .int 6)], bad], 1, .error) := by
  rfl

/-- C42 refuted: replacing a document by a value that cannot be converted destroys the document. -/
theorem C42_replace_refuted (d : Doc F) : replaceOne [d] [] (.obj none) = ([[]], 1, .error) := rfl

end Verif.NoSQL
