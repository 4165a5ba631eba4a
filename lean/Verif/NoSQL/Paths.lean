import Verif.NoSQL.UpdateProps
/-
`$unset` with dotted paths, and queries that are rejected because a part of them is.
-/
namespace Verif.NoSQL
variable {F : Type} [Host F]

/-! ### `$unset` with a path -/

private theorem unset_entry (sel : Name) (v : Value F) (d : Doc F) :
    updateDoc [(kUnset, .doc [(sel, v)])] d = (asDoc ((unsetPath sel).apply (.doc d)).1, ((unsetPath sel).apply (.doc d)).2) := by
  rw [update_entry kUnset sel v (unsetPath sel) (by simp [parseUpdateEntry, kSet, kUnset]) (by decide)]

omit [Host F] in
private theorem erase_eq (k : Name) (d : Doc F) : eraseField k d = d.eraseP (fun e => e.1 == k) := by
  induction d with
  | nil => rfl
  | cons e d ih =>
    obtain ⟨k', w⟩ := e
    simp only [eraseField, List.eraseP_cons]
    by_cases h : k' = k
    · simp [h]
    · rw [if_neg h, beq_eq_false_iff_ne.2 h, ih]; rfl

omit [Host F] in
private theorem put_same (k : Name) (d : Doc F) (x : Value F) (h : field k d = some x) : put k x d = d := by
  rw [put_eq, h]; exact setField_same k d x h

private theorem apply_below (k : Name) (u : Update F) (d : Doc F) :
    (Update.field k false u).apply (.doc d) = match field k d with
      | some x => (.doc (put k (u.apply x).1 d), (u.apply x).2)
      | none => (.doc d, .ok) := by
  simp only [Update.apply]
  cases h : field k d with
  | none => rfl
  | some x => simp only [put_eq, h]

/-- C127: `$unset` of a field of an embedded document removes that field (its first element) and nothing else.  If the
outer field is missing or null nothing changes; if it is not a document the update fails and changes nothing. -/
theorem C127_nested (a b : Name) (ha : Plain a) (hb : '.' ∉ b) (hn : atoi b = none) (v : Value F) (d : Doc F) :
    updateDoc [(kUnset, .doc [(a ++ '.' :: b, v)])] d = match field a d with
      | some (.doc e) => (put a (.doc (e.eraseP fun x => x.1 == b)) d, .ok)
      | some .null => (d, .ok)
      | none => (d, .ok)
      | some _ => (d, .error) := by
  have hu : unsetPath (a ++ '.' :: b) = (.field a false (.unsetField b) : Update F) := by
    simp [unsetPath, splitDots_append ha.noDot, splitDots_plain hb, pathPieces, ha.notNumber, hn]
  rw [unset_entry, hu, apply_below]
  cases hf : field a d with
  | none => rfl
  | some x =>
    cases x with
    | doc e => simp only [Update.apply, asDoc, erase_eq]
    | _ => simp only [Update.apply, asDoc, put_same a d _ hf]

/-- C127: `$unset` of an array position makes that element null and keeps the others and the length; a position past
the end, a missing field or a null field changes nothing; any other field is an error and changes nothing. -/
theorem C127_element (a p : Name) (i : Nat) (ha : Plain a) (hp : atoi p = some (i : Int)) (hd : '.' ∉ p)
    (v : Value F) (d : Doc F) :
    let r := updateDoc [(kUnset, .doc [(a ++ '.' :: p, v)])] d
    (∀ es sp, field a d = some (.arr es sp) → ∃ x, r = (put a x d, .ok) ∧ elements x = some (es.set i .null)) ∧
    (∀ es sp, field a d = some (.arr es sp) → es.length ≤ i → r = (d, .ok)) ∧
    (field a d = none ∨ field a d = some .null → r = (d, .ok)) ∧
    (∀ x, field a d = some x → x ≠ .null → elements x = none → r = (d, .error)) := by
  have hu : unsetPath (a ++ '.' :: p) = (.field a false (.unsetElement i) : Update F) := by
    simp [unsetPath, splitDots_append ha.noDot, splitDots_plain hd, pathPieces, ha.notNumber, hp]
  have hr : updateDoc [(kUnset, .doc [(a ++ '.' :: p, v)])] d = match field a d with
      | some x => (put a ((Update.unsetElement (i : Int)).apply x).1 d, ((Update.unsetElement (i : Int)).apply x).2)
      | none => (d, .ok) := by
    rw [unset_entry, hu, apply_below]
    cases field a d <;> rfl
  simp only
  rw [hr]
  refine ⟨?_, ?_, ?_, ?_⟩
  · intro es sp hf
    rw [hf]
    simp only [Update.apply]
    by_cases h : i < es.length
    · rw [if_pos (by omega), if_neg (by omega)]
      exact ⟨_, rfl, by simp [elements]⟩
    · rw [if_neg (by omega)]
      exact ⟨_, rfl, by simp [elements, List.set_eq_of_length_le (Nat.le_of_not_lt h)]⟩
  · intro es sp hf h
    rw [hf]
    simp only [Update.apply]
    rw [if_neg (by omega), put_same a d _ hf]
  · rintro (hf | hf)
    · rw [hf]
    · rw [hf]
      simp only [Update.apply, put_same a d _ hf]
  · intro x hf h1 h2
    rw [hf]
    cases x <;> first | exact absurd rfl h1 | (simp only [Update.apply, put_same a d _ hf]; done) | cases h2

private theorem unset_in (a p b : Name) (i : Nat) (ha : Plain a) (hp : atoi p = some (i : Int)) (hd : '.' ∉ p)
    (hb : '.' ∉ b) (hn : atoi b = none) (v : Value F) (d : Doc F) (es sp : List (Value F))
    (hf : field a d = some (.arr es sp)) (hi : i < es.length) (e : Doc F) (he : es[i]? = some (.doc e)) :
    updateDoc [(kUnset, .doc [(a ++ '.' :: (p ++ '.' :: b), v)])] d =
      (put a (.arr (((es ++ sp).set i (.doc (e.eraseP fun x => x.1 == b))).take (i + 1))
        (((es ++ sp).set i (.doc (e.eraseP fun x => x.1 == b))).drop (i + 1))) d, .ok) := by
  have hu : unsetPath (a ++ '.' :: (p ++ '.' :: b)) = (.field a false (.index i false (.unsetField b)) : Update F) := by
    simp [unsetPath, splitDots_append ha.noDot, splitDots_append hd, splitDots_plain hb, pathPieces, ha.notNumber, hn, hp]
  rw [unset_entry, hu, apply_below, hf]
  simp only [Update.apply, isNull, Bool.not_false, Bool.true_and, Bool.false_or, decide_eq_true_eq, Int.toNat_natCast]
  rw [if_neg (by omega), if_neg (by omega), if_neg (by omega), List.getElem?_append_left hi, he]
  simp only [if_true, erase_eq]
  rfl

/-- C127: `$unset` of a field of the document at the last position of an array removes that field there and nothing
else; a position past the end changes nothing.  Missing from the full property: the positions before the last
(`C127_truncates_refuted`). -/
theorem C127_in_last_partial (a p b : Name) (i : Nat) (ha : Plain a) (hp : atoi p = some (i : Int)) (hd : '.' ∉ p)
    (hb : '.' ∉ b) (hn : atoi b = none) (v : Value F) (d : Doc F) (es sp : List (Value F))
    (hf : field a d = some (.arr es sp)) :
    let r := updateDoc [(kUnset, .doc [(a ++ '.' :: (p ++ '.' :: b), v)])] d
    (es.length ≤ i → r = (d, .ok)) ∧
    (∀ e, es.getLast? = some (.doc e) → i + 1 = es.length →
      ∃ x, r = (put a x d, .ok) ∧ elements x = some (es.dropLast ++ [.doc (e.eraseP fun x => x.1 == b)])) := by
  refine ⟨?_, ?_⟩
  · intro h
    have hu : unsetPath (a ++ '.' :: (p ++ '.' :: b)) = (.field a false (.index i false (.unsetField b)) : Update F) := by
      simp [unsetPath, splitDots_append ha.noDot, splitDots_append hd, splitDots_plain hb, pathPieces, ha.notNumber, hn, hp]
    rw [unset_entry, hu, apply_below, hf]
    simp only [Update.apply, isNull, Bool.not_false, Bool.true_and, Bool.false_or, decide_eq_true_eq]
    rw [if_pos (by omega)]
    simp only [asDoc, put_same a d _ hf]
  · intro e he hi
    refine ⟨_, unset_in a p b i ha hp hd hb hn v d es sp hf (by omega) e (by rw [← he, List.getLast?_eq_getElem?]; congr 1; omega), ?_⟩
    simp only [elements, Option.some.injEq]
    rw [List.set_append_left _ _ (by omega), List.take_append_of_le_length (by simp; omega),
      List.take_succ_eq_append_getElem (by simp; omega), List.take_set_of_le (Nat.le_refl _), List.dropLast_eq_take]
    simp [← hi]

/-- C127 refuted: `$unset` of a field of a document inside an array removes all the array elements after that
document. -/
theorem C127_truncates_refuted (a p b : Name) (i : Nat) (ha : Plain a) (hp : atoi p = some (i : Int)) (hd : '.' ∉ p)
    (hb : '.' ∉ b) (hn : atoi b = none) (v : Value F) (d : Doc F) (es sp : List (Value F))
    (hf : field a d = some (.arr es sp)) (e : Doc F) (he : es[i]? = some (.doc e)) (hi : i + 1 < es.length) :
    let x' : Value F := .doc (e.eraseP fun x => x.1 == b)
    ∃ x, updateDoc [(kUnset, .doc [(a ++ '.' :: (p ++ '.' :: b), v)])] d = (put a x d, .ok) ∧
      elements x = some (es.take i ++ [x']) ∧ elements x ≠ some (es.set i x') := by
  refine ⟨_, unset_in a p b i ha hp hd hb hn v d es sp hf (by omega) e he, ?_⟩
  have : ∀ y : Value F, elements (.arr (((es ++ sp).set i y).take (i + 1)) (((es ++ sp).set i y).drop (i + 1))) =
      some (es.take i ++ [y]) := by
    intro y
    simp only [elements, Option.some.injEq]
    rw [List.set_append_left _ _ (by omega), List.take_append_of_le_length (by simp; omega),
      List.take_succ_eq_append_getElem (by simp; omega), List.take_set_of_le (Nat.le_refl _)]
    simp
  rw [this]
  refine ⟨rfl, ?_⟩
  intro h
  have := congrArg List.length (Option.some.inj h)
  simp at this
  omega

/-! ### Rejected queries -/

private theorem rejected_iff (q : Doc F) (items : List (Doc F)) : findMany items q = .error ↔ parseFilter q = none := by
  unfold findMany
  cases parseFilter q with
  | none => simp
  | some f =>
    simp only [reduceCtorEq, iff_false]
    induction items with
    | nil => simp [findLoop]
    | cons d ds ih =>
      simp only [findLoop]
      cases f.eval (.doc d) with
      | none => simp
      | some b => cases b <;> simp only <;> cases h : findLoop f ds <;> simp_all

private theorem filter_one (k : Name) (v : Value F) : parseFilter [(k, v)] = parseCond k v := by
  simp only [parseFilter, parseConds]
  cases parseCond k v <;> rfl

private theorem mapM_none {α β : Type} (f : α → Option β) (l : List α) : l.mapM f = none ↔ ∃ x ∈ l, f x = none := by
  induction l with
  | nil => simp
  | cons x l ih =>
    simp only [List.mapM_cons, List.mem_cons, exists_eq_or_imp, ← ih]
    cases f x <;> cases l.mapM f <;> simp

private theorem cond_op {k : Name} (hk : isOp k = false) (op : Name) (hop : isOp op = true) (v : Value F) :
    parseCond k (.doc [(op, v)]) = match parseArrayOps [(op, v)] with
      | none => none
      | some [] => match parseExistsOperators [(op, v)] with
        | none => none
        | some (some f) => some f
        | some none => (parseValueOperators [(op, v)]).map fun f => lookup k (.broadcast f)
      | some fs => if fs.length ≠ 1 then none else some (lookup k (mkAnd fs)) := by
  have hk' : ∀ o : Name, isOp o = true → ¬ k = o := by rintro o ho rfl; rw [hk] at ho; cases ho
  rw [parseCond.eq_def]
  simp only [if_neg (hk' kAnd rfl), if_neg (hk' kNot rfl), if_neg (hk' kOr rfl), if_neg (hk' kNor rfl), hk,
    Bool.false_eq_true, if_false, List.any_cons, hop, Bool.true_or, if_true, List.length_singleton]
  rcases parseArrayOps [(op, v)] with _ | (_ | ⟨f, fs⟩) <;> rfl

private theorem ne_rejected (k : Name) (hk : isOp k = false) (v : Value F) (items : List (Doc F)) :
    findMany items [(k, .doc [(kNe, v)])] = .error ↔ parseValue v = none := by
  rw [rejected_iff, filter_one, cond_op hk kNe rfl]
  have h1 : parseArrayOps [(kNe, v)] = some ([] : List (Filter F)) := by
    rw [parseArrayOps.eq_def]
    simp only [if_neg (show ¬ kNe = kAll by decide), if_neg (show ¬ kNe = kElemMatch by decide)]
    rw [parseArrayOps.eq_def]
  have h2 : parseExistsOperators ([(kNe, v)] : Doc F) = some none := by
    simp [parseExistsOperators, show ¬ kNe = kExists by decide]
  have h3 : parseNumericOperator kNe v = none := by
    simp only [parseNumericOperator, if_neg (show ¬ kNe = kEq by decide), if_neg (show ¬ kNe = kGt by decide),
      if_neg (show ¬ kNe = kGte by decide), if_neg (show ¬ kNe = kLt by decide), if_neg (show ¬ kNe = kLte by decide)]
    cases intValue v with
    | some i => rfl
    | none => simp only; cases floatValue v <;> rfl
  rw [h1]
  simp only [h2, parseValueOperators, List.mapM_cons, List.mapM_nil, parseValueOperator, h3,
    if_neg (show ¬ kNe = kEq by decide), if_true]
  cases parseValue v <;> simp

/-- C128: a query with `$all` is rejected iff its operand is not an array or contains a value that queries do not
support (one that `$ne` rejects too). -/
theorem C128_all (k : Name) (hk : Plain k) (items : List (Doc F)) :
    (∀ vs sp, findMany items [(k, .doc [(kAll, .arr vs sp)])] = .error ↔
      ∃ v ∈ vs, findMany items [(k, .doc [(kNe, v)])] = .error) ∧
    (∀ v, elements v = none → findMany items [(k, .doc [(kAll, v)])] = .error) := by
  constructor
  · intro vs sp
    simp only [ne_rejected k hk.notOp]
    rw [rejected_iff, filter_one, cond_op hk.notOp kAll rfl, parseArrayOps.eq_def, ← mapM_none]
    simp only [if_true]
    cases vs.mapM parseValue with
    | none => simp
    | some fs => simp [parseArrayOps]
  · intro v hv
    rw [rejected_iff, filter_one, cond_op hk.notOp kAll rfl, parseArrayOps.eq_def]
    cases v <;> first | (simp only [if_true]; done) | cases hv

/-- C128: a query with `$elemMatch` is rejected iff its operand is not a document or is itself a rejected query. -/
theorem C128_elem_match (k : Name) (hk : Plain k) (items : List (Doc F)) :
    (∀ q, findMany items [(k, .doc [(kElemMatch, .doc q)])] = .error ↔ findMany items q = .error) ∧
    (∀ v, (∀ q, v ≠ .doc q) → findMany items [(k, .doc [(kElemMatch, v)])] = .error) := by
  constructor
  · intro q
    rw [rejected_iff, rejected_iff, filter_one, cond_op hk.notOp kElemMatch rfl, parseArrayOps.eq_def]
    simp only [if_neg (show ¬ kElemMatch = kAll by decide), if_true, parseFilter]
    cases parseConds q with
    | none => simp
    | some fs => simp [parseArrayOps]
  · intro v hv
    rw [rejected_iff, filter_one, cond_op hk.notOp kElemMatch rfl, parseArrayOps.eq_def]
    simp only [if_neg (show ¬ kElemMatch = kAll by decide), if_true]

private theorem queries_none (parts : List (Doc F)) :
    parseQueries (parts.map .doc) = none ↔ ∃ p ∈ parts, parseFilter p = none := by
  induction parts with
  | nil => simp [parseQueries]
  | cons p ps ih =>
    simp only [List.map_cons, List.mem_cons, exists_eq_or_imp, ← ih]
    rw [parseQueries.eq_def]
    simp only [parseFilter]
    cases parseConds p <;> cases parseQueries (ps.map .doc) <;> simp

/-- C128: `$and`, `$or` and `$nor` are rejected iff one of their parts is, and `$not` iff its operand is: a malformed
part is never ignored. -/
theorem C128_logical (items : List (Doc F)) :
    (∀ k, k = kAnd ∨ k = kOr ∨ k = kNor → ∀ (parts : List (Doc F)) sp,
      findMany items [(k, .arr (parts.map .doc) sp)] = .error ↔ ∃ p ∈ parts, findMany items p = .error) ∧
    (∀ q : Doc F, findMany items [(kNot, .doc q)] = .error ↔ findMany items q = .error) ∧
    (∀ q r : Doc F, findMany items (q ++ r) = .error ↔ findMany items q = .error ∨ findMany items r = .error) := by
  refine ⟨?_, ?_, ?_⟩
  · intro k hk parts sp
    simp only [rejected_iff]
    rw [← queries_none, filter_one, parseCond.eq_def]
    rcases hk with rfl | rfl | rfl
    · simp
    · simp [show ¬ kOr = kAnd by decide, show ¬ kOr = kNot by decide]
    · simp [show ¬ kNor = kAnd by decide, show ¬ kNor = kNot by decide, show ¬ kNor = kOr by decide]
  · intro q
    simp only [rejected_iff]
    rw [filter_one, parseCond.eq_def]
    simp [show ¬ kNot = kAnd by decide, parseFilter]
  · intro q r
    simp only [rejected_iff, parseFilter, Option.map_eq_none_iff]
    induction q with
    | nil => simp [parseConds]
    | cons e q ih =>
      obtain ⟨k, v⟩ := e
      simp only [List.cons_append, parseConds]
      cases parseCond k v with
      | none => simp
      | some f => simpa using ih

end Verif.NoSQL
