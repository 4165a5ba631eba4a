import Verif.NoSQL.FilterLemmas
/-
C31-C34, C58 and C59: queries.
-/
namespace Verif.NoSQL
variable {F : Type} [Host F]

/-! ### Parsing -/

private theorem parseFilter_one (k : Name) (v : Value F) : parseFilter [(k, v)] = parseCond k v := by
  simp only [parseFilter, parseConds]
  cases parseCond k v <;> rfl

private theorem parseQueries_docs (parts : List (Doc F)) :
    parseQueries (parts.map .doc) = parts.mapM parseFilter := by
  induction parts with
  | nil => rfl
  | cons p ps ih =>
    simp only [List.map_cons, parseQueries, ih, List.mapM_cons, parseFilter]
    cases parseConds p with
    | none => rfl
    | some fs =>
      simp only [Option.map_some, Option.bind_eq_bind, Option.bind_some, Option.pure_def]
      cases List.mapM parseFilter ps <;> rfl

private theorem parts_parse (parts : List (Doc F)) (d : Doc F) (h : ∀ p ∈ parts, (matchesQuery p d).isSome) :
    ∃ fs, parts.mapM parseFilter = some fs ∧ fs.length = parts.length ∧ (∀ f ∈ fs, (f.eval (.doc d)).isSome) ∧
      fs.all (fun f => f.eval (.doc d) == some true) = parts.all (fun p => matchesQuery p d == some true) ∧
      fs.any (fun f => f.eval (.doc d) == some true) = parts.any (fun p => matchesQuery p d == some true) := by
  induction parts with
  | nil => exact ⟨[], rfl, rfl, by simp, rfl, rfl⟩
  | cons p ps ih =>
    obtain ⟨fs, h1, h2, h3, h4, h5⟩ := ih (fun q hq => h q (by simp [hq]))
    have hp := h p (by simp)
    rw [matchesQuery_eq] at hp
    cases hf : parseFilter p with
    | none => rw [hf] at hp; cases hp
    | some f =>
      rw [hf] at hp
      simp only [Option.bind_some] at hp
      refine ⟨f :: fs, ?_, ?_, ?_, ?_, ?_⟩
      · simp [hf, h1]
      · simp [h2]
      · intro g hg
        rcases List.mem_cons.1 hg with rfl | hg
        · exact hp
        · exact h3 g hg
      · simp only [List.all_cons, h4, matchesQuery_eq p d, hf, Option.bind_some]
      · simp only [List.any_cons, h5, matchesQuery_eq p d, hf, Option.bind_some]

private theorem parseCond_and (es sp : List (Value F)) : parseCond kAnd (.arr es sp) = (parseQueries es).map mkAnd := by
  rw [parseCond, if_pos rfl]

private theorem parseCond_or (es sp : List (Value F)) : parseCond kOr (.arr es sp) = (parseQueries es).map mkOr := by
  rw [parseCond, if_neg (by decide), if_neg (by decide), if_pos rfl]

private theorem parseCond_nor (es sp : List (Value F)) :
    parseCond kNor (.arr es sp) = (parseQueries es).map fun fs => .not (mkOr fs) := by
  rw [parseCond, if_neg (by decide), if_neg (by decide), if_neg (by decide), if_pos rfl]

private theorem parseCond_not (d : Doc F) :
    parseCond kNot (.doc d) = (parseConds d).map fun fs => .not (mkAnd fs) := by
  rw [parseCond, if_neg (by decide), if_pos rfl]

/-! ### C31 -/

/-- C31: `$and` matches iff all parts match. -/
theorem C31_and (parts : List (Doc F)) (sp : List (Value F)) (d : Doc F)
    (h : ∀ p ∈ parts, (matchesQuery p d).isSome) :
    matchesQuery [(kAnd, .arr (parts.map .doc) sp)] d = some (parts.all fun p => matchesQuery p d == some true) := by
  obtain ⟨fs, h1, h2, h3, h4, h5⟩ := parts_parse parts d h
  rw [matchesQuery_eq, parseFilter_one, parseCond_and, parseQueries_docs, h1]
  simp only [Option.map_some, Option.bind_some]
  rw [eval_mkAnd, evalAnd_some _ _ h3, h4]

/-- C31: `$or` of at least one part matches iff some part does.  Missing from the full property: the empty
`$or` (`C31_empty_or_refuted`). -/
theorem C31_or_partial (parts : List (Doc F)) (sp : List (Value F)) (d : Doc F) (hne : parts ≠ [])
    (h : ∀ p ∈ parts, (matchesQuery p d).isSome) :
    matchesQuery [(kOr, .arr (parts.map .doc) sp)] d = some (parts.any fun p => matchesQuery p d == some true) := by
  obtain ⟨fs, h1, h2, h3, h4, h5⟩ := parts_parse parts d h
  rw [matchesQuery_eq, parseFilter_one, parseCond_or, parseQueries_docs, h1]
  simp only [Option.map_some, Option.bind_some]
  have : fs ≠ [] := by
    intro e; subst e
    cases parts with
    | nil => exact hne rfl
    | cons => simp at h2
  rw [eval_mkOr _ _ this, evalOr_some _ _ h3, h5]

/-- C31: `$nor` of at least one part matches iff no part does.  Missing: the empty `$nor`
(`C31_empty_nor_refuted`). -/
theorem C31_nor_partial (parts : List (Doc F)) (sp : List (Value F)) (d : Doc F) (hne : parts ≠ [])
    (h : ∀ p ∈ parts, (matchesQuery p d).isSome) :
    matchesQuery [(kNor, .arr (parts.map .doc) sp)] d = some (!parts.any fun p => matchesQuery p d == some true) := by
  obtain ⟨fs, h1, h2, h3, h4, h5⟩ := parts_parse parts d h
  rw [matchesQuery_eq, parseFilter_one, parseCond_nor, parseQueries_docs, h1]
  simp only [Option.map_some, Option.bind_some]
  have : fs ≠ [] := by
    intro e; subst e
    cases parts with
    | nil => exact hne rfl
    | cons => simp at h2
  rw [Filter.eval, eval_mkOr _ _ this, evalOr_some _ _ h3, h5]
  rfl

/-- C31: `$not` matches iff its argument does not, and fails iff its argument does. -/
theorem C31_not (q d : Doc F) : matchesQuery [(kNot, .doc q)] d = (matchesQuery q d).map (!·) := by
  rw [matchesQuery_eq, parseFilter_one, parseCond_not, matchesQuery_eq, parseFilter]
  cases parseConds q with
  | none => rfl
  | some fs => simp only [Option.map_some, Option.bind_some]; rw [Filter.eval]

private theorem parseConds_append (q r : Doc F) :
    parseConds (q ++ r) = (parseConds q).bind fun a => (parseConds r).map (a ++ ·) := by
  induction q with
  | nil => simp [parseConds]
  | cons e q ih =>
    obtain ⟨k, v⟩ := e
    simp only [List.cons_append, parseConds, ih]
    cases parseCond k v with
    | none => rfl
    | some f =>
      cases parseConds q with
      | none => rfl
      | some a => cases parseConds r <;> simp

/-- C31: a query with several conditions matches iff all of them do. -/
theorem C31_several_conditions (q r d : Doc F) (hq : (matchesQuery q d).isSome) (hr : (matchesQuery r d).isSome) :
    matchesQuery (q ++ r) d = some (matchesQuery q d == some true && matchesQuery r d == some true) := by
  simp only [matchesQuery_eq, parseFilter, parseConds_append] at *
  cases h1 : parseConds q with
  | none => rw [h1] at hq; cases hq
  | some fs =>
    cases h2 : parseConds r with
    | none => rw [h2] at hr; cases hr
    | some gs =>
      rw [h1] at hq; rw [h2] at hr
      simp only [Option.map_some, Option.bind_some, eval_mkAnd] at hq hr ⊢
      rw [evalAnd_append]
      cases h3 : Filter.evalAnd fs (.doc d) with
      | none => rw [h3] at hq; cases hq
      | some b => cases b with
        | false => rfl
        | true =>
          cases h4 : Filter.evalAnd gs (.doc d) with
          | none => rw [h4] at hr; cases hr
          | some c => cases c <;> rfl

/-- C31: a query without conditions matches everything. -/
theorem C31_no_conditions (d : Doc F) : matchesQuery [] d = some true := rfl

private theorem all_congr {α} {p : α → Bool} {l m : List α} (h : l.Perm m) : l.all p = m.all p := by
  induction h with
  | nil => rfl
  | cons _ _ ih => simp [ih]
  | swap a b l => simp only [List.all_cons]; cases p a <;> cases p b <;> rfl
  | trans _ _ h1 h2 => exact h1.trans h2

private theorem any_congr {α} {p : α → Bool} {l m : List α} (h : l.Perm m) : l.any p = m.any p := by
  induction h with
  | nil => rfl
  | cons _ _ ih => simp [ih]
  | swap a b l => simp only [List.any_cons]; cases p a <;> cases p b <;> rfl
  | trans _ _ h1 h2 => exact h1.trans h2

/-- C31: the order of parts does not matter. -/
theorem C31_order_irrelevant (k : Name) (hk : k = kAnd ∨ k = kOr ∨ k = kNor) (parts parts' : List (Doc F))
    (sp sp' : List (Value F)) (d : Doc F) (hp : parts.Perm parts') (h : ∀ p ∈ parts, (matchesQuery p d).isSome) :
    matchesQuery [(k, .arr (parts.map .doc) sp)] d = matchesQuery [(k, .arr (parts'.map .doc) sp')] d := by
  have h' : ∀ p ∈ parts', (matchesQuery p d).isSome := fun p hm => h p (hp.mem_iff.2 hm)
  by_cases hne : parts = []
  · subst hne
    have : parts' = [] := by simpa using hp
    subst this
    rcases hk with rfl | rfl | rfl <;> simp [matchesQuery_eq, parseFilter_one, parseCond_and, parseCond_or, parseCond_nor]
  · have hne' : parts' ≠ [] := fun e => hne (by subst e; simpa using hp)
    rcases hk with rfl | rfl | rfl
    · rw [C31_and _ _ _ h, C31_and _ _ _ h', all_congr hp]
    · rw [C31_or_partial _ _ _ hne h, C31_or_partial _ _ _ hne' h', any_congr hp]
    · rw [C31_nor_partial _ _ _ hne h, C31_nor_partial _ _ _ hne' h', any_congr hp]

/-- C31: nesting does not matter: `$and` inside `$and`, `$or` inside `$or`. -/
theorem C31_nesting_irrelevant (parts qs : List (Doc F)) (sp sp' sp'' : List (Value F)) (d : Doc F) (hne : qs ≠ [])
    (h : ∀ p ∈ parts, (matchesQuery p d).isSome) (h' : ∀ p ∈ qs, (matchesQuery p d).isSome) :
    matchesQuery [(kAnd, .arr (([(kAnd, .arr (qs.map .doc) sp)] :: parts).map .doc) sp')] d =
      matchesQuery [(kAnd, .arr ((qs ++ parts).map .doc) sp'')] d ∧
    matchesQuery [(kOr, .arr (([(kOr, .arr (qs.map .doc) sp)] :: parts).map .doc) sp')] d =
      matchesQuery [(kOr, .arr ((qs ++ parts).map .doc) sp'')] d := by
  have hall : ∀ p ∈ qs ++ parts, (matchesQuery p d).isSome := by
    intro p hp
    rcases List.mem_append.1 hp with hp | hp
    · exact h' p hp
    · exact h p hp
  have hne' : qs ++ parts ≠ [] := by simp [hne]
  constructor
  · rw [C31_and _ _ _ hall, C31_and]
    · simp only [List.all_cons, C31_and _ _ _ h', List.all_append]
      cases (qs.all fun p => matchesQuery p d == some true) <;> rfl
    · intro p hp
      rcases List.mem_cons.1 hp with rfl | hp
      · rw [C31_and _ _ _ h']; rfl
      · exact h p hp
  · rw [C31_or_partial _ _ _ hne' hall, C31_or_partial _ _ _ (by simp)]
    · simp only [List.any_cons, C31_or_partial _ _ _ hne h', List.any_append]
      cases (qs.any fun p => matchesQuery p d == some true) <;> rfl
    · intro p hp
      rcases List.mem_cons.1 hp with rfl | hp
      · rw [C31_or_partial _ _ _ hne h']; rfl
      · exact h p hp

/-- C31 refuted: an `$or` without parts matches every document. -/
theorem C31_empty_or_refuted (d : Doc F) (sp : List (Value F)) : matchesQuery [(kOr, .arr [] sp)] d = some true := by
  rw [matchesQuery_eq, parseFilter_one, parseCond_or]; rfl

/-- C31 refuted: a `$nor` without parts matches no document. -/
theorem C31_empty_nor_refuted (d : Doc F) (sp : List (Value F)) : matchesQuery [(kNor, .arr [] sp)] d = some false := by
  rw [matchesQuery_eq, parseFilter_one, parseCond_nor]; rfl

/-! ### Conditions on selectors -/

private theorem not_logical {k : Name} (h : isOp k = false) : k ≠ kAnd ∧ k ≠ kNot ∧ k ≠ kOr ∧ k ≠ kNor := by
  refine ⟨?_, ?_, ?_, ?_⟩ <;> (rintro rfl; cases h)

private theorem parseCond_doc {k : Name} (h : isOp k = false) (d : Doc F) :
    parseCond k (.doc d) = if d.any (fun e => isOp e.1) then
          match parseArrayOps d with
          | none => none
          | some [] => match parseExistsOperators d with
            | none => none
            | some (some f) => some f
            | some none => (parseValueOperators d).map fun f => lookup k (.broadcast f)
          | some fs => if fs.length ≠ d.length then none else some (lookup k (mkAnd fs))
        else (parseValue (.doc d)).map fun f => lookup k (.broadcast f) := by
  obtain ⟨h1, h2, h3, h4⟩ := not_logical h
  rw [parseCond, if_neg h1, if_neg h2, if_neg h3, if_neg h4, if_neg (by simp [h])]
  split <;> rfl

/-- Operators that are neither array operators nor `$exists` are value operators. -/
private theorem parseCond_values {k : Name} (h : isOp k = false) (d : Doc F) (hop : d.any (fun e => isOp e.1) = true)
    (h1 : ∀ e ∈ d, e.1 ≠ kAll ∧ e.1 ≠ kElemMatch ∧ e.1 ≠ kExists) :
    parseCond k (.doc d) = (parseValueOperators d).map fun f => lookup k (.broadcast f) := by
  rw [parseCond_doc h, if_pos hop]
  have ha : ∀ d : Doc F, (∀ e ∈ d, e.1 ≠ kAll ∧ e.1 ≠ kElemMatch ∧ e.1 ≠ kExists) → parseArrayOps d = some [] ∧ parseExistsOperators d = some none := by
    intro d
    induction d with
    | nil => intro _; exact ⟨rfl, rfl⟩
    | cons e d ih =>
      intro h
      obtain ⟨k, v⟩ := e
      obtain ⟨a, b, c⟩ := h (k, v) (by simp)
      obtain ⟨i1, i2⟩ := ih (fun e he => h e (by simp [he]))
      constructor
      · rw [parseArrayOps.eq_def]; simp only [if_neg a, if_neg b]; exact i1
      · rw [parseExistsOperators.eq_def]; simp only [if_neg c]; exact i2
  obtain ⟨a1, a2⟩ := ha d h1
  simp only [a1, a2]

private theorem matches_broadcast {sel : Name} (hs : Selector sel) (v : Value F) (f : Filter F) (p : Value F → Bool)
    (hp : parseCond sel v = some (lookup sel (.broadcast f))) (hf : ∀ x, f.eval x = some (p x)) (d : Doc F) :
    matchesQuery [(sel, v)] d = some ((valuesAt sel d).any p) := by
  rw [matchesQuery_eq, parseFilter_one, hp]
  simp only [Option.bind_some]
  rw [eval_lookup sel _ hs.noNegative]
  have : (fun x => (Filter.broadcast f).eval x) = fun x => anyM (fun y => some (p y)) (spread x) := by
    funext x; rw [eval_broadcast]; congr 1; funext y; exact hf y
  rw [show (Filter.broadcast f).eval = _ from this]
  rw [← anyM_flatMap]
  exact anyM_some _ _ _ (fun _ _ => rfl)

/-! ### C32 -/

omit [Host F] in
private theorem any_ints (vs : List (Value F)) (p : Int → Bool) :
    (vs.any fun x => match intValue x with
      | some m => p m
      | none => false) = (ints vs).any p := by
  induction vs with
  | nil => rfl
  | cons v vs ih => cases v <;> simp_all [ints, intValue]

private theorem any_floats (vs : List (Value F)) (p : F → Bool) :
    (vs.any fun x => match floatValue x with
      | some m => p m
      | none => false) = (floats vs).any p := by
  induction vs with
  | nil => rfl
  | cons v vs ih => cases v <;> simp_all [floats, floatValue]

private theorem int_op {sel : Name} (hs : Selector sel) (op : Name) (c : Cmp) (kl : IntKind) (n : Int)
    (hop : parseNumericOperator op (.int kl n : Value F) = some (.cmpInt n c)) (ho : isOp op = true)
    (hne : op ≠ kAll ∧ op ≠ kElemMatch ∧ op ≠ kExists) (d : Doc F) :
    matchesQuery [(sel, .doc [(op, .int kl n)])] d = some ((ints (valuesAt sel d)).any fun m => cmpInts c m n) := by
  rw [← any_ints]
  refine matches_broadcast hs _ (.cmpInt n c) _ ?_ ?_ d
  · rw [parseCond_values hs.notOp _ (by simp [ho]) (by simpa using hne)]
    simp [parseValueOperators, parseValueOperator, hop, mkAnd]
  · intro x
    simp only [Filter.eval]
    cases intValue x <;> rfl

private theorem float_op {sel : Name} (hs : Selector sel) (op : Name) (c : Cmp) (w : F)
    (hop : parseNumericOperator op (.float w : Value F) = some (.cmpFloat w c)) (ho : isOp op = true)
    (hne : op ≠ kAll ∧ op ≠ kElemMatch ∧ op ≠ kExists) (d : Doc F) :
    matchesQuery [(sel, .doc [(op, .float w)])] d = some ((floats (valuesAt sel d)).any fun m => cmpFloats c m w) := by
  rw [← any_floats]
  refine matches_broadcast hs _ (.cmpFloat w c) _ ?_ ?_ d
  · rw [parseCond_values hs.notOp _ (by simp [ho]) (by simpa using hne)]
    simp [parseValueOperators, parseValueOperator, hop, mkAnd]
  · intro x
    simp only [Filter.eval]
    cases floatValue x <;> rfl

/-- C32: a comparison with an integer matches iff it holds for some integer that the selector reaches, whatever
the integer types.  Missing from the full property: fields with floating point numbers
(`C32_float_field_int_literal_refuted`). -/
theorem C32_int_literal_partial (sel : Name) (hs : Selector sel) (kl : IntKind) (n : Int) (d : Doc F) :
    let q (op : Name) := matchesQuery [(sel, .doc [(op, .int kl n)])] d
    let found (p : Int → Bool) := some ((ints (valuesAt sel d)).any p)
    q kEq = found (fun m => decide (m = n)) ∧ q kGt = found (fun m => decide (m > n)) ∧
    q kGte = found (fun m => decide (m ≥ n)) ∧ q kLt = found (fun m => decide (m < n)) ∧
    q kLte = found (fun m => decide (m ≤ n)) := by
  refine ⟨?_, ?_, ?_, ?_, ?_⟩
  · refine (int_op hs kEq .eq kl n rfl rfl (by decide) d).trans ?_
    congr 1
  · exact int_op hs kGt .gt kl n rfl rfl (by decide) d
  · exact int_op hs kGte .gte kl n rfl rfl (by decide) d
  · exact int_op hs kLt .lt kl n rfl rfl (by decide) d
  · exact int_op hs kLte .lte kl n rfl rfl (by decide) d

/-- C32: a comparison with a floating point number matches iff it holds for some number, integer or floating
point, that the selector reaches. -/
theorem C32_float_literal (sel : Name) (hs : Selector sel) (w : F) (d : Doc F) :
    let q (op : Name) := matchesQuery [(sel, .doc [(op, .float w)])] d
    let found (p : F → Bool) := some ((floats (valuesAt sel d)).any p)
    q kEq = found (fun m => Host.feq m w) ∧ q kGt = found (fun m => Host.flt w m) ∧
    q kGte = found (fun m => Host.fle w m) ∧ q kLt = found (fun m => Host.flt m w) ∧
    q kLte = found (fun m => Host.fle m w) :=
  ⟨float_op hs kEq .eq w rfl rfl (by decide) d, float_op hs kGt .gt w rfl rfl (by decide) d,
   float_op hs kGte .gte w rfl rfl (by decide) d, float_op hs kLt .lt w rfl rfl (by decide) d,
   float_op hs kLte .lte w rfl rfl (by decide) d⟩

theorem plain_selector {k : Name} (h : Plain k) : Selector k :=
  ⟨h.notOp, by
    intro p hp j hj
    rw [splitDots_plain h.noDot] at hp
    simp at hp
    rw [hp, h.notNumber] at hj; cases hj⟩

theorem valuesAt_plain {k : Name} (h : Plain k) (d : Doc F) :
    valuesAt k d = (field k d).toList.flatMap spread := by
  simp only [valuesAt, splitDots_plain h.noDot, reach, h.notNumber]
  cases field k d <;> simp [reach]

/-- C32: on a top-level integer field the five operators are the five comparisons; in particular `$lt` and
`$gte`, and `$gt` and `$lte`, are complementary. -/
theorem C32_int_field (k : Name) (hk : Plain k) (kl kd : IntKind) (n m : Int) (d : Doc F)
    (hd : field k d = some (.int kd m)) :
    let q (op : Name) := matchesQuery [(k, .doc [(op, .int kl n)])] d
    q kEq = some (decide (m = n)) ∧ q kGt = some (decide (m > n)) ∧ q kGte = some (decide (m ≥ n)) ∧
    q kLt = some (decide (m < n)) ∧ q kLte = some (decide (m ≤ n)) ∧
    q kLt = (q kGte).map (!·) ∧ q kGt = (q kLte).map (!·) := by
  have hv : ints (valuesAt k d) = [m] := by simp [valuesAt_plain hk, hd, spread, ints]
  obtain ⟨h1, h2, h3, h4, h5⟩ := C32_int_literal_partial k (plain_selector hk) kl n d
  simp only [hv, List.any_cons, List.any_nil, Bool.or_false] at h1 h2 h3 h4 h5
  refine ⟨h1, h2, h3, h4, h5, ?_, ?_⟩
  · simp only [h4, h3, Option.map_some, Option.some.injEq, ← decide_not]
    exact decide_eq_decide.2 (by omega)
  · simp only [h2, h5, Option.map_some, Option.some.injEq, ← decide_not]
    exact decide_eq_decide.2 (by omega)

/-- C32: comparisons never match a missing field or a field that is not a number (and not an array). -/
theorem C32_not_a_number (k : Name) (hk : Plain k) (kl : IntKind) (n : Int) (d : Doc F) (op : Name)
    (ho : op ∈ [kEq, kGt, kGte, kLt, kLte])
    (hd : ∀ x, field k d = some x → intValue x = none ∧ ∀ es sp, x ≠ .arr es sp) :
    matchesQuery [(k, .doc [(op, .int kl n)])] d = some false := by
  have hv : ints (valuesAt k d) = [] := by
    rw [valuesAt_plain hk]
    cases hf : field k d with
    | none => rfl
    | some x =>
      obtain ⟨h1, h2⟩ := hd x hf
      cases x with
      | arr es sp => exact absurd rfl (h2 es sp)
      | int => cases h1
      | _ => rfl
  obtain ⟨h1, h2, h3, h4, h5⟩ := C32_int_literal_partial k (plain_selector hk) kl n d
  simp only [hv, List.any_nil] at h1 h2 h3 h4 h5
  simp only [List.mem_cons, List.not_mem_nil, or_false] at ho
  rcases ho with rfl | rfl | rfl | rfl | rfl <;> assumption

/-- C32: a range matches iff some integer that the selector reaches lies in it. -/
theorem C32_range (sel : Name) (hs : Selector sel) (k1 k2 : IntKind) (lo hi : Int) (d : Doc F) :
    matchesQuery [(sel, .doc [(kGte, .int k1 lo), (kLt, .int k2 hi)])] d =
      some ((ints (valuesAt sel d)).any fun m => decide (lo ≤ m ∧ m < hi)) := by
  rw [← any_ints]
  refine matches_broadcast hs _ (.and [.cmpInt lo .gte, .cmpInt hi .lt]) _ ?_ ?_ d
  · rw [parseCond_values hs.notOp _ (by simp [isOp, kGte]) (by simp [kGte, kLt, kAll, kElemMatch, kExists])]
    rfl
  · intro x
    simp only [Filter.eval, Filter.evalAnd]
    cases intValue x with
    | none => rfl
    | some v =>
      simp only [cmpInts]
      by_cases h1 : lo ≤ v
      · by_cases h2 : v < hi <;> simp [h1, h2]
      · simp [h1]

/-- C32 refuted: a comparison with an integer never matches a field holding a floating point number, whichever
of the comparisons holds between them. -/
theorem C32_float_field_int_literal_refuted (k : Name) (hk : Plain k) (kl : IntKind) (n : Int) (f : F) (d : Doc F)
    (hd : field k d = some (.float f)) (op : Name) (ho : op ∈ [kEq, kGt, kGte, kLt, kLte]) :
    matchesQuery [(k, .doc [(op, .int kl n)])] d = some false :=
  C32_not_a_number k hk kl n d op ho (by intro x hx; rw [hd] at hx; cases hx; exact ⟨rfl, by intro _ _ h; cases h⟩)

/-! ### C33 -/

/-- C33 refuted: `$exists: true` is rejected. -/
theorem C33_exists_true_refuted (sel : Name) (h : isOp sel = false) (d : Doc F) :
    matchesQuery [(sel, .doc [(kExists, .bool true)])] d = none := by
  rw [matchesQuery_eq, parseFilter_one, parseCond_doc h]
  rfl

/-- C33 refuted: `$exists: false` on any field matches exactly the documents without a field named
`$exists`, hence also documents that have the field asked for. -/
theorem C33_exists_false_refuted (sel : Name) (h : isOp sel = false) (d : Doc F) :
    matchesQuery [(sel, .doc [(kExists, .bool false)])] d = some (field kExists d).isNone := by
  rw [matchesQuery_eq, parseFilter_one, parseCond_doc h]
  simp only [show ([(kExists, Value.bool false)] : Doc F).any (fun e => isOp e.1) = true from rfl, if_true,
    show parseArrayOps ([(kExists, Value.bool false)] : Doc F) = some [] from rfl,
    show parseExistsOperators ([(kExists, Value.bool false)] : Doc F) = some (some (.not (lookup kExists .exists))) from rfl,
    Option.bind_some]
  have hl : lookup kExists (Filter.exists (F := F)) = .select kExists .exists := by
    unfold lookup
    rw [splitDots_plain (by decide)]
    rfl
  rw [hl, Filter.eval, eval_select]
  cases field kExists d with
  | none => rfl
  | some v => simp [Filter.eval]

/-! ### C34 -/

private theorem literal_no_ops (d : Doc F) (h : literalFields d = true) : d.any (fun e => isOp e.1) = false := by
  induction d with
  | nil => rfl
  | cons e d ih =>
    obtain ⟨k, v⟩ := e
    simp only [literalFields, Bool.and_eq_true, Bool.not_eq_true'] at h
    simp [h.1.1.1, ih h.2]

private theorem parseCond_literal {sel : Name} (hs : isOp sel = false) (v : Value F) (hv : literal v = true) :
    ∃ f, parseCond sel v = some (lookup sel (.broadcast f)) ∧ ∀ x, f.eval x = some (same v x) := by
  obtain ⟨h1, h2, h3, h4⟩ := not_logical hs
  obtain ⟨f, p1, p2⟩ := parseValue_literal v hv
  cases v with
  | doc d =>
    refine ⟨f, ?_, p2⟩
    rw [parseCond_doc hs, if_neg (by simp [literal_no_ops d (by simpa [literal] using hv)]), p1]; rfl
  | arr => simp [literal] at hv
  | bad => simp [literal] at hv
  | _ =>
    refine ⟨f, ?_, p2⟩
    rw [parseCond, if_neg h1, if_neg h2, if_neg h3, if_neg h4, if_neg (by simp [hs])]
    · simp only [parseValue, Option.some.injEq] at p1
      rw [← p1]
    all_goals simp

/-- C34: a query value without arrays matches iff some value that the selector reaches (the elements, for an
array) is equal to it.  Missing from the full property: values containing arrays
(`C34_array_literal_refuted`, `C34_array_literal_prefix`). -/
theorem C34_literal_partial (sel : Name) (hs : Selector sel) (v : Value F) (hv : literal v = true) (d : Doc F) :
    matchesQuery [(sel, v)] d = some ((valuesAt sel d).any (same v)) := by
  obtain ⟨f, h1, h2⟩ := parseCond_literal hs.notOp v hv
  exact matches_broadcast hs v f _ h1 h2 d

/-- C34: on a top-level field. -/
theorem C34_field_partial (k : Name) (hk : Plain k) (v : Value F) (hv : literal v = true) (d : Doc F) :
    matchesQuery [(k, v)] d = some (match field k d with
      | none => false
      | some (.arr es _) => es.any (same v)
      | some x => same v x) := by
  rw [C34_literal_partial k (plain_selector hk) v hv, valuesAt_plain hk]
  cases field k d with
  | none => rfl
  | some x => cases x <;> simp [spread]

private theorem field_mem {k : Name} {d : Doc F} (h : k ∈ d.map (·.1)) : ∃ v, field k d = some v := by
  induction d with
  | nil => simp at h
  | cons e d ih =>
    obtain ⟨k', w⟩ := e
    by_cases hk : k' = k
    · exact ⟨w, by simp [field, hk]⟩
    · simp only [List.map_cons, List.mem_cons] at h
      obtain ⟨v, hv⟩ := ih (h.resolve_left (fun e => hk e.symm))
      exact ⟨v, by simp [field, hk, hv]⟩

theorem field_keys {k : Name} {d : Doc F} {v : Value F} (h : field k d = some v) : k ∈ d.map (·.1) := by
  induction d with
  | nil => simp [field] at h
  | cons e d ih =>
    obtain ⟨k', w⟩ := e
    simp only [field] at h
    split at h
    · rename_i hk; simp [hk]
    · simp [ih h]

private theorem sameFields_iff (a b : Doc F) (hn : (a.map (·.1)).Nodup) :
    sameFields a b = true ↔ ∀ k x, field k a = some x → ∃ y, field k b = some y ∧ same x y = true := by
  induction a with
  | nil => simp [sameFields, field]
  | cons e a ih =>
    obtain ⟨k, x⟩ := e
    simp only [List.map_cons, List.nodup_cons] at hn
    simp only [sameFields, Bool.and_eq_true, ih hn.2]
    constructor
    · rintro ⟨h1, h2⟩ k' x' hf
      simp only [field] at hf
      split at hf
      · rename_i hk; subst hk; cases hf
        cases hb : field k b with
        | none => simp [hb] at h1
        | some y => exact ⟨y, rfl, by simpa [hb] using h1⟩
      · exact h2 k' x' hf
    · intro h
      constructor
      · obtain ⟨y, hy, hs⟩ := h k x (by simp [field])
        simp [hy, hs]
      · intro k' x' hf
        apply h k' x'
        have : k ≠ k' := by rintro rfl; exact hn.1 (field_keys hf)
        simp [field, this, hf]

/-- C34: what equality means for documents: exactly the same fields, with equal values. -/
theorem C34_same_documents (a b : Doc F) (hn : (a.map (·.1)).Nodup) :
    same (.doc a) (.doc b) = true ↔ ∀ k, match field k a, field k b with
      | some x, some y => same x y = true
      | none, none => True
      | _, _ => False := by
  simp only [same, Bool.and_eq_true, sameFields_iff a b hn, List.all_eq_true, List.contains_iff_mem]
  constructor
  · rintro ⟨h1, h2⟩ k
    cases ha : field k a with
    | some x => obtain ⟨y, hy, hs⟩ := h1 k x ha; simp [hy, hs]
    | none =>
      cases hb : field k b with
      | none => trivial
      | some y =>
        obtain ⟨e, he, hk⟩ := List.mem_map.1 (field_keys hb)
        have := h2 e he
        rw [hk] at this
        obtain ⟨v, hv⟩ := field_mem this
        rw [ha] at hv; cases hv
  · intro h
    constructor
    · intro k x ha
      have := h k
      rw [ha] at this
      cases hb : field k b with
      | none => rw [hb] at this; exact this.elim
      | some y => rw [hb] at this; exact ⟨y, rfl, this⟩
    · intro e he
      obtain ⟨v, hv⟩ := field_mem (List.mem_map_of_mem (f := (·.1)) he)
      have := h e.1
      rw [hv] at this
      cases ha : field e.1 a with
      | none => rw [ha] at this; exact this.elim
      | some x => exact field_keys ha

private theorem parseElems_literal (vs : List (Value F)) : ∀ i, (∀ v ∈ vs, literal v = true) →
    ∃ fs, parseElems i vs = some fs ∧ fs.length = vs.length ∧ ∀ es sp, Filter.evalAnd fs (.arr es sp) =
      some (decide (vs = [] ∨ i + vs.length ≤ es.length) && (vs.zip (es.drop i)).all fun p => same p.1 p.2) := by
  induction vs with
  | nil => intro i _; exact ⟨[], rfl, rfl, fun es sp => by simp [Filter.evalAnd]⟩
  | cons v vs ih =>
    intro i h
    obtain ⟨f, p1, p2⟩ := parseValue_literal v (h v (by simp))
    obtain ⟨fs, q1, q2, q3⟩ := ih (i + 1) (fun w hw => h w (by simp [hw]))
    refine ⟨.index i f :: fs, ?_, by simp [q2], ?_⟩
    · have hl := h v (by simp)
      cases v with
      | arr => simp [literal] at hl
      | _ => simp only [parseElems, p1, q1, Option.map_some]
    · intro es sp
      simp only [Filter.evalAnd]
      rw [Filter.eval.eq_def]
      simp only [Int.toNat_natCast, q3]
      by_cases hl : i < es.length
      · rw [if_pos (by omega), if_neg (by omega)]
        rw [List.getElem?_eq_getElem hl]
        simp only [p2]
        rw [List.drop_eq_getElem_cons hl]
        simp only [List.zip_cons_cons, List.all_cons]
        cases same v es[i] with
        | false => simp
        | true =>
          simp only [Bool.true_and, Option.some.injEq]
          congr 1
          apply decide_eq_decide.2
          simp only [List.length_cons, reduceCtorEq, false_or]
          cases vs with
          | nil => simp; omega
          | cons => simp; omega
      · rw [if_neg (by omega)]
        have : ¬ (v :: vs = [] ∨ i + (v :: vs).length ≤ es.length) := by simp; omega
        rw [decide_eq_false this, Bool.false_and]

/-- C34: what an array value in a query means in the code: it matches arrays that begin with it, element by
element; the empty array matches everything. -/
theorem C34_array_literal_prefix (k : Name) (hk : Plain k) (vs sp : List (Value F)) (hv : ∀ v ∈ vs, literal v = true)
    (d : Doc F) :
    matchesQuery [(k, .arr vs sp)] d = some (match field k d with
      | none => false
      | some (.arr es _) => decide (vs.length ≤ es.length) && (vs.zip es).all fun p => same p.1 p.2
      | some _ => vs.isEmpty) := by
  obtain ⟨h1, h2, h3, h4⟩ := not_logical hk.notOp
  obtain ⟨fs, q1, q2, q3⟩ := parseElems_literal vs 0 hv
  rw [matchesQuery_eq, parseFilter_one, parseCond, if_neg h1, if_neg h2, if_neg h3, if_neg h4,
    if_neg (by simp [hk.notOp])]
  simp only [parseValue, q1, Option.map_some, Option.bind_some]
  rw [lookup_plain hk, eval_select]
  cases field k d with
  | none => rfl
  | some x =>
    simp only [eval_mkAnd]
    have hother : ∀ x : Value F, (∀ es sp, x ≠ .arr es sp) → Filter.evalAnd fs x = some vs.isEmpty := by
      intro x hx
      cases vs with
      | nil => simp at q2; subst q2; rfl
      | cons v vs =>
        cases v with
        | arr => have := hv _ List.mem_cons_self; simp [literal] at this
        | _ =>
          simp only [parseElems] at q1
          split at q1
          · cases q1
          · obtain ⟨gs, -, rfl⟩ := Option.map_eq_some_iff.1 q1
            simp only [Filter.evalAnd, Filter.eval]
            cases x <;> first | rfl | exact absurd rfl (hx _ _)
    cases x with
    | arr es sp' =>
      rw [q3 es sp']
      simp only [Nat.zero_add, List.drop_zero, Option.some.injEq]
      congr 1
      apply decide_eq_decide.2
      cases vs <;> simp
    | _ => exact hother _ (by intro _ _ h; cases h)

/-- C34 refuted: an array value matches a longer array, and the empty array value matches a field that is not
an array. -/
theorem C34_array_literal_refuted (k : Name) (hk : Plain k) :
    matchesQuery [(k, .arr [.int .int 1] [])] [(k, (.arr [.int .int 1, .int .int 2] [] : Value F))] = some true ∧
    matchesQuery [(k, .arr [] [])] [(k, (.str ['x'] : Value F))] = some true := by
  rw [C34_array_literal_prefix k hk _ _ (by simp [literal]), C34_array_literal_prefix k hk _ _ (by simp)]
  simp [field, same]

/-! ### C58 -/

/-- C58: a condition on a dotted selector is tried on exactly the values the path reaches: if the conditions
are literals, a document matches iff one of these values is equal to it. -/
theorem C58_subdocument_field (a b : Name) (ha : Plain a) (hb : Plain b) (v : Value F) (hv : literal v = true)
    (d : Doc F) :
    matchesQuery [(a ++ '.' :: b, v)] d = some (match field a d with
      | some (.doc sub) => (match field b sub with
        | some x => (spread x).any (same v)
        | none => false)
      | some (.arr es _) => es.any fun e => match e with
        | .doc sub => (match field b sub with
          | some x => (spread x).any (same v)
          | none => false)
        | _ => false
      | _ => false) := by
  have hsp : splitDots (a ++ '.' :: b) = [a, b] := by rw [splitDots_append ha.noDot, splitDots_plain hb.noDot]
  have hs : Selector (a ++ '.' :: b) := by
    refine ⟨?_, ?_⟩
    · cases a with
      | nil => rfl
      | cons c cs =>
        have := ha.notOp
        by_cases hc : c = '$'
        · subst hc; cases this
        · simp only [List.cons_append]
          unfold isOp
          split
          · rename_i heq; cases heq; exact absurd rfl hc
          · rfl
    · intro p hp j hj
      rw [hsp] at hp
      simp at hp
      rcases hp with rfl | rfl
      · rw [ha.notNumber] at hj; cases hj
      · rw [hb.notNumber] at hj; cases hj
  rw [C34_literal_partial _ hs v hv]
  simp only [valuesAt, hsp, reach, ha.notNumber, hb.notNumber]
  cases field a d with
  | none => rfl
  | some x =>
    cases x with
    | doc sub =>
      simp only [Option.toList_some, List.flatMap_cons, List.flatMap_nil, List.append_nil]
      cases field b sub with
      | none => rfl
      | some y => simp [reach]
    | arr es sp =>
      simp only [Option.toList_some, List.flatMap_cons, List.flatMap_nil, List.append_nil]
      rw [Option.some.injEq]
      induction es with
      | nil => rfl
      | cons e es ih =>
        simp only [List.flatMap_cons, List.flatMap_append, List.any_append, List.any_cons, ih]
        congr 1
        cases e with
        | doc sub =>
          simp only
          cases field b sub with
          | none => rfl
          | some y => simp [reach]
        | _ => rfl
    | _ => rfl

/-- C58: a number in a selector is an array position. -/
theorem C58_array_position (a : Name) (i : Nat) (p : Name) (ha : Plain a) (hp : atoi p = some (i : Int))
    (hd : '.' ∉ p) (v : Value F) (hv : literal v = true) (d : Doc F) :
    matchesQuery [(a ++ '.' :: p, v)] d = some (match field a d with
      | some (.arr es _) => (match es[i]? with
        | some x => (spread x).any (same v)
        | none => false)
      | _ => false) := by
  have hsp : splitDots (a ++ '.' :: p) = [a, p] := by rw [splitDots_append ha.noDot, splitDots_plain hd]
  have hs : Selector (a ++ '.' :: p) := by
    refine ⟨?_, ?_⟩
    · cases a with
      | nil => rfl
      | cons c cs =>
        have := ha.notOp
        by_cases hc : c = '$'
        · subst hc; cases this
        · simp only [List.cons_append]
          unfold isOp
          split
          · rename_i heq; cases heq; exact absurd rfl hc
          · rfl
    · intro q hq j hj
      rw [hsp] at hq
      simp at hq
      rcases hq with rfl | rfl
      · rw [ha.notNumber] at hj; cases hj
      · rw [hp] at hj; cases hj; omega
  rw [C34_literal_partial _ hs v hv]
  simp only [valuesAt, hsp, reach, ha.notNumber, hp]
  cases field a d with
  | none => rfl
  | some x =>
    cases x with
    | arr es sp =>
      simp only [Option.toList_some, List.flatMap_cons, List.flatMap_nil, List.append_nil, Int.toNat_natCast]
      cases es[i]? with
      | none => rfl
      | some y => simp [reach]
    | _ => rfl

/-- C58 refuted: a negative position makes the query panic on any document with a nonempty array there. -/
theorem C58_negative_position_refuted (a : Name) (ha : Plain a) (v x : Value F) (hv : literal v = true)
    (es sp : List (Value F)) (d : Doc F) (hd : field a d = some (.arr (x :: es) sp)) :
    findMany [d] [(a ++ ['.', '-', '1'], v)] = .panic := by
  have hsp : splitDots (a ++ ['.', '-', '1']) = [a, ['-', '1']] := by
    rw [splitDots_append ha.noDot]; rfl
  have hop : isOp (a ++ ['.', '-', '1']) = false := by
    cases a with
    | nil => rfl
    | cons c cs =>
      have := ha.notOp
      by_cases hc : c = '$'
      · subst hc; cases this
      · simp only [List.cons_append]
        unfold isOp
        split
        · rename_i heq; cases heq; exact absurd rfl hc
        · rfl
  obtain ⟨f, h1, h2⟩ := parseCond_literal hop v hv
  have hn : atoi ['-', '1'] = some (-1) := by decide
  unfold findMany
  rw [parseFilter_one, h1]
  simp only [findLoop, lookup, hsp, lookupPieces, ha.notNumber, hn, if_true]
  rw [eval_select, hd]
  simp only [Filter.eval]
  rw [if_pos (by simp; omega), if_pos (by omega)]

/-! ### C59 -/

private theorem mapM_literals (vs : List (Value F)) (h : ∀ v ∈ vs, literal v = true) :
    ∃ fs, vs.mapM parseValue = some fs ∧ fs.length = vs.length ∧
      ∀ x, Filter.evalOr fs x = some (vs.any fun v => same v x) := by
  induction vs with
  | nil => exact ⟨[], rfl, rfl, fun x => rfl⟩
  | cons v vs ih =>
    obtain ⟨f, p1, p2⟩ := parseValue_literal v (h v (by simp))
    obtain ⟨fs, q1, q2, q3⟩ := ih (fun w hw => h w (by simp [hw]))
    refine ⟨f :: fs, by simp [p1, q1], by simp [q2], ?_⟩
    intro x
    simp only [Filter.evalOr, p2, List.any_cons]
    cases same v x with
    | true => rfl
    | false => simp [q3]

/-- C59: `$in` matches iff some value that the selector reaches is equal to one of the listed values. -/
theorem C59_in (sel : Name) (hs : Selector sel) (vs sp : List (Value F)) (hv : ∀ v ∈ vs, literal v = true) (d : Doc F) :
    matchesQuery [(sel, .doc [(kIn, .arr vs sp)])] d = some ((valuesAt sel d).any fun x => vs.any fun v => same v x) := by
  cases vs with
  | nil =>
    refine matches_broadcast hs _ (.not .exists) _ ?_ ?_ d
    · rw [parseCond_values hs.notOp _ (by simp [isOp, kIn]) (by simp [kIn, kAll, kElemMatch, kExists])]
      rfl
    · intro x; simp [Filter.eval]
  | cons v vs =>
    obtain ⟨fs, q1, q2, q3⟩ := mapM_literals (v :: vs) hv
    have hne : fs ≠ [] := by intro e; subst e; simp at q2
    refine matches_broadcast hs _ (mkOr fs) _ ?_ ?_ d
    · rw [parseCond_values hs.notOp _ (by simp [isOp, kIn]) (by simp [kIn, kAll, kElemMatch, kExists])]
      unfold parseValueOperators parseValueOperator
      rw [List.mapM_cons]
      simp only [show parseNumericOperator kIn (.arr (v :: vs) sp : Value F) = none from rfl,
        if_neg (show ¬ kIn = kEq by decide), if_neg (show ¬ kIn = kNe by decide), if_true]
      rw [q1]
      rfl
    · intro x
      rw [eval_mkOr _ _ hne, q3]

/-- C59: `$ne` on a top-level field that is present and not an array matches iff the field is not equal to the
value.  Missing from the full property: missing fields and arrays (`C59_ne_refuted`). -/
theorem C59_ne_partial (k : Name) (hk : Plain k) (v x : Value F) (hv : literal v = true)
    (d : Doc F) (hd : field k d = some x) (hx : ∀ es sp, x ≠ .arr es sp) :
    matchesQuery [(k, .doc [(kNe, v)])] d = some (!same v x) := by
  obtain ⟨f, p1, p2⟩ := parseValue_literal v hv
  rw [matches_broadcast (plain_selector hk) _ (.not f) (fun y => !same v y) ?_ ?_ d]
  · rw [valuesAt_plain hk, hd]
    cases x with
    | arr es sp => exact absurd rfl (hx es sp)
    | _ => simp [spread]
  · rw [parseCond_values hk.notOp _ (by simp [isOp, kNe]) (by simp [kNe, kAll, kElemMatch, kExists])]
    simp only [parseValueOperators, List.mapM_cons, List.mapM_nil, parseValueOperator]
    have : parseNumericOperator kNe v = none := by
      unfold parseNumericOperator
      cases v <;> rfl
    simp only [this, if_neg (show ¬ kNe = kEq by decide), if_true, p1]
    rfl
  · intro y; simp [Filter.eval, p2]

/-- C59 refuted: `$ne` does not match a document without the field, although the field is not equal to the value,
and matches an array that contains the value if it contains another one. -/
theorem C59_ne_refuted (k : Name) (hk : Plain k) :
    matchesQuery [(k, .doc [(kNe, .int .int 1)])] ([] : Doc F) = some false ∧
    matchesQuery [(k, .int .int 1)] [(k, (.arr [.int .int 1, .int .int 2] [] : Value F))] = some true ∧
    matchesQuery [(k, .doc [(kNe, .int .int 1)])] [(k, (.arr [.int .int 1, .int .int 2] [] : Value F))] = some true := by
  have h : ∀ d : Doc F, matchesQuery [(k, .doc [(kNe, .int .int 1)])] d =
      some ((valuesAt k d).any fun y => !same (.int .int 1) y) := by
    intro d
    refine matches_broadcast (plain_selector hk) _ (.not (.cmpInt 1 .eq)) _ ?_ ?_ d
    · rw [parseCond_values hk.notOp _ (by simp [isOp, kNe]) (by simp [kNe, kAll, kElemMatch, kExists])]
      rfl
    · intro x
      simp only [Filter.eval]
      cases x <;> simp [same, intValue, cmpInts]
      exact Bool.beq_comm
  have hf : ∀ x : Value F, field k [(k, x)] = some x := by intro x; simp [field]
  refine ⟨?_, ?_, ?_⟩
  · rw [h, valuesAt_plain hk]; rfl
  · rw [C34_field_partial k hk _ rfl, hf]
    simp only [same, List.any_cons]
    rfl
  · rw [h, valuesAt_plain hk, hf]
    simp only [same, spread, Option.toList_some, List.flatMap_cons, List.any_append, List.any_cons]
    rfl

private theorem parseCond_arrayOp {k : Name} (h : isOp k = false) (op : Name) (v : Value F) (f : Filter F)
    (hop : isOp op = true) (ha : parseArrayOps [(op, v)] = some [f]) :
    parseCond k (.doc [(op, v)]) = some (lookup k f) := by
  rw [parseCond_doc h, if_pos (by simp [hop]), ha]
  rfl

private theorem evalAll_literals (fs : List (Filter F)) (vs es : List (Value F))
    (h : fs.length = vs.length) (hf : ∀ i (h1 : i < fs.length) (h2 : i < vs.length) x, fs[i].eval x = some (same vs[i] x)) :
    Filter.evalAll fs es = some (vs.all fun v => es.any (same v)) := by
  induction fs generalizing vs with
  | nil => cases vs with
    | nil => rfl
    | cons => cases h
  | cons f fs ih =>
    cases vs with
    | nil => cases h
    | cons v vs =>
      have h0 : ∀ x, f.eval x = some (same v x) := fun x => hf 0 (by simp) (by simp) x
      rw [Filter.evalAll, anyM_some (fun e => f.eval e) (same v) es (fun x _ => h0 x)]
      simp only [List.all_cons]
      cases es.any (same v) with
      | false => rfl
      | true =>
        simp only [Bool.true_and]
        exact ih vs (by simpa using h) (fun i h1 h2 x => hf (i + 1) (by simpa using h1) (by simpa using h2) x)

private theorem mapM_literals_at (vs : List (Value F)) (h : ∀ v ∈ vs, literal v = true) :
    ∃ fs, vs.mapM parseValue = some fs ∧ fs.length = vs.length ∧
      ∀ i (h1 : i < fs.length) (h2 : i < vs.length) x, fs[i].eval x = some (same vs[i] x) := by
  induction vs with
  | nil => exact ⟨[], rfl, rfl, fun i h1 => by simp at h1⟩
  | cons v vs ih =>
    obtain ⟨f, p1, p2⟩ := parseValue_literal v (h v (by simp))
    obtain ⟨fs, q1, q2, q3⟩ := ih (fun w hw => h w (by simp [hw]))
    refine ⟨f :: fs, by simp [p1, q1], by simp [q2], ?_⟩
    intro i h1 h2 x
    cases i with
    | zero => exact p2 x
    | succ i => exact q3 i (by simpa using h1) (by simpa using h2) x

/-- C59: `$all` matches iff the field is an array that contains all the listed values. -/
theorem C59_all (k : Name) (hk : Plain k) (vs sp : List (Value F)) (hv : ∀ v ∈ vs, literal v = true) (d : Doc F) :
    matchesQuery [(k, .doc [(kAll, .arr vs sp)])] d = some (match field k d with
      | some (.arr es _) => vs.all fun v => es.any (same v)
      | _ => false) := by
  obtain ⟨fs, q1, q2, q3⟩ := mapM_literals_at vs hv
  have ha : parseArrayOps ([(kAll, .arr vs sp)] : Doc F) = some [.all fs] := by
    rw [parseArrayOps.eq_def]
    simp only [if_true, q1]
    rfl
  rw [matchesQuery_eq, parseFilter_one, parseCond_arrayOp hk.notOp kAll _ _ rfl ha]
  simp only [Option.bind_some]
  rw [lookup_plain hk, eval_select]
  cases field k d with
  | none => rfl
  | some x => cases x with
    | arr es sp' => simp only [Filter.eval]; exact evalAll_literals fs vs es q2 q3
    | _ => simp [Filter.eval]

/-- C59: `$elemMatch` with conditions matches an array of documents iff one of them matches the conditions. -/
theorem C59_elem_match (k : Name) (hk : Plain k) (q d : Doc F) (ds : List (Doc F)) (sp : List (Value F))
    (hf : field k d = some (.arr (ds.map .doc) sp)) (hne : ds ≠ []) (h : ∀ e ∈ ds, (matchesQuery q e).isSome) :
    matchesQuery [(k, .doc [(kElemMatch, .doc q)])] d = some (ds.any fun e => matchesQuery q e == some true) := by
  obtain ⟨d0, hd0⟩ := List.exists_mem_of_ne_nil ds hne
  have h0 := h d0 hd0
  rw [matchesQuery_eq] at h0
  cases hp : parseConds q with
  | none => simp [parseFilter, hp] at h0
  | some fs =>
    have ha : parseArrayOps ([(kElemMatch, .doc q)] : Doc F) = some [.broadcast (mkAnd fs)] := by
      rw [parseArrayOps.eq_def]
      simp only [if_neg (show ¬ kElemMatch = kAll by decide), if_true, hp]
      rfl
    rw [matchesQuery_eq, parseFilter_one, parseCond_arrayOp hk.notOp kElemMatch _ _ rfl ha]
    simp only [Option.bind_some]
    rw [lookup_plain hk, eval_select, hf]
    simp only
    rw [eval_broadcast]
    simp only [spread]
    have hm : ∀ e, matchesQuery q e = (mkAnd fs).eval (.doc e) := by
      intro e; rw [matchesQuery_eq, parseFilter, hp]; rfl
    clear ha hf hne hd0
    induction ds with
    | nil => rfl
    | cons e ds ih =>
      have he := h e (by simp)
      simp only [List.map_cons, anyM, List.any_cons, ← hm]
      cases hx : matchesQuery q e with
      | none => rw [hx] at he; cases he
      | some b => cases b with
        | true => rfl
        | false => exact ih (fun x hx => h x (by simp [hx]))

end Verif.NoSQL
