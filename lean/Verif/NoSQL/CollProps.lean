import Verif.NoSQL.FilterProps
/-
C35-C38 and C43: collections.
-/
namespace Verif.NoSQL
variable {F : Type} [Host F]

private theorem defined_parse {q : Doc F} {items : List (Doc F)} (h : Defined q items) :
    ∃ f, parseFilter q = some f ∧ (∀ d, matchesQuery q d = f.eval (.doc d)) ∧
      ∀ d ∈ items, f.eval (.doc d) = some (hit q d) := by
  have h1 := h.accepted
  unfold findMany at h1
  cases hf : parseFilter q with
  | none => rw [hf] at h1; cases h1
  | some f =>
    have hm : ∀ d, matchesQuery q d = f.eval (.doc d) := by intro d; rw [matchesQuery_eq, hf]; rfl
    refine ⟨f, rfl, hm, ?_⟩
    intro d hd
    have := h.total d hd
    rw [hm] at this
    simp only [hit, hm]
    cases he : f.eval (.doc d) with
    | none => rw [he] at this; cases this
    | some b => cases b <;> rfl

private theorem findLoop_eq (f : Filter F) (p : Doc F → Bool) (items : List (Doc F))
    (h : ∀ d ∈ items, f.eval (.doc d) = some (p d)) : findLoop f items = .ok (items.filter p) := by
  induction items with
  | nil => rfl
  | cons d ds ih =>
    simp only [findLoop, h d (by simp), ih (fun e he => h e (by simp [he])), List.filter_cons]

private theorem firstMatch_eq (f : Filter F) (p : Doc F → Bool) (items : List (Doc F))
    (h : ∀ d ∈ items, f.eval (.doc d) = some (p d)) : firstMatch f items = .ok (items.findIdx? p) := by
  induction items with
  | nil => rfl
  | cons d ds ih =>
    simp only [firstMatch, h d (by simp), ih (fun e he => h e (by simp [he])), List.findIdx?_cons]
    cases p d with
    | true => rfl
    | false => cases List.findIdx? p ds <;> rfl

/-! ### C35 -/

/-- C35: `FindMany` returns exactly the matching documents, in order. -/
theorem C35_find_many (q : Doc F) (items : List (Doc F)) (h : Defined q items) :
    findMany items q = .ok (items.filter (hit q)) := by
  obtain ⟨f, h1, h2, h3⟩ := defined_parse h
  unfold findMany
  rw [h1]
  exact findLoop_eq f _ items h3

private theorem findIdx_get (p : Doc F → Bool) (items : List (Doc F)) :
    (match items.findIdx? p with
      | some i => items[i]?
      | none => none) = items.find? p := by
  induction items with
  | nil => rfl
  | cons d ds ih =>
    simp only [List.findIdx?_cons, List.find?_cons]
    cases p d with
    | true => rfl
    | false =>
      simp only [Bool.false_eq_true, if_false, ← ih]
      cases List.findIdx? p ds <;> simp

/-- C35: `FindOne` returns the first of them. -/
theorem C35_find_one (q : Doc F) (items : List (Doc F)) (h : Defined q items) :
    findOne items q = .ok (items.find? (hit q)) ∧
    ∀ r, findMany items q = .ok r → findOne items q = .ok r.head? := by
  obtain ⟨f, h1, h2, h3⟩ := defined_parse h
  have e : findOne items q = .ok (items.find? (hit q)) := by
    unfold findOne
    rw [h1]
    simp only [firstMatch_eq f _ items h3, ← findIdx_get]
    cases List.findIdx? (hit q) items <;> rfl
  refine ⟨e, ?_⟩
  intro r hr
  rw [C35_find_many q items h] at hr
  cases hr
  rw [e, List.head?_filter]

/-- C35: whether a query is rejected does not depend on the collection. -/
theorem C35_rejection_uniform (q : Doc F) (items items' : List (Doc F)) (h : findMany items q = .error) :
    findMany items' q = .error ∧ findOne items' q = .error := by
  have : ∀ (f : Filter F) (l : List (Doc F)), findLoop f l ≠ .error := by
    intro f l
    induction l with
    | nil => simp [findLoop]
    | cons d ds ih =>
      unfold findLoop
      cases f.eval (.doc d) with
      | none => simp
      | some b =>
        simp only
        cases hl : findLoop f ds <;> simp_all
  unfold findMany at h
  cases hf : parseFilter q with
  | none => simp [findMany, findOne, hf]
  | some f => rw [hf] at h; exact absurd h (this f items)

/-! ### C36 -/

private theorem deleteLoop_eq (f : Filter F) (p : Doc F → Bool) (items : List (Doc F)) :
    ∀ (ds : List (Doc F)) (i b : Nat) (acc : List (Doc F)), (∀ d ∈ ds, f.eval (.doc d) = some (p d)) →
      items.drop i = ds → b ≤ i →
      acc ++ (items.drop b).take (i - b) = (items.take i).filter (fun d => !p d) →
      ∃ b' acc', deleteLoop f items i b acc ds = some (b', acc') ∧
        (if b' < items.length then acc' ++ (items.drop b').take (items.length - b') else acc') =
          items.filter (fun d => !p d) := by
  intro ds
  induction ds with
  | nil =>
    intro i b acc _ hd hb ha
    have hl : items.length ≤ i := by simpa using hd
    refine ⟨b, acc, rfl, ?_⟩
    rw [List.take_of_length_le hl] at ha
    have : (items.drop b).take (i - b) = items.drop b := List.take_of_length_le (by simp; omega)
    rw [this] at ha
    split
    · rw [← ha]
      congr 1
      exact List.take_of_length_le (by simp)
    · rw [← ha, List.drop_eq_nil_of_le (by omega), List.append_nil]
  | cons d ds ih =>
    intro i b acc h hd hb ha
    have hil : i < items.length := by
      rcases Nat.lt_or_ge i items.length with h | h
      · exact h
      · rw [List.drop_eq_nil_of_le h] at hd; cases hd
    have hget : items[i] = d := by
      have := List.drop_eq_getElem_cons hil
      rw [hd] at this
      exact (List.cons.inj this).1.symm
    have hd' : items.drop (i + 1) = ds := by
      have := List.drop_eq_getElem_cons hil
      rw [hd] at this
      exact (List.cons.inj this).2.symm
    have htake : items.take (i + 1) = items.take i ++ [d] := by
      rw [List.take_succ_eq_append_getElem hil, hget]
    simp only [deleteLoop, h d (by simp)]
    cases hp : p d with
    | false =>
      simp only
      apply ih (i + 1) b acc (fun e he => h e (by simp [he])) hd' (by omega)
      rw [htake, List.filter_append, ← ha, List.append_assoc]
      congr 1
      have hlen : i - b < (items.drop b).length := by simp; omega
      rw [show i + 1 - b = (i - b) + 1 by omega, List.take_succ_eq_append_getElem hlen]
      congr 1
      simp [hp, hget, show b + (i - b) = i by omega]
    | true =>
      simp only
      apply ih (i + 1) (i + 1) _ (fun e he => h e (by simp [he])) hd' (by omega)
      rw [htake, List.filter_append, ← ha]
      simp only [Nat.sub_self, List.take_zero, List.append_nil, List.filter_cons, hp, Bool.not_true,
        Bool.false_eq_true, if_false, List.filter_nil]
      split
      · rfl
      · rw [show i - b = 0 by omega]; simp

/-- C36: `DeleteMany` removes exactly the matching documents and keeps the order. -/
theorem C36_delete_many (q : Doc F) (items : List (Doc F)) (h : Defined q items) :
    deleteMany items q = (items.filter (fun d => !hit q d), .ok ()) := by
  obtain ⟨f, h1, h2, h3⟩ := defined_parse h
  obtain ⟨b, acc, e1, e2⟩ := deleteLoop_eq f (hit q) items items 0 0 [] h3 rfl (Nat.le_refl _) (by simp)
  unfold deleteMany
  rw [h1]
  simp only [e1, e2]

private theorem take_drop_eraseIdx {α} (l : List α) (i : Nat) : l.take i ++ l.drop (i + 1) = l.eraseIdx i := by
  rw [List.eraseIdx_eq_take_drop_succ]

private theorem erase_first (p : Doc F → Bool) (items : List (Doc F)) :
    (match items.findIdx? p with
      | some i => items.take i ++ items.drop (i + 1)
      | none => items) = items.eraseP p := by
  induction items with
  | nil => rfl
  | cons d ds ih =>
    simp only [List.findIdx?_cons, List.eraseP_cons]
    cases p d with
    | true => simp
    | false =>
      simp only [Bool.false_eq_true, if_false, cond_false, ← ih]
      cases List.findIdx? p ds <;> simp

/-- C36: `DeleteOne` removes exactly the first matching document. -/
theorem C36_delete_one (q : Doc F) (items : List (Doc F)) (h : Defined q items) :
    deleteOne items q = (items.eraseP (hit q), .ok ()) := by
  obtain ⟨f, h1, h2, h3⟩ := defined_parse h
  unfold deleteOne
  rw [h1]
  simp only [firstMatch_eq f _ items h3, ← erase_first]
  cases List.findIdx? (hit q) items <;> rfl

private theorem defined_sub {q : Doc F} {items items' : List (Doc F)} (h : Defined q items) (hs : ∀ d ∈ items', d ∈ items) :
    Defined q items' := ⟨h.accepted, fun d hd => h.total d (hs d hd)⟩

/-- C36: deleting again removes nothing, and afterwards nothing is found; deleting one by one as often as there
are matches is deleting all. -/
theorem C36_delete_idempotent (q : Doc F) (items : List (Doc F)) (h : Defined q items) :
    deleteMany (deleteMany items q).1 q = deleteMany items q ∧
    findMany (deleteMany items q).1 q = .ok [] ∧
    (List.replicate (items.filter (hit q)).length ()).foldl (fun l _ => (deleteOne l q).1) items = (deleteMany items q).1 := by
  rw [C36_delete_many q items h]
  have hd : Defined q (items.filter fun d => !hit q d) := defined_sub h (fun d hd => (List.mem_filter.1 hd).1)
  refine ⟨?_, ?_, ?_⟩
  · rw [C36_delete_many q _ hd]
    simp
  · rw [C35_find_many q _ hd]
    congr 1
    simp [List.filter_filter]
  · generalize hn : (items.filter (hit q)).length = n
    induction n generalizing items with
    | zero =>
      have : items.filter (hit q) = [] := List.eq_nil_of_length_eq_zero hn
      rw [List.filter_eq_nil_iff] at this
      symm
      simp only [List.replicate_zero, List.foldl_nil]
      rw [List.filter_eq_self]
      intro d hd
      simpa using this d hd
    | succ n ih =>
      have hs : Defined q (items.eraseP (hit q)) := defined_sub h (fun d hd => List.mem_of_mem_eraseP hd)
      have h1 : ∀ items : List (Doc F), (items.eraseP (hit q)).filter (fun d => !hit q d) = items.filter fun d => !hit q d := by
        intro items
        induction items with
        | nil => rfl
        | cons d ds ih =>
          rw [List.eraseP_cons]
          cases hp : hit q d with
          | true => simp [hp]
          | false => simp [hp, ih]
      have h2 : ∀ items : List (Doc F), (items.filter (hit q)).length = n + 1 → ((items.eraseP (hit q)).filter (hit q)).length = n := by
        intro items
        induction items with
        | nil => intro h; cases h
        | cons d ds ih =>
          rw [List.eraseP_cons]
          cases hp : hit q d with
          | true => simp [hp]
          | false => simp [hp]; exact ih
      simp only [List.replicate_succ, List.foldl_cons]
      rw [C36_delete_one q items h, ih _ hs (defined_sub hs (fun d hd => (List.mem_filter.1 hd).1)) (h2 items hn), h1]

/-! ### C37 -/

/-- C37: inserting a document appends it, with an `_id` put in front iff it had none; nothing else changes. -/
theorem C37_insert_one (items : List (Doc F)) (doc : Input F) (d : Doc F) (newId : Nat)
    (h : doc = .raw d ∨ doc = .obj (some d)) :
    ∃ d', insertOne items doc newId = (items ++ [d'], .ok ()) ∧
      (kId ∈ d.map (·.1) → d' = d) ∧ (kId ∉ d.map (·.1) → d' = (kId, .oid newId) :: d) ∧
      kId ∈ d'.map (·.1) := by
  refine ⟨if d.any (fun e => e.1 == kId) then d else (kId, .oid newId) :: d, ?_, ?_, ?_, ?_⟩
  · rcases h with rfl | rfl <;> rfl
  · intro hk
    rw [if_pos]
    obtain ⟨e, he, hk⟩ := List.mem_map.1 hk
    exact List.any_eq_true.2 ⟨e, he, by simp [hk]⟩
  · intro hk
    rw [if_neg]
    intro ha
    obtain ⟨e, he, hb⟩ := List.any_eq_true.1 ha
    exact hk (List.mem_map.2 ⟨e, he, by simpa using hb⟩)
  · split
    · rename_i ha
      obtain ⟨e, he, hb⟩ := List.any_eq_true.1 ha
      exact List.mem_map.2 ⟨e, he, by simpa using hb⟩
    · simp

/-- C37: a value that cannot be converted is refused and nothing changes. -/
theorem C37_insert_error (items : List (Doc F)) (newId : Nat) :
    insertOne items (.obj none) newId = (items, .error) := rfl

/-- C37: inserting many is inserting one by one, until the first that is refused. -/
theorem C37_insert_many (items : List (Doc F)) (docs rest : List (Input F × Nat)) (bad : Nat)
    (h : ∀ d ∈ docs, d.1 ≠ .obj none) :
    insertMany items docs = (docs.foldl (fun l d => (insertOne l d.1 d.2).1) items, .ok ()) ∧
    insertMany items (docs ++ (.obj none, bad) :: rest) =
      (docs.foldl (fun l d => (insertOne l d.1 d.2).1) items, .error) := by
  induction docs generalizing items with
  | nil => exact ⟨rfl, rfl⟩
  | cons d ds ih =>
    obtain ⟨doc, i⟩ := d
    have : ∃ d0, doc = .raw d0 ∨ doc = .obj (some d0) := by
      cases doc with
      | raw d0 => exact ⟨d0, Or.inl rfl⟩
      | obj b => cases b with
        | none => exact absurd rfl (h _ List.mem_cons_self)
        | some d0 => exact ⟨d0, Or.inr rfl⟩
    obtain ⟨d0, h0⟩ := this
    obtain ⟨d', e, -⟩ := C37_insert_one items doc d0 i h0
    obtain ⟨i1, i2⟩ := ih (items ++ [d']) (fun x hx => h x (by simp [hx]))
    simp only [insertMany, e, List.cons_append, List.foldl_cons, i1, i2, and_self]

/-! ### C38: which documents -/

theorem updateDoc_eq (u d : Doc F) (us : List (Update F)) (h : parseUpdate u = some us) :
    updateDoc u d = (asDoc (applyAll us (.doc d)).1, (applyAll us (.doc d)).2) := by
  simp only [updateDoc, updateOne, h, parseFilter, parseConds, Option.map_some, mkAnd, firstMatch, Filter.eval]
  rfl

private theorem accepted_update (u : Doc F) (h : updateOne [] [] u = ([], 0, .ok)) : ∃ us, parseUpdate u = some us := by
  cases hu : parseUpdate u with
  | some us => exact ⟨us, rfl⟩
  | none => simp [updateOne, parseFilter, parseConds, hu] at h

/-- C38: `UpdateOne` changes at most the first matching document, to what the update makes of that document,
and returns how many it changed. -/
theorem C38_update_one (q u : Doc F) (items : List (Doc F)) (h : Defined q items) (hu : updateOne [] [] u = ([], 0, .ok)) :
    ((∀ d ∈ items, hit q d = false) ∧ updateOne items q u = (items, 0, .ok)) ∨
    ∃ pre d post, items = pre ++ d :: post ∧ (∀ e ∈ pre, hit q e = false) ∧ hit q d = true ∧
      updateOne items q u = (pre ++ (updateDoc u d).1 :: post, 1, (updateDoc u d).2) := by
  obtain ⟨f, h1, h2, h3⟩ := defined_parse h
  obtain ⟨us, hus⟩ := accepted_update u hu
  unfold updateOne
  rw [h1, hus]
  simp only [firstMatch_eq f _ items h3]
  cases hi : List.findIdx? (hit q) items with
  | none =>
    left
    refine ⟨?_, rfl⟩
    simpa [List.findIdx?_eq_none_iff] using hi
  | some i =>
    right
    obtain ⟨hlt, hp, hpre⟩ := List.findIdx?_eq_some_iff_getElem.1 hi
    refine ⟨items.take i, items[i], items.drop (i + 1), ?_, ?_, hp, ?_⟩
    · rw [← List.drop_eq_getElem_cons hlt, List.take_append_drop]
    · intro e he
      obtain ⟨j, hj, rfl⟩ := List.mem_take_iff_getElem.1 he
      have := hpre j (by omega)
      simpa using this
    · simp only [List.getElem?_eq_getElem hlt]
      rw [updateDoc_eq u _ us hus, List.set_eq_take_append_cons_drop, if_pos hlt]

private theorem updateLoop_eq (f : Filter F) (us : List (Update F)) (p : Doc F → Bool) (items : List (Doc F))
    (h : ∀ d ∈ items, f.eval (.doc d) = some (p d))
    (ho : ∀ d ∈ items, p d = true → (applyAll us (.doc d)).2 = .ok) : ∀ n,
    updateLoop f us n items =
      (items.map (fun d => if p d then asDoc (applyAll us (.doc d)).1 else d), n + items.countP p, .ok) := by
  induction items with
  | nil => intro n; rfl
  | cons d ds ih =>
    intro n
    have ih := ih (fun e he => h e (by simp [he])) (fun e he => ho e (by simp [he]))
    simp only [updateLoop, h d (by simp)]
    cases hp : p d with
    | false => simp only [ih n, List.map_cons, hp, Bool.false_eq_true, if_false]; simp [hp]
    | true =>
      have hok := ho d (by simp) hp
      cases ha : applyAll us (.doc d) with
      | mk v o =>
        rw [ha] at hok
        cases hok
        simp only [ih (n + 1), List.map_cons, hp, if_true, ha]
        simp only [List.countP_cons, hp, if_true, Prod.mk.injEq, true_and, and_true]
        omega

/-- C38: `UpdateMany`, when the update succeeds on all of them, changes exactly the matching documents, each to
what the update makes of it, and returns their number. -/
theorem C38_update_many (q u : Doc F) (items : List (Doc F)) (h : Defined q items) (hu : updateOne [] [] u = ([], 0, .ok))
    (ho : ∀ d ∈ items, hit q d = true → (updateDoc u d).2 = .ok) :
    updateMany items q u =
      (items.map (fun d => if hit q d then (updateDoc u d).1 else d), items.countP (hit q), .ok) := by
  obtain ⟨f, h1, h2, h3⟩ := defined_parse h
  obtain ⟨us, hus⟩ := accepted_update u hu
  unfold updateMany
  rw [h1, hus]
  simp only
  rw [updateLoop_eq f us (hit q) items h3]
  · simp only [updateDoc_eq u _ us hus, Nat.zero_add]
  · intro d hd hp
    have := ho d hd hp
    rwa [updateDoc_eq u _ us hus] at this

/-! ### C43 -/

/-- C43: `Upsert` of a document that can be converted: the first matching document is replaced by it; if there
is none, it is inserted. -/
theorem C43_upsert (q : Doc F) (items : List (Doc F)) (doc : Input F) (d : Doc F) (newId : Nat) (h : Defined q items)
    (hd : doc.toBson = some d) :
    ((∀ e ∈ items, hit q e = false) ∧
      upsert items q doc newId = ((insertOne items doc newId).1, false, .ok) ∧
      (insertOne items doc newId).2 = .ok ()) ∨
    ∃ pre old post, items = pre ++ old :: post ∧ (∀ e ∈ pre, hit q e = false) ∧ hit q old = true ∧
      upsert items q doc newId = (pre ++ d :: post, true, .ok) := by
  obtain ⟨f, h1, h2, h3⟩ := defined_parse h
  unfold upsert replaceOne
  rw [h1]
  simp only [firstMatch_eq f _ items h3]
  cases hi : List.findIdx? (hit q) items with
  | none =>
    left
    refine ⟨by simpa [List.findIdx?_eq_none_iff] using hi, ?_, ?_⟩
    · cases doc with
      | raw r => rfl
      | obj b => cases b with
        | none => cases hd
        | some b => rfl
    · cases doc with
      | raw r => rfl
      | obj b => cases b with
        | none => cases hd
        | some b => rfl
  | some i =>
    right
    obtain ⟨hlt, hp, hpre⟩ := List.findIdx?_eq_some_iff_getElem.1 hi
    refine ⟨items.take i, items[i], items.drop (i + 1), ?_, ?_, hp, ?_⟩
    · rw [← List.drop_eq_getElem_cons hlt, List.take_append_drop]
    · intro e he
      obtain ⟨j, hj, rfl⟩ := List.mem_take_iff_getElem.1 he
      have := hpre j (by omega)
      simpa using this
    · simp only [hd, List.set_eq_take_append_cons_drop, if_pos hlt, if_true]

private theorem id_plain : Plain kId := ⟨by decide, by decide, by decide⟩

/-- The documents found by identifier. -/
def withId (id : Nat) (items : List (Doc F)) : Nat := (items.filter (hit [(kId, .oid id)])).length

private theorem hit_id (id : Nat) (d : Doc F) : hit [(kId, .oid id)] d = (match field kId d with
      | none => false
      | some (.arr es _) => es.any (same (.oid id))
      | some x => same (.oid id) x) := by
  rw [hit, C34_field_partial kId id_plain _ rfl]
  have : ∀ b, (some b == some true) = b := by intro b; cases b <;> rfl
  exact this _

private theorem defined_id (id : Nat) (items : List (Doc F)) : Defined [(kId, .oid id)] items := by
  have h : ∀ d : Doc F, (matchesQuery [(kId, .oid id)] d).isSome := by
    intro d; rw [C34_field_partial kId id_plain _ rfl]; rfl
  refine ⟨?_, fun d _ => h d⟩
  have := h []
  rw [matchesQuery_eq] at this
  unfold findMany
  cases hp : parseFilter ([(kId, .oid id)] : Doc F) with
  | none => rw [hp] at this; cases this
  | some f => rfl

private theorem normalise_id (d d' : Doc F) (id : Nat) (h : normaliseFields d = some d')
    (hf : field kId d = some (.oid id)) : field kId d' = some (.oid id) := by
  induction d generalizing d' with
  | nil => cases hf
  | cons e d ih =>
    obtain ⟨k, v⟩ := e
    simp only [normaliseFields] at h
    cases hv : normalise v with
    | none => rw [hv] at h; cases h
    | some v' =>
      rw [hv] at h
      simp only at h
      obtain ⟨d1, h1, rfl⟩ := Option.map_eq_some_iff.1 h
      simp only [field] at hf ⊢
      split
      · rename_i hk
        rw [if_pos hk] at hf
        cases hf
        simp only [normalise, Option.some.injEq] at hv
        rw [hv]
      · rename_i hk
        rw [if_neg hk] at hf
        exact ih d1 h1 hf

/-- Every document is identified. -/
def Identified (items : List (Doc F)) : Prop := ∀ d ∈ items, ∃ n, field kId d = some (.oid n)

private theorem hit_oid {x : Doc F} {id : Nat} (hx : field kId x = some (.oid id)) (id' : Nat) :
    hit [(kId, .oid id')] x = decide (id' = id) := by
  rw [hit_id, hx]
  simp only [same]
  by_cases h : id' = id <;> simp [h]

/-- One `UpsertID` with a document that carries that identifier. -/
private theorem upsertID_step (items : List (Doc F)) (id : Nat) (doc : Input F) (newId : Nat) (d d0 : Doc F)
    (hI : Identified items)
    (hb : doc.toBson = some d) (h0 : doc = .raw d0 ∨ doc = .obj (some d0)) (hid : field kId d0 = some (.oid id)) :
    Identified (upsertID items id doc newId).1 ∧
    withId id (upsertID items id doc newId).1 = max 1 (withId id items) ∧
    ∀ id', id' ≠ id → withId id' (upsertID items id doc newId).1 = withId id' items := by
  have hd : field kId d = some (.oid id) := by
    rcases h0 with rfl | rfl
    · exact normalise_id d0 d id hb hid
    · cases hb; exact hid
  rcases C43_upsert [(kId, .oid id)] items doc d newId (defined_id id items) hb with ⟨hno, h1, h2⟩ | ⟨pre, old, post, rfl, hpre, hold, h1⟩
  · obtain ⟨d', hi, hk, -⟩ := C37_insert_one items doc d0 newId h0
    have : d' = d0 := hk (field_keys hid)
    subst this
    unfold upsertID
    rw [h1, hi]
    have hz : withId id items = 0 := by
      unfold withId
      rw [List.length_eq_zero_iff, List.filter_eq_nil_iff]
      intro e he; rw [hno e he]; simp
    refine ⟨?_, ?_, ?_⟩
    · intro e he
      rcases List.mem_append.1 he with he | he
      · exact hI e he
      · simp at he; subst he; exact ⟨id, hid⟩
    · rw [hz]
      unfold withId at hz ⊢
      rw [List.filter_append, List.length_append, hz]
      simp [hit_oid hid]
    · intro id' hne
      unfold withId
      simp [List.filter_append, hit_oid hid, hne]
  · unfold upsertID
    rw [h1]
    obtain ⟨n, hn⟩ := hI old (by simp)
    have hn' : id = n := by rw [hit_oid hn] at hold; exact of_decide_eq_true hold
    subst hn'
    refine ⟨?_, ?_, ?_⟩
    · intro e he
      rcases List.mem_append.1 he with he | he
      · exact hI e (by simp [he])
      · rcases List.mem_cons.1 he with rfl | he
        · exact ⟨id, hd⟩
        · exact hI e (by simp [he])
    · unfold withId
      simp only [List.filter_append, List.filter_cons, hit_oid hn, hit_oid hd, decide_true, if_true, List.length_append, List.length_cons]
      omega
    · intro id' hne
      unfold withId
      simp only [List.filter_append, List.filter_cons, hit_oid hn, hit_oid hd, decide_eq_false hne, List.length_append]
      rfl

/-- A history of calls `UpsertID(id, document)` with fresh identifiers. -/
def upsertHistory (items : List (Doc F)) : List (Nat × Input F × Nat) → List (Doc F)
  | [] => items
  | (id, doc, newId) :: h => upsertHistory (upsertID items id doc newId).1 h

/-- C43: in every history of `UpsertID` calls whose documents carry the identifier they are called with, no
identifier ever has more than one document, every identifier used has exactly one, and the others are left
alone.  Missing from the full property: documents without the identifier (`C43_upsert_id_refuted`). -/
theorem C43_one_document_per_id_partial (hist : List (Nat × Input F × Nat)) (items : List (Doc F))
    (hI : Identified items) (hi : ∀ id, withId id items ≤ 1)
    (hh : ∀ c ∈ hist, c.2.1.toBson ≠ none ∧ ∃ d, (c.2.1 = .raw d ∨ c.2.1 = .obj (some d)) ∧ field kId d = some (.oid c.1)) :
    ∀ id, withId id (upsertHistory items hist) = if id ∈ hist.map (·.1) then 1 else withId id items := by
  induction hist generalizing items with
  | nil => intro id; rfl
  | cons c hist ih =>
    obtain ⟨id0, doc, newId⟩ := c
    obtain ⟨hb, d0, h0, hid⟩ := hh _ List.mem_cons_self
    obtain ⟨d, hd⟩ := Option.ne_none_iff_exists'.1 hb
    obtain ⟨s1, s2, s3⟩ := upsertID_step items id0 doc newId d d0 hI hd h0 hid
    have hle : ∀ id, withId id (upsertID items id0 doc newId).1 ≤ 1 := by
      intro id
      by_cases h : id = id0
      · subst h; rw [s2]; have := hi id; omega
      · rw [s3 id h]; exact hi id
    intro id
    simp only [upsertHistory, ih _ s1 hle (fun c hc => hh c (by simp [hc])), List.map_cons, List.mem_cons]
    by_cases h : id ∈ hist.map (·.1)
    · simp [h]
    · by_cases h' : id = id0
      · subst h'; simp only [h, if_false, true_or, if_true, s2]; have := hi id; omega
      · simp only [h, h', or_self, if_false]; exact s3 id h'

/-- C43 refuted: with a document that does not carry the identifier, every call inserts a new document. -/
theorem C43_upsert_id_refuted (id : Nat) (d : Doc F) (hn : kId ∉ d.map (·.1)) (n1 n2 : Nat) (h1 : n1 ≠ id) :
    upsertID [] id (.obj (some d)) n1 = ([(kId, .oid n1) :: d], false, .ok) ∧
    upsertID [(kId, .oid n1) :: d] id (.obj (some d)) n2 =
      ([(kId, .oid n1) :: d, (kId, .oid n2) :: d], false, .ok) := by
  have key : ∀ items : List (Doc F), (∀ e ∈ items, hit [(kId, .oid id)] e = false) → ∀ n,
      upsertID items id (.obj (some d)) n = (items ++ [(kId, .oid n) :: d], false, .ok) := by
    intro items hno n
    rcases C43_upsert [(kId, .oid id)] items (.obj (some d)) d n (defined_id id items) rfl with ⟨-, h1, h2⟩ | ⟨pre, old, post, rfl, hpre, hold, h1⟩
    · obtain ⟨d', hi, -, hk, -⟩ := C37_insert_one items (.obj (some d)) d n (Or.inr rfl)
      unfold upsertID
      rw [h1, hi, hk hn]
    · rw [hno old (by simp)] at hold; cases hold
  refine ⟨key [] (by simp) n1, ?_⟩
  rw [key]
  · rfl
  · intro e he
    simp only [List.mem_cons, List.not_mem_nil, or_false] at he
    subst he
    rw [hit_id]
    simp only [field, if_true, same]
    simpa using fun h => h1 h.symm

/-! ### C61 -/

private theorem replaceLoop_eq (f : Filter F) (p : Doc F → Bool) : ∀ (items ds : List (Doc F)) (docs : List (Input F)) (n : Nat),
    (∀ d ∈ items, f.eval (.doc d) = some (p d)) → docs.map (·.toBson) = ds.map some →
    ∃ items', replaceLoop f n docs items = (items', n + min ds.length (items.countP p), .ok) ∧
      items'.length = items.length ∧ (∀ e ∈ items.zip items', p e.1 = false → e.2 = e.1) ∧
      ((items.zip items').filter (fun e => p e.1)).map (·.2) =
        ds.take (items.countP p) ++ (items.filter p).drop ds.length := by
  intro items
  induction items with
  | nil =>
    intro ds docs n _ hd
    refine ⟨[], ?_, rfl, by simp, by simp⟩
    cases docs <;> simp [replaceLoop]
  | cons d items ih =>
    intro ds docs n h hd
    have h' : ∀ e ∈ items, f.eval (.doc e) = some (p e) := fun e he => h e (by simp [he])
    cases docs with
    | nil =>
      cases ds with
      | cons => cases hd
      | nil =>
        refine ⟨d :: items, by simp [replaceLoop], rfl, ?_, ?_⟩
        · intro e he _
          have : ∀ l : List (Doc F), ∀ e ∈ l.zip l, e.2 = e.1 := by
            intro l
            induction l with
            | nil => simp
            | cons a l ih => intro e he; simp at he; rcases he with rfl | he; exact rfl; exact ih e he
          exact this _ e he
        · have : ∀ l : List (Doc F), ((l.zip l).filter (fun e => p e.1)).map (·.2) = l.filter p := by
            intro l
            induction l with
            | nil => rfl
            | cons a l ih =>
              simp only [List.zip_cons_cons, List.filter_cons]
              cases p a <;> simp [ih]
          rw [this]
          simp only [List.take_nil, List.nil_append, List.length_nil, List.drop_zero]
    | cons r rs =>
      cases ds with
      | nil => cases hd
      | cons d' ds =>
        simp only [List.map_cons, List.cons.injEq] at hd
        simp only [replaceLoop, h d (by simp)]
        cases hp : p d with
        | false =>
          obtain ⟨items', e1, e2, e3, e4⟩ := ih (d' :: ds) (r :: rs) n h' (by simp [hd])
          refine ⟨d :: items', ?_, by simp [e2], ?_, ?_⟩
          · simp only [e1, List.countP_cons, hp]; simp
          · intro e he
            simp only [List.zip_cons_cons, List.mem_cons] at he
            rcases he with rfl | he
            · intro _; rfl
            · exact e3 e he
          · simp only [List.zip_cons_cons, List.filter_cons, hp, Bool.false_eq_true, if_false, e4, List.countP_cons, Nat.add_zero]
        | true =>
          obtain ⟨items', e1, e2, e3, e4⟩ := ih ds rs (n + 1) h' hd.2
          refine ⟨d' :: items', ?_, by simp [e2], ?_, ?_⟩
          · simp only [hd.1, e1, List.countP_cons, hp, if_true, List.length_cons, Prod.mk.injEq, true_and, and_true]
            omega
          · intro e he
            simp only [List.zip_cons_cons, List.mem_cons] at he
            rcases he with rfl | he
            · intro hf; rw [hp] at hf; cases hf
            · exact e3 e he
          · simp only [List.zip_cons_cons, List.filter_cons, hp, if_true, List.map_cons, e4, List.countP_cons,
              List.take_succ_cons, List.cons_append, List.length_cons, List.drop_succ_cons]

/-- C61: `ReplaceMany` with documents that can be converted replaces the first matching documents, one by one, by
the given ones, as far as there are any; it leaves all other documents alone and returns the number replaced. -/
theorem C61_replace_many (q : Doc F) (items ds : List (Doc F)) (docs : List (Input F)) (h : Defined q items)
    (hd : docs.map (·.toBson) = ds.map some) :
    ∃ items', replaceMany items q docs = (items', min ds.length (items.countP (hit q)), .ok) ∧
      items'.length = items.length ∧ (∀ e ∈ items.zip items', hit q e.1 = false → e.2 = e.1) ∧
      ((items.zip items').filter (fun e => hit q e.1)).map (·.2) =
        ds.take (items.countP (hit q)) ++ (items.filter (hit q)).drop ds.length := by
  obtain ⟨f, h1, h2, h3⟩ := defined_parse h
  unfold replaceMany
  rw [h1]
  obtain ⟨items', e⟩ := replaceLoop_eq f (hit q) items ds docs 0 h3 hd
  rw [Nat.zero_add] at e
  exact ⟨items', e⟩

/-- C61: `ReplaceOne` with a document that can be converted replaces the first matching document by it. -/
theorem C61_replace_one (q : Doc F) (items : List (Doc F)) (doc : Input F) (d : Doc F) (h : Defined q items)
    (hd : doc.toBson = some d) :
    ((∀ e ∈ items, hit q e = false) ∧ replaceOne items q doc = (items, 0, .ok)) ∨
    ∃ pre old post, items = pre ++ old :: post ∧ (∀ e ∈ pre, hit q e = false) ∧ hit q old = true ∧
      replaceOne items q doc = (pre ++ d :: post, 1, .ok) := by
  obtain ⟨f, h1, h2, h3⟩ := defined_parse h
  unfold replaceOne
  rw [h1]
  simp only [firstMatch_eq f _ items h3]
  cases hi : List.findIdx? (hit q) items with
  | none => exact Or.inl ⟨by simpa [List.findIdx?_eq_none_iff] using hi, rfl⟩
  | some i =>
    right
    obtain ⟨hlt, hp, hpre⟩ := List.findIdx?_eq_some_iff_getElem.1 hi
    refine ⟨items.take i, items[i], items.drop (i + 1), ?_, ?_, hp, ?_⟩
    · rw [← List.drop_eq_getElem_cons hlt, List.take_append_drop]
    · intro e he
      obtain ⟨j, hj, rfl⟩ := List.mem_take_iff_getElem.1 he
      have := hpre j (by omega)
      simpa using this
    · simp only [hd, List.set_eq_take_append_cons_drop, if_pos hlt]

/-- C61 refuted: `ReplaceMany` reports success for a query that all other operations reject. -/
theorem C61_malformed_query_refuted (q : Doc F) (items : List (Doc F)) (docs : List (Input F))
    (h : findMany [] q = .error) : replaceMany items q docs = (items, 0, .ok) := by
  unfold findMany at h
  unfold replaceMany
  cases hp : parseFilter q with
  | none => rfl
  | some f => rw [hp] at h; cases h

end Verif.NoSQL
