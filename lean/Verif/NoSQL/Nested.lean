import Verif.NoSQL.Paths
/-
C138: updates of fields of embedded documents, at any depth.
-/
namespace Verif.NoSQL
variable {F : Type} [Host F]

/-! ### Vocabulary -/

/-- The selector of a path of field names. -/
def dotted (ks : List Name) : Name := List.intercalate ['.'] ks

/-- The value at a path of field names. -/
def getAt : List Name → Doc F → Option (Value F)
  | [], d => some (.doc d)
  | [k], d => field k d
  | k :: ks, d => match field k d with
    | some (.doc e) => getAt ks e
    | _ => none

/-- Nothing is in the way of a path: the fields before its last are documents, null or missing. -/
def Open : List Name → Doc F → Prop
  | [], _ => True
  | [_], _ => True
  | k :: ks, d => match field k d with
    | some (.doc e) => Open ks e
    | some .null => True
    | none => True
    | _ => False

/-- The document that holds the last field of a path, empty if there is none. -/
def holder : List Name → Doc F → Doc F
  | [], d => d
  | [_], d => d
  | k :: ks, d => match field k d with
    | some (.doc e) => holder ks e
    | _ => []

/-! ### One step into a document -/

private theorem dotted_cons (a b : Name) (ks : List Name) : dotted (a :: b :: ks) = a ++ '.' :: dotted (b :: ks) := by
  simp [dotted, List.intercalate, List.intersperse]

private theorem dotted_one (a : Name) : dotted [a] = a := by simp [dotted, List.intercalate]

private theorem split_dotted (ks : List Name) (hne : ks ≠ []) (h : ∀ k ∈ ks, Plain k) : splitDots (dotted ks) = ks := by
  induction ks with
  | nil => exact absurd rfl hne
  | cons a ks ih =>
    cases ks with
    | nil => rw [dotted_one, splitDots_plain (h a (by simp)).noDot]
    | cons b ks =>
      rw [dotted_cons, splitDots_append (h a (by simp)).noDot, ih (by simp) (fun k hk => h k (List.mem_cons_of_mem _ hk))]

omit [Host F] in
private theorem put_same' (k : Name) (d : Doc F) (x : Value F) (h : field k d = some x) : put k x d = d := by
  rw [put_eq, h]; exact setField_same k d x h

/-- What an operator makes of a selector. -/
private theorem entry_shape (op : Name) (v : Value F) :
    op = kUnset ∨ (∀ k, parseUpdateEntry op k v = none) ∨
      (op ∈ [kSet, kUnset, kInc, kPush, kPull, kAddToSet] ∧ op ≠ kUnset ∧
        ∃ u : Update F, ∀ k, parseUpdateEntry op k v = some (updatePath k u)) := by
  by_cases h1 : op = kUnset
  · exact .inl h1
  refine .inr ?_
  unfold parseUpdateEntry
  by_cases h2 : op = kSet
  · subst h2
    cases h : normalise v with
    | none => exact .inl fun k => by simp
    | some w => exact .inr ⟨by decide, h1, .set w, fun k => by simp⟩
  by_cases h3 : op = kInc
  · subst h3
    cases v with
    | int t n => exact .inr ⟨by decide, h1, .incInt n, fun k => by simp [h1, h2]⟩
    | _ => exact .inl fun k => by simp [h1, h2]
  by_cases h4 : op = kPush
  · subst h4
    cases hm : hasModifiers v with
    | true => exact .inl fun k => by simp [h1, h2, h3]
    | false =>
      cases h : normalise v with
      | none => exact .inl fun k => by simp [h1, h2, h3]
      | some w => exact .inr ⟨by decide, h1, .push w, fun k => by simp [h1, h2, h3]⟩
  by_cases h5 : op = kAddToSet
  · subst h5
    cases hm : hasModifiers v with
    | true => exact .inl fun k => by simp [h1, h2, h3, h4]
    | false =>
      cases h : normalise v with
      | none => exact .inl fun k => by simp [h1, h2, h3, h4]
      | some w => exact .inr ⟨by decide, h1, .addToSet w, fun k => by simp [h1, h2, h3, h4]⟩
  by_cases h6 : op = kPull
  · subst h6
    cases hm : hasModifiers v with
    | true => exact .inl fun k => by simp [h1, h2, h3, h4, h5]
    | false =>
      cases v with
      | doc d =>
        cases h : parseFilter d with
        | none => exact .inl fun k => by simp [h1, h2, h3, h4, h5, h]
        | some f => exact .inr ⟨by decide, h1, .pull f, fun k => by simp [h1, h2, h3, h4, h5, h]⟩
      | _ => exact .inr ⟨by decide, h1, _, fun k => by simp [h1, h2, h3, h4, h5]; rfl⟩
  · exact .inl fun k => by simp [h1, h2, h3, h4, h5, h6]

private theorem rejected_entry (op k : Name) (v : Value F) (d : Doc F) (h : parseUpdateEntry op k v = none) :
    updateDoc [(op, .doc [(k, v)])] d = (d, .error) := by
  have : parseUpdate [(op, .doc [(k, v)])] = none := by simp [parseUpdate, h]
  simp [updateDoc, updateOne, this, parseFilter, parseConds]

private theorem apply_piece (c : Bool) (ks : List Name) (h : ∀ k ∈ ks, Plain k) (u : Update F) (x : Value F) :
    (pathPieces c false ks u).apply x = (pathPieces c true ks u).apply x := by
  cases ks with
  | nil => rfl
  | cons k ks => simp [pathPieces, (h k (by simp)).notNumber, Update.apply]

private theorem field_doc (c : Bool) (b : Name) (u : Update F) (e : Doc F) :
    ∃ e', ((Update.field b c u).apply (.doc e)).1 = .doc e' := by
  simp only [Update.apply]
  cases field b e with
  | some x => exact ⟨_, rfl⟩
  | none =>
    simp only
    split
    · exact ⟨_, rfl⟩
    · split <;> exact ⟨_, rfl⟩

/-- Into a field, with an operator that creates what is missing. -/
private theorem into_create (a : Name) (b : Name) (u x : Update F) (hx : ∀ y, x.apply y = (Update.field b true u).apply y) (d : Doc F) :
    let upd (e : Doc F) : Doc F × Outcome :=
      (asDoc ((Update.field b true u).apply (.doc e)).1, ((Update.field b true u).apply (.doc e)).2)
    (asDoc ((Update.field a true x).apply (.doc d)).1, ((Update.field a true x).apply (.doc d)).2) =
      match field a d with
      | some (.doc e) => (put a (.doc (upd e).1) d, (upd e).2)
      | some .null => if (upd []).2 = .ok then (put a (.doc (upd []).1) d, .ok) else (d, (upd []).2)
      | none => if (upd []).2 = .ok then (put a (.doc (upd []).1) d, .ok) else (d, (upd []).2)
      | some _ => (d, .error) := by
  intro upd
  have hnull : (Update.field b true u).apply .null =
      if (upd []).2 = .ok then (.doc (upd []).1, .ok) else (.null, (upd []).2) := by
    simp only [upd, Update.apply, field]
    cases (u.apply .null) with
    | mk v o => cases o <;> rfl
  have hdoc : ∀ e, (Update.field b true u).apply (.doc e) = (.doc (upd e).1, (upd e).2) := by
    intro e
    obtain ⟨e', he⟩ := field_doc true b u e
    simp only [upd, he, asDoc]
    rw [← he]
  have hput : ∀ v, put a v d = match field a d with
      | some _ => setField a v d
      | none => d ++ [(a, v)] := fun v => put_eq a v d
  rw [Update.apply]
  cases hf : field a d with
  | none =>
    simp only [hx, hnull, hput, hf]
    by_cases ho : (upd []).2 = .ok
    · simp [ho, asDoc]
    · simp [ho, asDoc]
  | some y =>
    simp only [hx, hput, hf]
    cases y with
    | doc e => simp only [hdoc, asDoc]
    | null =>
      simp only [hnull]
      by_cases ho : (upd []).2 = .ok
      · simp [ho, asDoc]
      · simp [ho, asDoc, setField_same a d _ hf]
    | _ => simp only [Update.apply, asDoc, setField_same a d _ hf]

/-- C138: an update of a path that goes on after its first field is the update of the rest of the path in the document of that field,
which becomes the new value of that field.  A field that is missing or null counts as an empty document, which is added unless the
operator is `$unset`.  Any other value in the way is an error, and nothing changes. -/
theorem C138_inside (op : Name) (v : Value F) (a b : Name) (ks : List Name) (h : ∀ k ∈ a :: b :: ks, Plain k) (d : Doc F) :
    let upd (e : Doc F) := updateDoc [(op, .doc [(dotted (b :: ks), v)])] e
    updateDoc [(op, .doc [(dotted (a :: b :: ks), v)])] d =
      match field a d with
      | some (.doc e) => (put a (.doc (upd e).1) d, (upd e).2)
      | some .null => if op = kUnset then (d, .ok) else if (upd []).2 = .ok then (put a (.doc (upd []).1) d, .ok) else (d, (upd []).2)
      | none => if op = kUnset then (d, .ok) else if (upd []).2 = .ok then (put a (.doc (upd []).1) d, .ok) else (d, (upd []).2)
      | some _ => (d, .error) := by
  intro upd
  have ha := h a (by simp)
  have hb := h b (by simp)
  have hr : ∀ k ∈ b :: ks, Plain k := fun k hk => h k (List.mem_cons_of_mem _ hk)
  rcases entry_shape op v with rfl | hn | ⟨hop, hne, u, hu⟩
  · -- `$unset`
    have hp : ∀ k, parseUpdateEntry kUnset k v = some (unsetPath k) := fun k => by simp [parseUpdateEntry, kSet, kUnset]
    have hpath : ∃ x : Update F, unsetPath (dotted (a :: b :: ks)) = .field a false x ∧
        ∀ y, x.apply y = (unsetPath (dotted (b :: ks))).apply y := by
      simp only [unsetPath, split_dotted (a :: b :: ks) (by simp) h, split_dotted (b :: ks) (by simp) hr]
      refine ⟨_, by simp only [List.dropLast_cons_cons, pathPieces, ha.notNumber, if_true]; rfl, fun y => ?_⟩
      exact apply_piece false _ (fun k hk => hr k (List.dropLast_subset _ hk)) _ y
    obtain ⟨x, e1, e2⟩ := hpath
    have hdoc : ∀ e, ∃ e', ((unsetPath (dotted (b :: ks)) : Update F).apply (.doc e)).1 = .doc e' := by
      intro e
      cases ks with
      | nil =>
        have : unsetPath (dotted [b]) = (.unsetField b : Update F) := by
          simp [unsetPath, dotted_one, splitDots_plain hb.noDot, pathPieces, hb.notNumber]
        rw [this]; exact ⟨_, rfl⟩
      | cons k ks =>
        have : ∃ x : Update F, unsetPath (dotted (b :: k :: ks)) = .field b false x := by
          simp only [unsetPath, split_dotted (b :: k :: ks) (by simp) hr]
          exact ⟨_, by simp only [List.dropLast_cons_cons, pathPieces, hb.notNumber, if_true]; rfl⟩
        obtain ⟨x, e⟩ := this
        rw [e]; exact field_doc false b x _
    have hnull : ((unsetPath (dotted (b :: ks)) : Update F).apply .null) = (.null, .ok) := by
      cases ks with
      | nil =>
        have : unsetPath (dotted [b]) = (.unsetField b : Update F) := by
          simp [unsetPath, dotted_one, splitDots_plain hb.noDot, pathPieces, hb.notNumber]
        rw [this]; rfl
      | cons k ks =>
        have : ∃ x : Update F, unsetPath (dotted (b :: k :: ks)) = .field b false x := by
          simp only [unsetPath, split_dotted (b :: k :: ks) (by simp) hr]
          exact ⟨_, by simp only [List.dropLast_cons_cons, pathPieces, hb.notNumber, if_true]; rfl⟩
        obtain ⟨x, e⟩ := this
        rw [e]; rfl
    have hother : ∀ y : Value F, (∀ e, y ≠ .doc e) → y ≠ .null → (unsetPath (dotted (b :: ks)) : Update F).apply y = (y, .error) := by
      intro y h1 h2
      cases ks with
      | nil =>
        have : unsetPath (dotted [b]) = (.unsetField b : Update F) := by
          simp [unsetPath, dotted_one, splitDots_plain hb.noDot, pathPieces, hb.notNumber]
        rw [this]
        cases y <;> first | exact absurd rfl h2 | exact absurd rfl (h1 _) | rfl
      | cons k ks =>
        have : ∃ x : Update F, unsetPath (dotted (b :: k :: ks)) = .field b false x := by
          simp only [unsetPath, split_dotted (b :: k :: ks) (by simp) hr]
          exact ⟨_, by simp only [List.dropLast_cons_cons, pathPieces, hb.notNumber, if_true]; rfl⟩
        obtain ⟨x, e⟩ := this
        rw [e]
        cases y <;> first | exact absurd rfl h2 | exact absurd rfl (h1 _) | rfl
    simp only [upd]
    rw [update_entry kUnset _ v _ (hp _) (by decide) d, e1]
    have hupd : ∀ e, updateDoc [(kUnset, .doc [(dotted (b :: ks), v)])] e =
        (asDoc ((unsetPath (dotted (b :: ks))).apply (.doc e)).1, ((unsetPath (dotted (b :: ks)) : Update F).apply (.doc e)).2) :=
      fun e => update_entry kUnset _ v _ (hp _) (by decide) e
    rw [Update.apply]
    cases hf : field a d with
    | none => simp [asDoc]
    | some y =>
      simp only [e2]
      cases y with
      | doc e =>
        obtain ⟨e', he⟩ := hdoc e
        simp only [hupd, he, asDoc, put_eq, hf]
      | null => simp [hnull, asDoc, setField_same a d _ hf]
      | _ => simp [hother, asDoc, setField_same a d _ hf]
  · simp only [upd, rejected_entry op _ v _ (hn _)]
    by_cases ho : op = kUnset
    · subst ho
      have := hn a
      simp [parseUpdateEntry, kSet, kUnset] at this
    · cases hf : field a d with
      | none => simp [ho]
      | some y => cases y <;> simp [ho, put_same' a d _ hf]
  · have e1 : ∃ x : Update F, updatePath (dotted (a :: b :: ks)) u = .field a true x ∧
        ∀ y, x.apply y = (Update.field b true (pathPieces true false ks u)).apply y := by
      simp only [updatePath, split_dotted (a :: b :: ks) (by simp) h]
      refine ⟨pathPieces true false (b :: ks) u, by simp only [pathPieces, ha.notNumber, if_true], fun y => ?_⟩
      rw [apply_piece true _ hr]
      simp only [pathPieces, hb.notNumber, if_true]
    have e2 : updatePath (dotted (b :: ks)) u = .field b true (pathPieces true false ks u) := by
      simp only [updatePath, split_dotted (b :: ks) (by simp) hr, pathPieces, hb.notNumber, if_true]
    obtain ⟨x, e1, hx⟩ := e1
    have hupd : ∀ e, upd e = (asDoc ((Update.field b true (pathPieces true false ks u)).apply (.doc e)).1,
        ((Update.field b true (pathPieces true false ks u)).apply (.doc e)).2) := by
      intro e
      simp only [upd]
      rw [update_entry op _ v _ (hu _) hop, e2]
    rw [update_entry op _ v _ (hu _) hop, e1, into_create a b _ x hx d]
    simp only [hupd, if_neg hne]

/-! ### Whole paths -/

omit [Host F] in
private theorem getAt_other {c a : Name} (hc : c ≠ a) (q : List Name) (x : Value F) (d : Doc F) :
    getAt (c :: q) (put a x d) = getAt (c :: q) d := by
  cases q with
  | nil => exact (C38_put a x d).2.1 c hc
  | cons b q => simp only [getAt, (C38_put a x d).2.1 c hc]

omit [Host F] in
private theorem getAt_into (a : Name) (q : List Name) (hq : q ≠ []) (e d : Doc F) :
    getAt (a :: q) (put a (.doc e) d) = getAt q e := by
  cases q with
  | nil => exact absurd rfl hq
  | cons b q => simp only [getAt, (C38_put a (.doc e) d).1]

omit [Host F] in
private theorem getAt_nil (q : List Name) (hq : q ≠ []) : getAt q ([] : Doc F) = none := by
  match q, hq with
  | [b], _ => rfl
  | b :: c :: q, _ => rfl

omit [Host F] in
/-- The paths beside a path keep their values when the value of its first field is replaced and the paths beside its rest keep theirs. -/
private theorem frame {a : Name} {ks : List Name} {e' d : Doc F}
    (hf : ∀ q, ¬ ks <+: q → ¬ q <+: ks → getAt q e' = match field a d with
      | some (.doc e) => getAt q e
      | _ => none)
    (q : List Name) (h1 : ¬ (a :: ks) <+: q) (h2 : ¬ q <+: (a :: ks)) : getAt q (put a (.doc e') d) = getAt q d := by
  cases q with
  | nil => exact absurd (List.nil_prefix) h2
  | cons c q =>
    by_cases hc : c = a
    · subst hc
      have h1' : ¬ ks <+: q := fun h => h1 ((List.prefix_cons_inj c).2 h)
      have h2' : ¬ q <+: ks := fun h => h2 ((List.prefix_cons_inj c).2 h)
      have hq : q ≠ [] := by rintro rfl; exact h2' List.nil_prefix
      rw [getAt_into c q hq, hf q h1' h2']
      match q, hq with
      | b :: q, _ =>
        simp only [getAt]
    · exact getAt_other hc q _ d

/-- C138: an operator other than `$unset`, at a path with nothing in the way.  If the same operator with only the last field of the path
gives that field the value `x` in the document that holds it (or in an empty one), then the value at the path becomes `x`, and the values
at all paths beside it are kept. -/
theorem C138_at (op : Name) (hop : op ≠ kUnset) (v : Value F) (ks : List Name) (hne : ks ≠ []) (h : ∀ k ∈ ks, Plain k) (d : Doc F)
    (ho : Open ks d) (x : Value F)
    (hl : updateDoc [(op, .doc [(ks.getLast hne, v)])] (holder ks d) = (put (ks.getLast hne) x (holder ks d), .ok)) :
    ∃ d', updateDoc [(op, .doc [(dotted ks, v)])] d = (d', .ok) ∧ getAt ks d' = some x ∧
      ∀ q, ¬ ks <+: q → ¬ q <+: ks → getAt q d' = getAt q d := by
  induction ks generalizing d with
  | nil => exact absurd rfl hne
  | cons a ks ih =>
    cases ks with
    | nil =>
      refine ⟨_, by rw [dotted_one]; exact hl, (C38_put a x d).1, ?_⟩
      intro q h1 h2
      cases q with
      | nil => exact absurd List.nil_prefix h2
      | cons c q =>
        have hc : c ≠ a := by
          rintro rfl
          exact h1 ((List.prefix_cons_inj c).2 List.nil_prefix)
        exact getAt_other hc q x d
    | cons b ks =>
      have hr : ∀ k ∈ b :: ks, Plain k := fun k hk => h k (List.mem_cons_of_mem _ hk)
      rw [C138_inside op v a b ks h d]
      rw [List.getLast_cons (by simp)] at hl
      have key : ∀ e : Doc F, Open (b :: ks) e → holder (b :: ks) e = holder (a :: b :: ks) d → (∀ q, q ≠ [] → getAt q e = match field a d with
            | some (.doc e) => getAt q e
            | _ => none) →
          ∃ e', updateDoc [(op, .doc [(dotted (b :: ks), v)])] e = (e', .ok) ∧ getAt (a :: b :: ks) (put a (.doc e') d) = some x ∧
            ∀ q, ¬ (a :: b :: ks) <+: q → ¬ q <+: (a :: b :: ks) → getAt q (put a (.doc e') d) = getAt q d := by
        intro e h1 h2 h3
        obtain ⟨e', k1, k2, k3⟩ := ih (by simp) hr e h1 (by rw [h2]; exact hl)
        refine ⟨e', k1, by rw [getAt_into _ _ (by simp), k2], fun q q1 q2 => ?_⟩
        refine frame (fun q p1 p2 => ?_) q q1 q2
        have hq : q ≠ [] := by rintro rfl; exact p2 List.nil_prefix
        rw [k3 q p1 p2, h3 q hq]
      have hnil : Open (b :: ks) ([] : Doc F) := by
        cases ks <;> simp [Open, field]
      have hhold : holder (b :: ks) ([] : Doc F) = [] := by
        cases ks <;> simp [holder, field]
      cases hf : field a d with
      | none =>
        obtain ⟨e', k1, k2, k3⟩ := key [] hnil (by rw [hhold]; simp [holder, hf]) (fun q hq => by rw [getAt_nil q hq, hf])
        exact ⟨_, by simp [hop, k1], k2, k3⟩
      | some y =>
        cases y with
        | doc e =>
          obtain ⟨e', k1, k2, k3⟩ := key e (by simpa [Open, hf] using ho) (by simp [holder, hf]) (fun q _ => by rw [hf])
          exact ⟨_, by simp [k1], k2, k3⟩
        | null =>
          obtain ⟨e', k1, k2, k3⟩ := key [] hnil (by rw [hhold]; simp [holder, hf]) (fun q hq => by rw [getAt_nil q hq, hf])
          exact ⟨_, by simp [hop, k1], k2, k3⟩
        | _ => simp [Open, hf] at ho

/-- C138: if the operator fails on the last field of the path and changes nothing there, it fails so at the path. -/
theorem C138_at_fails (op : Name) (hop : op ≠ kUnset) (v : Value F) (ks : List Name) (hne : ks ≠ []) (h : ∀ k ∈ ks, Plain k) (d : Doc F)
    (ho : Open ks d) (o : Outcome) (hk : o ≠ .ok)
    (hl : updateDoc [(op, .doc [(ks.getLast hne, v)])] (holder ks d) = (holder ks d, o)) :
    updateDoc [(op, .doc [(dotted ks, v)])] d = (d, o) := by
  induction ks generalizing d with
  | nil => exact absurd rfl hne
  | cons a ks ih =>
    cases ks with
    | nil => rw [dotted_one]; exact hl
    | cons b ks =>
      have hr : ∀ k ∈ b :: ks, Plain k := fun k hk => h k (List.mem_cons_of_mem _ hk)
      rw [C138_inside op v a b ks h d]
      rw [List.getLast_cons (by simp)] at hl
      have hnil : Open (b :: ks) ([] : Doc F) := by
        cases ks <;> simp [Open, field]
      have hhold : holder (b :: ks) ([] : Doc F) = [] := by
        cases ks <;> simp [holder, field]
      cases hf : field a d with
      | none =>
        have := ih (by simp) hr [] hnil (by rw [hhold]; simpa [holder, hf] using hl)
        simp [hop, this, hk]
      | some y =>
        cases y with
        | doc e =>
          have := ih (by simp) hr e (by simpa [Open, hf] using ho) (by simpa [holder, hf] using hl)
          simp [this, put_same' a d _ hf]
        | null =>
          have := ih (by simp) hr [] hnil (by rw [hhold]; simpa [holder, hf] using hl)
          simp [hop, this, hk]
        | _ => simp [Open, hf] at ho

/-- C138: a value in the way that is not a document is an error, and nothing changes. -/
theorem C138_blocked (op : Name) (v : Value F) (ks : List Name) (h : ∀ k ∈ ks, Plain k) (d : Doc F) (ho : ¬ Open ks d) :
    updateDoc [(op, .doc [(dotted ks, v)])] d = (d, .error) := by
  induction ks generalizing d with
  | nil => exact absurd trivial ho
  | cons a ks ih =>
    cases ks with
    | nil => exact absurd trivial ho
    | cons b ks =>
      rw [C138_inside op v a b ks h d]
      cases hf : field a d with
      | none => simp [Open, hf] at ho
      | some y =>
        cases y with
        | doc e =>
          have := ih (fun k hk => h k (List.mem_cons_of_mem _ hk)) e (by simpa [Open, hf] using ho)
          simp [this, put_same' a d _ hf]
        | null => simp [Open, hf] at ho
        | _ => rfl

/-- C138: `$unset` at a path with nothing in the way succeeds; the values at all paths beside it are kept, the path has no value
afterwards if the field names of the document that holds it are distinct, and nothing changes if it had none. -/
theorem C138_unset (v : Value F) (ks : List Name) (hne : ks ≠ []) (h : ∀ k ∈ ks, Plain k) (d : Doc F) (ho : Open ks d) :
    ∃ d', updateDoc [(kUnset, .doc [(dotted ks, v)])] d = (d', .ok) ∧
      (((holder ks d).map (·.1)).Nodup → getAt ks d' = none ∧ ∀ q, ¬ ks <+: q → ¬ q <+: ks → getAt q d' = getAt q d) ∧
      (getAt ks d = none → d' = d) := by
  induction ks generalizing d with
  | nil => exact absurd rfl hne
  | cons a ks ih =>
    cases ks with
    | nil =>
      have ha := h a (by simp)
      rw [dotted_one]
      refine ⟨_, C41_unset a ha v d, fun hn => ?_, fun hg => ?_⟩
      · obtain ⟨k1, k2, -⟩ := C41_unset_field a ha v d hn
        rw [C41_unset a ha v d] at k1 k2
        refine ⟨k1, fun q h1 h2 => ?_⟩
        cases q with
        | nil => exact absurd List.nil_prefix h2
        | cons c q =>
          have hc : c ≠ a := by
            rintro rfl
            exact h1 ((List.prefix_cons_inj c).2 List.nil_prefix)
          cases q with
          | nil => exact k2 c hc
          | cons b q => simp only [getAt, k2 c hc]
      · refine List.eraseP_of_forall_not fun e he => ?_
        replace hg : field a d = none := hg
        simp only [beq_iff_eq]
        rintro rfl
        clear ho h ha hne ih
        induction d with
        | nil => cases he
        | cons e' d ihd =>
          obtain ⟨k', w⟩ := e'
          simp only [field] at hg
          split at hg
          · cases hg
          · rename_i hk
            rcases List.mem_cons.1 he with rfl | he
            · exact hk rfl
            · exact ihd he hg
    | cons b ks =>
      have hr : ∀ k ∈ b :: ks, Plain k := fun k hk => h k (List.mem_cons_of_mem _ hk)
      rw [C138_inside kUnset v a b ks h d]
      cases hf : field a d with
      | none => exact ⟨d, by simp, fun _ => ⟨by simp [getAt, hf], fun _ _ _ => rfl⟩, fun _ => rfl⟩
      | some y =>
        cases y with
        | doc e =>
          obtain ⟨e', k1, k2, k3⟩ := ih (by simp) hr e (by simpa [Open, hf] using ho)
          refine ⟨put a (.doc e') d, by simp only [k1], fun hn => ?_, fun hg => ?_⟩
          · obtain ⟨k4, k5⟩ := k2 (by simpa [holder, hf] using hn)
            refine ⟨by rw [getAt_into _ _ (by simp), k4], fun q q1 q2 => frame (fun q p1 p2 => ?_) q q1 q2⟩
            rw [k5 q p1 p2, hf]
          · rw [k3 (by simpa [getAt, hf] using hg), put_same' a d _ hf]
        | null => exact ⟨d, by simp, fun _ => ⟨by simp [getAt, hf], fun _ _ _ => rfl⟩, fun _ => rfl⟩
        | _ => simp [Open, hf] at ho

omit [Host F] in
/-- The value at a path is the value of its last field in the document that holds it. -/
theorem getAt_holder (ks : List Name) (hne : ks ≠ []) (d : Doc F) : getAt ks d = field (ks.getLast hne) (holder ks d) := by
  induction ks generalizing d with
  | nil => exact absurd rfl hne
  | cons a ks ih =>
    cases ks with
    | nil => rfl
    | cons b ks =>
      rw [List.getLast_cons (by simp)]
      simp only [getAt, holder]
      cases field a d with
      | none => rfl
      | some y =>
        cases y with
        | doc e => exact ih (by simp) e
        | _ => rfl

/-- C138: `$set` at a path of any length, to a value other than null.  Missing from the full property: null, as in
`C38_set_null_refuted`. -/
theorem C138_set_partial (v w : Value F) (hv : normalise v = some w) (hw : w ≠ .null) (ks : List Name) (hne : ks ≠ [])
    (h : ∀ k ∈ ks, Plain k) (d : Doc F) (ho : Open ks d) :
    ∃ d', updateDoc [(kSet, .doc [(dotted ks, v)])] d = (d', .ok) ∧ getAt ks d' = some w ∧
      ∀ q, ¬ ks <+: q → ¬ q <+: ks → getAt q d' = getAt q d :=
  C138_at kSet (by decide) v ks hne h d ho w (C38_set_partial _ (h _ (List.getLast_mem hne)) v w _ hv hw)

/-- C138 refuted: `$set` to null panics at a path of any length with nothing in the way, and nothing changes. -/
theorem C138_set_null_refuted (ks : List Name) (hne : ks ≠ []) (h : ∀ k ∈ ks, Plain k) (d : Doc F) (ho : Open ks d) :
    updateDoc [(kSet, .doc [(dotted ks, .null)])] d = (d, .panic) := by
  refine C138_at_fails kSet (by decide) .null ks hne h d ho .panic (by simp) ?_
  have hp := h _ (List.getLast_mem hne)
  generalize ks.getLast hne = k at hp
  generalize holder ks d = e
  rw [update_entry kSet k .null (.field k true (.set .null))
    (by simp [parseUpdateEntry, normalise, updatePath, splitDots_plain hp.noDot, pathPieces, hp.notNumber]) (by decide)]
  cases hf : field k e with
  | none => simp [Update.apply, hf, asDoc]
  | some y =>
    simp [Update.apply, hf, asDoc, setField_same k e y hf]

/-- C138: `$inc` at a path of any length. -/
theorem C138_inc (t : IntKind) (n : Int) (ks : List Name) (hne : ks ≠ []) (h : ∀ k ∈ ks, Plain k) (d : Doc F) (ho : Open ks d) :
    let r := updateDoc [(kInc, .doc [(dotted ks, .int t n)])] d
    (getAt ks d = none → ∃ d', r = (d', .ok) ∧ getAt ks d' = some (.int .int64 (IntKind.int64.wrap n)) ∧
      ∀ q, ¬ ks <+: q → ¬ q <+: ks → getAt q d' = getAt q d) ∧
    (∀ t' m, getAt ks d = some (.int t' m) → ∃ d', r = (d', .ok) ∧ getAt ks d' = some (.int t' (t'.wrap (m + n))) ∧
      ∀ q, ¬ ks <+: q → ¬ q <+: ks → getAt q d' = getAt q d) ∧
    (∀ y, getAt ks d = some y → intValue y = none → floatValue y = none → y ≠ .null → r = (d, .error)) := by
  obtain ⟨h1, h2, h3⟩ := C41_inc (ks.getLast hne) (h _ (List.getLast_mem hne)) t n (holder ks d)
  rw [getAt_holder ks hne d]
  exact ⟨fun hg => C138_at kInc (by decide) _ ks hne h d ho _ (h1 hg), fun t' m hg => C138_at kInc (by decide) _ ks hne h d ho _ (h2 t' m hg),
    fun y hg a b c => C138_at_fails kInc (by decide) _ ks hne h d ho .error (by simp) (h3 y hg a b c)⟩

/-- C138: `$push` at a path of any length. -/
theorem C138_push (v w : Value F) (hv : normalise v = some w) (hm : hasModifiers v = false) (ks : List Name) (hne : ks ≠ [])
    (h : ∀ k ∈ ks, Plain k) (d : Doc F) (ho : Open ks d) :
    let r := updateDoc [(kPush, .doc [(dotted ks, v)])] d
    (getAt ks d = none → ∃ d' x, r = (d', .ok) ∧ getAt ks d' = some x ∧ elements x = some [w] ∧
      ∀ q, ¬ ks <+: q → ¬ q <+: ks → getAt q d' = getAt q d) ∧
    (∀ es sp, getAt ks d = some (.arr es sp) → ∃ d' x, r = (d', .ok) ∧ getAt ks d' = some x ∧ elements x = some (es ++ [w]) ∧
      ∀ q, ¬ ks <+: q → ¬ q <+: ks → getAt q d' = getAt q d) ∧
    (∀ y, getAt ks d = some y → y ≠ .null → elements y = none → r = (d, .error)) := by
  obtain ⟨h1, h2, h3⟩ := C40_push (ks.getLast hne) (h _ (List.getLast_mem hne)) v w (holder ks d) hv hm
  rw [getAt_holder ks hne d]
  refine ⟨fun hg => ?_, fun es sp hg => ?_, fun y hg a b => ?_⟩
  · obtain ⟨x, k1, k2⟩ := h1 hg
    obtain ⟨d', m1, m2, m3⟩ := C138_at kPush (by decide) _ ks hne h d ho x k1
    exact ⟨d', x, m1, m2, k2, m3⟩
  · obtain ⟨x, k1, k2⟩ := h2 es sp hg
    obtain ⟨d', m1, m2, m3⟩ := C138_at kPush (by decide) _ ks hne h d ho x k1
    exact ⟨d', x, m1, m2, k2, m3⟩
  · exact C138_at_fails kPush (by decide) _ ks hne h d ho .error (by simp) (h3 y hg a b)

/-! ### Queries -/

private theorem reach_getAt (ks : List Name) (hne : ks ≠ []) (h : ∀ k ∈ ks, Plain k) (d : Doc F) (ho : Open ks d) :
    reach ks (.doc d) = (getAt ks d).toList := by
  induction ks generalizing d with
  | nil => exact absurd rfl hne
  | cons a ks ih =>
    have ha := h a (by simp)
    cases ks with
    | nil =>
      simp only [reach, ha.notNumber, getAt]
      cases field a d <;> simp [reach]
    | cons b ks =>
      have hb := h b (by simp)
      rw [reach]
      simp only [ha.notNumber, getAt]
      cases hf : field a d with
      | none => rfl
      | some y =>
        simp only [Option.toList_some, List.flatMap_cons, List.flatMap_nil, List.append_nil]
        cases y with
        | doc e => exact ih (by simp) (fun k hk => h k (List.mem_cons_of_mem _ hk)) e (by simpa [Open, hf] using ho)
        | null => simp [reach, hb.notNumber]
        | _ => simp [Open, hf] at ho

private theorem selector_dotted (ks : List Name) (hne : ks ≠ []) (h : ∀ k ∈ ks, Plain k) : Selector (dotted ks) := by
  refine ⟨?_, ?_⟩
  · cases ks with
    | nil => exact absurd rfl hne
    | cons a ks =>
      have ha := h a (by simp)
      cases ks with
      | nil => rw [dotted_one]; exact ha.notOp
      | cons b ks =>
        rw [dotted_cons]
        cases a with
        | nil => rfl
        | cons c cs =>
          have := ha.notOp
          by_cases hc : c = '$'
          · subst hc; cases this
          · simp only [List.cons_append]
            unfold isOp
            split
            · rename_i heq; cases heq; exact absurd rfl hc
            · rfl
  · intro p hp j hj
    rw [split_dotted ks hne h] at hp
    rw [(h p hp).notNumber] at hj
    cases hj

/-- C138: a query for a value without arrays at a path with nothing in the way matches iff the value at the path, or one of its elements,
is equal to it. -/
theorem C138_query (v : Value F) (hv : literal v = true) (ks : List Name) (hne : ks ≠ []) (h : ∀ k ∈ ks, Plain k) (d : Doc F)
    (ho : Open ks d) :
    matchesQuery [(dotted ks, v)] d = some (match getAt ks d with
      | none => false
      | some (.arr es _) => es.any (same v)
      | some x => same v x) := by
  rw [C34_literal_partial _ (selector_dotted ks hne h) v hv, valuesAt, split_dotted ks hne h, reach_getAt ks hne h d ho]
  cases getAt ks d with
  | none => rfl
  | some x => cases x <;> simp [spread]

mutual
private theorem storable_literal' (v : Value F) (h : storable v = true) : literal v = true := by
  match v, h with
  | .null, _ => rfl
  | .bool _, _ => rfl
  | .int _ _, _ => rfl
  | .float _, _ => rfl
  | .str _, _ => rfl
  | .oid _, _ => rfl
  | .other _, _ => rfl
  | .doc d, h =>
    simp only [storable] at h
    simp only [literal]
    exact storableFields_literal' d h
  | .arr _ _, h => simp [storable] at h
  | .bad, h => simp [storable] at h
private theorem storableFields_literal' (d : List (Name × Value F)) (h : storableFields d = true) :
    literalFields d = true := by
  match d, h with
  | [], _ => rfl
  | (k, v) :: d, h =>
    simp only [storableFields, Bool.and_eq_true] at h
    simp only [literalFields, Bool.and_eq_true]
    exact ⟨⟨h.1.1.1, storable_literal' v h.1.1.2⟩, storableFields_literal' d h.2⟩
end

omit [Host F] in
private theorem open_of_getAt (ks : List Name) (d : Doc F) (x : Value F) (h : getAt ks d = some x) : Open ks d := by
  induction ks generalizing d with
  | nil => trivial
  | cons a ks ih =>
    cases ks with
    | nil => trivial
    | cons b ks =>
      simp only [getAt] at h
      simp only [Open]
      cases hf : field a d with
      | none => trivial
      | some y =>
        rw [hf] at h
        cases y with
        | doc e => exact ih e h
        | _ => cases h

/-- C138: after `$set` of a path to a value (without arrays, null and NaN), a query for that value at that path matches. -/
theorem C138_set_then_find (v : Value F) (hs : storable v = true) (hn : v ≠ .null) (ks : List Name) (hne : ks ≠ [])
    (h : ∀ k ∈ ks, Plain k) (d : Doc F) (ho : Open ks d) :
    hit [(dotted ks, v)] (updateDoc [(kSet, .doc [(dotted ks, v)])] d).1 = true := by
  have hp : Plain (ks.getLast hne) := h _ (List.getLast_mem hne)
  have hv := storable_literal' v hs
  have hit0 := C38_set_then_find (ks.getLast hne) hp v [] hs hn
  cases hw : normalise v with
  | none =>
    rw [rejected_entry kSet _ v [] (by simp [parseUpdateEntry, hw]), hit, C34_field_partial _ hp v hv] at hit0
    cases hit0
  | some w =>
    by_cases hwn : w = .null
    · exfalso
      cases v with
      | null => exact hn rfl
      | int t n => simp only [normalise] at hw; split at hw <;> (try split at hw) <;> simp_all
      | doc e =>
        simp only [normalise, hwn] at hw
        cases he : normaliseFields e <;> simp [he] at hw
      | arr es sp => simp [storable] at hs
      | bad => simp [storable] at hs
      | _ => simp [normalise, hwn] at hw
    rw [C38_set_partial _ hp v w [] hw hwn, hit, C34_field_partial _ hp v hv, (C38_put _ w []).1] at hit0
    obtain ⟨d', h1, h2, -⟩ := C138_set_partial v w hw hwn ks hne h d ho
    rw [h1, hit, C138_query v hv ks hne h d' (open_of_getAt ks d' w h2), h2]
    exact hit0

end Verif.NoSQL
