import Verif.Http.Spec
/- Round trip of values through JSON. -/
namespace Verif.Http

mutual
theorem isZero_iff : ∀ (t : Ty) (v : Val), IsZero t v ↔ v = zero t
  | .bool, _ | .int _ _, _ | .float, _ | .string, _ | .slice _, _ | .map _ _, _ | .ptr _, _ | .opaque, _ => by
    simp only [IsZero, zero]
  | .struct fs ts, v => by
    simp only [IsZero, zero]
    constructor
    · rintro ⟨vs, rfl, h⟩; rw [(allZero_iff ts vs).1 h]
    · rintro rfl; exact ⟨_, rfl, (allZero_iff ts _).2 rfl⟩
  | .defined t, v => by simp only [IsZero, zero]; exact isZero_iff t v
theorem allZero_iff : ∀ (ts : List Ty) (vs : List Val), AllZero ts vs ↔ vs = zeros ts
  | [], vs => by simp only [AllZero, zeros]
  | t :: ts, vs => by
    simp only [AllZero, zeros]
    constructor
    · rintro ⟨v, vs', rfl, h1, h2⟩; rw [(isZero_iff t v).1 h1, (allZero_iff ts vs').1 h2]
    · rintro rfl; exact ⟨_, _, rfl, (isZero_iff t _).2 rfl, (allZero_iff ts _).2 rfl⟩
end

/-! ### Lists -/

theorem mapM_cons_some {α β : Type} (f : α → Option β) (a : α) (l : List α) (r : List β) :
    (a :: l).mapM f = some r ↔ ∃ b bs, f a = some b ∧ l.mapM f = some bs ∧ r = b :: bs := by
  rw [List.mapM_cons]
  cases h : f a with
  | none => simp
  | some b =>
    cases hl : l.mapM f with
    | none => simp
    | some bs => simp [eq_comm]

theorem mapM_nil_some {α β : Type} (f : α → Option β) (r : List β) : ([] : List α).mapM f = some r ↔ r = [] := by
  simp [eq_comm]

theorem mapM_length {α β : Type} (f : α → Option β) : ∀ (l : List α) (r : List β), l.mapM f = some r → r.length = l.length := by
  intro l
  induction l with
  | nil => intro r h; rw [(mapM_nil_some f r).1 h]; rfl
  | cons a l ih =>
    intro r h
    obtain ⟨b, bs, _, h2, rfl⟩ := (mapM_cons_some f a l r).1 h
    simp [ih bs h2]

theorem mapM_round {α β : Type} (f : α → Option β) (g : β → Option α) : ∀ vs : List α,
    (∃ js, vs.mapM f = some js ∧ js.mapM g = some vs) ↔ ∀ v ∈ vs, ∃ j, f v = some j ∧ g j = some v := by
  intro vs
  induction vs with
  | nil => simp
  | cons v vs ih =>
    constructor
    · rintro ⟨js, h1, h2⟩
      obtain ⟨j, js', hj, hjs, rfl⟩ := (mapM_cons_some _ _ _ _).1 h1
      obtain ⟨w, ws, hw, hws, he⟩ := (mapM_cons_some _ _ _ _).1 h2
      obtain ⟨rfl, rfl⟩ := List.cons.inj he
      intro x hx
      rcases List.mem_cons.1 hx with rfl | hx
      · exact ⟨j, hj, hw⟩
      · exact (ih.1 ⟨js', hjs, hws⟩) x hx
    · intro h
      obtain ⟨j, h1, h2⟩ := h v (by simp)
      obtain ⟨js, h3, h4⟩ := ih.2 (fun x hx => h x (by simp [hx]))
      exact ⟨j :: js, (mapM_cons_some _ _ _ _).2 ⟨_, _, h1, h3, rfl⟩, (mapM_cons_some _ _ _ _).2 ⟨_, _, h2, h4, rfl⟩⟩

theorem mapM_mem {α β : Type} (f : α → Option β) : ∀ (l : List α) (r : List β), l.mapM f = some r →
    ∀ b ∈ r, ∃ a ∈ l, f a = some b := by
  intro l
  induction l with
  | nil => intro r h; rw [(mapM_nil_some f r).1 h]; simp
  | cons a l ih =>
    intro r h
    obtain ⟨b, bs, h1, h2, rfl⟩ := (mapM_cons_some f a l r).1 h
    intro x hx
    rcases List.mem_cons.1 hx with rfl | hx
    · exact ⟨a, by simp, h1⟩
    · obtain ⟨y, hy, he⟩ := ih bs h2 x hx
      exact ⟨y, by simp [hy], he⟩

/-! ### Fields -/

theorem key_eq (f : Field) : f.key = jsonName f := by
  unfold Field.key jsonName
  cases f.tag <;> rfl

theorem candidate_iff (f : Field) : f.candidate = true ↔ f.exported = true ∧ f.skip = false := by
  simp [Field.candidate]

/-- Counting in a list by positions: if the element at `i` counts, there is exactly one iff no other position
counts. -/
theorem filter_length_one {α : Type} (p : α → Bool) : ∀ (l : List α) (i : Nat) (a : α), l[i]? = some a → p a = true →
    ((l.filter p).length = 1 ↔ ∀ (j : Nat) (b : α), l[j]? = some b → j ≠ i → p b = false) := by
  intro l
  induction l with
  | nil => intro i a h; simp at h
  | cons x l ih =>
    intro i a hi hp
    cases i with
    | zero =>
      simp only [List.getElem?_cons_zero, Option.some.injEq] at hi
      subst hi
      rw [List.filter_cons_of_pos hp]
      constructor
      · intro h j b hj hne
        cases j with
        | zero => exact absurd rfl hne
        | succ j =>
          have h0 : l.filter p = [] := by
            cases hf : l.filter p with
            | nil => rfl
            | cons _ _ => simp [hf] at h
          rw [List.getElem?_cons_succ] at hj
          have := List.filter_eq_nil_iff.1 h0 b (List.mem_of_getElem? hj)
          simpa using this
      · intro h
        have : l.filter p = [] := by
          apply List.filter_eq_nil_iff.2
          intro b hb
          obtain ⟨j, hj⟩ := List.getElem?_of_mem hb
          have := h (j + 1) b (by simpa using hj) (by omega)
          simp [this]
        simp [this]
    | succ i =>
      rw [List.getElem?_cons_succ] at hi
      by_cases hx : p x = true
      · constructor
        · intro h
          exfalso
          have : a ∈ l.filter p := List.mem_filter.2 ⟨List.mem_of_getElem? hi, hp⟩
          rw [List.filter_cons_of_pos hx] at h
          cases hf : l.filter p with
          | nil => rw [hf] at this; cases this
          | cons _ _ => simp [hf] at h
        · intro h
          have := h 0 x (by simp) (by omega)
          rw [hx] at this; cases this
      · rw [List.filter_cons_of_neg hx, ih i a hi hp]
        constructor
        · intro h j b hj hne
          cases j with
          | zero => simp at hj; subst hj; simpa using hx
          | succ j => exact h j b (by simpa using hj) (by omega)
        · intro h j b hj hne
          exact h (j + 1) b (by simpa using hj) (by omega)

theorem live_iff (all : List Field) (i : Nat) (f : Field) (hi : all[i]? = some f) :
    live all f = true ↔ Visible all i := by
  have hvis : Visible all i ↔ (f.exported = true ∧ f.skip = false) ∧
      ∀ (j : Nat) (g : Field), all[j]? = some g → j ≠ i → g.candidate = true → g.key = f.key →
        f.tag ≠ none ∧ g.tag = none := by
    constructor
    · rintro ⟨g, hg, h1, h2, h3⟩
      rw [hi] at hg
      cases hg
      refine ⟨⟨h1, h2⟩, fun j g hj hne hc hk => ?_⟩
      rw [candidate_iff] at hc
      exact h3 j g hj hne hc.1 hc.2 (by rw [← key_eq, ← key_eq]; exact hk)
    · rintro ⟨⟨h1, h2⟩, h3⟩
      refine ⟨f, hi, h1, h2, fun j g hj hne e1 e2 hk => ?_⟩
      exact h3 j g hj hne ((candidate_iff g).2 ⟨e1, e2⟩) (by rw [key_eq, key_eq]; exact hk)
  rw [hvis, ← candidate_iff]
  simp only [live, Bool.and_eq_true, Bool.or_eq_true, beq_iff_eq]
  constructor
  · rintro ⟨hc, h⟩
    refine ⟨hc, ?_⟩
    rcases h with h | ⟨ht, h⟩
    · have := (filter_length_one _ all i f hi (by simp [hc])).1 h
      intro j g hj hne hg hk
      have := this j g hj hne
      simp [hg, hk] at this
    · rw [List.filter_filter] at h
      have := (filter_length_one _ all i f hi (by simp [hc, ht])).1 h
      intro j g hj hne hg hk
      have := this j g hj hne
      simp [hg, hk] at this
      exact ⟨fun h0 => by simp [h0] at ht, this⟩
  · rintro ⟨hc, h⟩
    refine ⟨hc, ?_⟩
    cases ht : f.tag.isSome with
    | false =>
      left
      apply (filter_length_one _ all i f hi (by simp [hc])).2
      intro j g hj hne
      by_cases hg : g.candidate = true
      · by_cases hk : g.key = f.key
        · exact absurd (h j g hj hne hg hk).1 (by simpa using ht)
        · simp [hk]
      · simp [hg]
    | true =>
      right
      refine ⟨rfl, ?_⟩
      rw [List.filter_filter]
      apply (filter_length_one _ all i f hi (by simp [hc, ht])).2
      intro j g hj hne
      by_cases hg : g.candidate = true
      · by_cases hk : g.key = f.key
        · simp [(h j g hj hne hg hk).2]
        · simp [hk]
      · simp [hg]

/-- Different positions that take part have different keys. -/
theorem visible_keys {all : List Field} {i j : Nat} {f g : Field} (hi : all[i]? = some f) (hj : all[j]? = some g)
    (hf : Visible all i) (hg : Visible all j) (hne : i ≠ j) : f.key ≠ g.key := by
  intro hk
  rw [key_eq, key_eq] at hk
  obtain ⟨f', hf', a1, a2, a3⟩ := hf
  obtain ⟨g', hg', b1, b2, b3⟩ := hg
  rw [hi] at hf'; cases hf'
  rw [hj] at hg'; cases hg'
  have h1 := a3 j g hj (Ne.symm hne) b1 b2 hk.symm
  have h2 := b3 i f hi hne a1 a2 hk
  exact h1.1 h2.2

theorem empty_iff {t : Ty} {v : Val} (_h : HasTy t v) : emptyVal v = true ↔ Omittable v := by
  unfold Omittable
  cases v <;> simp [emptyVal]

theorem written_iff {all : List Field} {i : Nat} {f : Field} {t : Ty} {v : Val} (hi : all[i]? = some f)
    (hv : HasTy t v) : (live all f && !(f.omitempty && emptyVal v)) = true ↔ Written all i v := by
  unfold Written
  rw [← live_iff all i f hi, ← empty_iff hv]
  simp only [Bool.and_eq_true, Bool.not_eq_true', Bool.and_eq_false_iff, hi, Option.some.injEq, exists_eq_left']
  cases f.omitempty <;> cases emptyVal v <;> simp

theorem field_lookup (k : Bytes) (ps : List (Bytes × Json)) :
    field k (ps.map fun x => .str x.1) (ps.map (·.2)) = ps.lookup k := by
  induction ps with
  | nil => rfl
  | cons p ps ih =>
    obtain ⟨a, j⟩ := p
    simp only [List.map_cons, field, List.lookup_cons, ih]
    by_cases h : k = a
    · subst h; simp
    · simp [beq_eq_false_iff_ne.2 h, Ne.symm h]

/-- The keys that are written belong to fields that take part. -/
theorem encodeFields_keys (lib : Lib) (all : List Field) : ∀ (fs : List Field) (ts : List Ty) (vs : List Val)
    (ps : List (Bytes × Json)), encodeFields lib all fs ts vs = some ps →
    ∀ p ∈ ps, ∃ f ∈ fs, live all f = true ∧ p.1 = f.key := by
  intro fs
  induction fs with
  | nil => intro ts vs ps h; simp [encodeFields] at h; subst h; simp
  | cons f fs ih =>
    intro ts vs ps h
    cases ts with
    | nil => simp [encodeFields] at h; subst h; simp
    | cons t ts =>
      cases vs with
      | nil => simp [encodeFields] at h; subst h; simp
      | cons v vs =>
        simp only [encodeFields] at h
        split at h
        · rename_i hl
          cases he : encode lib t v with
          | none => simp [he] at h
          | some j =>
            simp only [he, Option.map_eq_some_iff] at h
            obtain ⟨ps', h1, rfl⟩ := h
            intro p hp
            rcases List.mem_cons.1 hp with rfl | hp
            · simp only [Bool.and_eq_true] at hl
              exact ⟨f, by simp, hl.1, rfl⟩
            · obtain ⟨g, hg, h2⟩ := ih ts vs ps' h1 p hp
              exact ⟨g, by simp [hg], h2⟩
        · intro p hp
          obtain ⟨g, hg, h2⟩ := ih ts vs ps h p hp
          exact ⟨g, by simp [hg], h2⟩

/-! ### null -/

theorem encode_nil {lib : Lib} : ∀ (t : Ty) (v : Val) (j : Json), v = .nilSlice ∨ v = .nilMap ∨ v = .nilPtr →
    encode lib t v = some j → j = .null
  | .defined t, v, j, hv, h => by
    have h' : encode lib t v = some j := by simpa [encode] using h
    exact encode_nil t v j hv h'
  | .bool, v, j, hv, h | .int _ _, v, j, hv, h | .float, v, j, hv, h | .string, v, j, hv, h
  | .slice _, v, j, hv, h | .map _ _, v, j, hv, h | .ptr _, v, j, hv, h | .struct _ _, v, j, hv, h
  | .opaque, v, j, hv, h => by
    rcases hv with rfl | rfl | rfl <;> simp [encode] at h <;> exact h.symm

theorem encode_null {lib : Lib} : ∀ (t : Ty) (v : Val), Faithful lib.valid t v → encode lib t v = some .null →
    v = .nilSlice ∨ v = .nilMap ∨ v = .nilPtr
  | .defined t, v, hf, h => by
    have h' : encode lib t v = some .null := by simpa [encode] using h
    have hf' : Faithful lib.valid t v := by simpa [Faithful] using hf
    exact encode_null t v hf' h'
  | .ptr t, v, hf, h => by
    cases v <;> simp [encode] at h ⊢
    rename_i v
    simp only [Faithful] at hf
    rcases encode_null t v hf.2.2.2 h with h' | h' | h'
    · exact hf.1 h'
    · exact hf.2.1 h'
    · exact hf.2.2.1 h'
  | .bool, v, hf, h | .int _ _, v, hf, h | .string, v, hf, h
  | .slice _, v, hf, h | .map _ _, v, hf, h | .struct _ _, v, hf, h
  | .opaque, v, hf, h => by
    cases v <;> simp [encode] at h ⊢
  | .float, v, hf, h => by
    obtain ⟨f, rfl⟩ := hf
    simp [encode] at h

/-! ### Maps -/

theorem decode_encode_key {lib : Lib} {kt : KeyTy} {k : Key} (h : KeyHasTy kt k) :
    decodeKey kt (encodeKey lib k) = some k ↔ KeyValid lib.valid k := by
  cases kt <;> cases k <;> simp only [KeyHasTy] at h
  · rename_i s
    simp only [encodeKey, decodeKey, Option.some.injEq, Key.str.injEq, KeyValid]
    constructor
    · intro h' s' hs
      cases hs
      rw [← h']; exact lib.valid_replace s
    · intro h'; exact lib.replace_valid s (h' s rfl)
  · simp [encodeKey, decodeKey, h, KeyValid]

theorem decode_key_valid {lib : Lib} {kt : KeyTy} {k k' : Key} (h : decodeKey kt (encodeKey lib k) = some k') :
    KeyValid lib.valid k' := by
  intro s hs
  subst hs
  cases kt <;> cases k <;> simp [encodeKey, decodeKey] at h
  rw [← h]; exact lib.valid_replace _

theorem insertEntry_new (k : Key) (v : Val) (es : List (Key × Val)) (h : k ∉ es.map (·.1)) :
    insertEntry k v es = es ++ [(k, v)] := by
  induction es with
  | nil => rfl
  | cons e es ih =>
    simp only [List.map_cons, List.mem_cons, not_or] at h
    simp [insertEntry, Ne.symm h.1, ih h.2]

theorem insertEntry_keys (k : Key) (v : Val) (es : List (Key × Val)) :
    ∀ x ∈ (insertEntry k v es).map (·.1), x = k ∨ x ∈ es.map (·.1) := by
  induction es with
  | nil => simp [insertEntry]
  | cons e es ih =>
    intro x hx
    simp only [insertEntry] at hx
    split at hx
    · rename_i he
      simp only [List.map_cons, List.mem_cons] at hx ⊢
      rcases hx with h | h
      · exact .inl h
      · exact .inr (.inr h)
    · simp only [List.map_cons, List.mem_cons] at hx ⊢
      rcases hx with h | h
      · exact .inr (.inl h)
      · rcases ih x h with h | h
        · exact .inl h
        · exact .inr (.inr h)

theorem fold_nodup (l : List (Key × Val)) : ∀ es : List (Key × Val), ((es ++ l).map (·.1)).Nodup →
    l.foldl (fun es e => insertEntry e.1 e.2 es) es = es ++ l := by
  induction l with
  | nil => intro es _; simp
  | cons e l ih =>
    intro es h
    have hn : e.1 ∉ es.map (·.1) := by
      intro hm
      simp only [List.map_append, List.map_cons] at h
      rw [List.nodup_append] at h
      exact h.2.2 _ hm _ (by simp) rfl
    rw [List.foldl_cons, insertEntry_new _ _ _ hn, ih _ (by simpa using h)]
    simp

theorem fold_keys (l : List (Key × Val)) : ∀ es : List (Key × Val),
    ∀ x ∈ (l.foldl (fun es e => insertEntry e.1 e.2 es) es).map (·.1), x ∈ es.map (·.1) ∨ x ∈ l.map (·.1) := by
  induction l with
  | nil => intro es x hx; exact .inl hx
  | cons e l ih =>
    intro es x hx
    rw [List.foldl_cons] at hx
    rcases ih _ x hx with h | h
    · rcases insertEntry_keys _ _ _ x h with h | h
      · exact .inr (by simp [h])
      · exact .inl h
    · exact .inr (by simp only [List.map_cons, List.mem_cons]; exact .inr h)

theorem map_fst_zip {α β : Type} : ∀ (l : List α) (r : List β), l.length = r.length → (l.zip r).map (·.1) = l := by
  intro l
  induction l with
  | nil => intro r _; simp
  | cons a l ih =>
    intro r h
    cases r with
    | nil => simp at h
    | cons b r => simp [ih r (by simpa using h)]

theorem map_snd_zip {α β : Type} : ∀ (l : List α) (r : List β), l.length = r.length → (l.zip r).map (·.2) = r := by
  intro l
  induction l with
  | nil => intro r h; cases r with
    | nil => rfl
    | cons _ _ => simp at h
  | cons a l ih =>
    intro r h
    cases r with
    | nil => simp at h
    | cons b r => simp [ih r (by simpa using h)]

/-! ### The round trip -/

/-- A value survives. -/
def Survives (lib : Lib) (t : Ty) (v : Val) : Prop := ∃ j, encode lib t v = some j ∧ decode t j = some v

theorem round_slice {lib : Lib} {t : Ty} {vs : List Val} (ih : ∀ v ∈ vs, (Survives lib t v ↔ Faithful lib.valid t v)) :
    Survives lib (.slice t) (.slice vs) ↔ Faithful lib.valid (.slice t) (.slice vs) := by
  have h := mapM_round (encode lib t) (decode t) vs
  unfold Survives
  simp only [encode, Faithful, Option.map_eq_some_iff]
  constructor
  · rintro ⟨j, ⟨js, h1, rfl⟩, h2⟩
    simp only [decode, Option.map_eq_some_iff, Val.slice.injEq] at h2
    obtain ⟨vs', h2, rfl⟩ := h2
    intro v hv
    exact (ih v hv).1 ((h.1 ⟨js, h1, h2⟩) v hv)
  · intro hf
    obtain ⟨js, h1, h2⟩ := h.2 (fun v hv => (ih v hv).2 (hf v hv))
    exact ⟨.arr js, ⟨js, h1, rfl⟩, by simp [decode, h2]⟩

theorem keys_round {lib : Lib} {kt : KeyTy} (ks : List Key) (hk : ∀ k ∈ ks, KeyHasTy kt k) :
    ((ks.map (encodeKey lib)).mapM (decodeKey kt) = some ks) ↔ ∀ k ∈ ks, KeyValid lib.valid k := by
  induction ks with
  | nil => simp
  | cons k ks ih =>
    rw [List.map_cons, mapM_cons_some]
    have h1 := decode_encode_key (lib := lib) (hk k (by simp))
    have h2 := ih (fun x hx => hk x (by simp [hx]))
    constructor
    · rintro ⟨b, bs, e1, e2, e3⟩
      obtain ⟨rfl, rfl⟩ := List.cons.inj e3
      intro x hx
      rcases List.mem_cons.1 hx with rfl | hx
      · exact h1.1 e1
      · exact h2.1 e2 x hx
    · intro h
      exact ⟨k, ks, h1.2 (h k (by simp)), h2.2 (fun x hx => h x (by simp [hx])), rfl⟩

theorem keys_valid {lib : Lib} {kt : KeyTy} (ks ks' : List Key)
    (h : (ks.map (encodeKey lib)).mapM (decodeKey kt) = some ks') : ∀ k ∈ ks', KeyValid lib.valid k := by
  intro k hk
  obtain ⟨j, hj, he⟩ := mapM_mem _ _ _ h k hk
  obtain ⟨k0, _, rfl⟩ := List.mem_map.1 hj
  exact decode_key_valid he

theorem round_map {lib : Lib} {kt : KeyTy} {t : Ty} {ks : List Key} {vs : List Val}
    (hty : HasTy (.map kt t) (.map ks vs)) (ih : ∀ v ∈ vs, (Survives lib t v ↔ Faithful lib.valid t v)) :
    Survives lib (.map kt t) (.map ks vs) ↔ Faithful lib.valid (.map kt t) (.map ks vs) := by
  have h := mapM_round (encode lib t) (decode t) vs
  simp only [HasTy] at hty
  obtain ⟨hnd, hlen, hk, _⟩ := hty
  have hfold : ∀ ws : List Val, ks.length = ws.length →
      (ks.zip ws).foldl (fun es e => insertEntry e.1 e.2 es) [] = ks.zip ws := by
    intro ws hw
    have := fold_nodup (ks.zip ws) [] (by simpa [map_fst_zip _ _ hw] using hnd)
    simpa using this
  unfold Survives
  simp only [encode, Faithful, Option.map_eq_some_iff]
  constructor
  · rintro ⟨j, ⟨js, h1, rfl⟩, h2⟩
    simp only [decode] at h2
    cases hks : (ks.map (encodeKey lib)).mapM (decodeKey kt) with
    | none => simp [hks] at h2
    | some ks' =>
      cases hvs : js.mapM (decode t) with
      | none => simp [hks, hvs] at h2
      | some vs' =>
        simp only [hks, hvs, Option.some.injEq, Val.map.injEq] at h2
        have hv := keys_valid ks ks' hks
        have hval : ∀ k ∈ ks, KeyValid lib.valid k := by
          intro k hkm
          rw [← h2.1] at hkm
          rcases fold_keys _ _ k hkm with h' | h'
          · simp at h'
          · obtain ⟨e, he, rfl⟩ := List.mem_map.1 h'
            exact hv _ (List.of_mem_zip he).1
        have hks' : ks' = ks := by
          have := (keys_round (lib := lib) ks hk).2 hval
          rw [hks] at this; exact Option.some.inj this
        subst hks'
        have hl : ks'.length = vs'.length := by
          rw [mapM_length _ _ _ hvs, mapM_length _ _ _ h1, hlen]
        rw [hfold vs' hl, map_snd_zip _ _ hl] at h2
        have he : vs' = vs := h2.2
        subst he
        exact ⟨hval, fun v hv => (ih v hv).1 ((h.1 ⟨js, h1, hvs⟩) v hv)⟩
  · rintro ⟨hval, hf⟩
    obtain ⟨js, h1, h2⟩ := h.2 (fun v hv => (ih v hv).2 (hf v hv))
    refine ⟨.obj (ks.map (encodeKey lib)) js, ⟨js, h1, rfl⟩, ?_⟩
    have hks := (keys_round (lib := lib) ks hk).2 hval
    simp only [decode, hks, h2, hfold vs hlen, map_fst_zip _ _ hlen, map_snd_zip _ _ hlen]

theorem decode_ptr {t : Ty} {j : Json} (h : j ≠ .null) : decode (.ptr t) j = (decode t j).map .ptr := by
  cases j <;> simp [decode] at h ⊢

theorem drop_cons {all : List Field} {i : Nat} {f : Field} {fs : List Field} (h : all.drop i = f :: fs) :
    all[i]? = some f ∧ all.drop (i + 1) = fs := by
  constructor
  · have := List.getElem?_drop (xs := all) (i := i) (j := 0)
    rw [h] at this; simpa using this.symm
  · rw [← List.drop_drop, h]; rfl

mutual
/-- A value survives JSON iff it is faithful. -/
theorem survives_iff (lib : Lib) : ∀ (t : Ty) (v : Val), HasTy t v → (Survives lib t v ↔ Faithful lib.valid t v)
  | .bool, v, h => by
    cases v <;> simp [HasTy] at h
    simp [Survives, encode, decode, Faithful]
  | .int lo hi, v, h => by
    cases v <;> simp [HasTy] at h
    simp [Survives, encode, decode, Faithful, h]
  | .float, v, h => by
    cases v <;> simp [HasTy] at h
    rename_i f
    cases f <;> simp [Survives, encode, decode, Faithful]
  | .string, v, h => by
    cases v <;> simp [HasTy] at h
    rename_i s
    simp only [Survives, encode, Option.some.injEq, exists_eq_left', decode, Faithful, Val.str.injEq]
    constructor
    · intro h s' hs; subst hs; rw [← h]; exact lib.valid_replace _
    · intro h; exact lib.replace_valid s (h s rfl)
  | .slice t, v, h => by
    cases v <;> simp [HasTy] at h
    · simp [Survives, encode, decode, Faithful]
    · exact round_slice (fun v hv => survives_iff lib t v (h v hv))
  | .map kt t, v, h => by
    cases v <;> simp only [HasTy] at h
    · simp [Survives, encode, decode, Faithful]
    · exact round_map (by simp only [HasTy]; exact h) (fun v hv => survives_iff lib t v (h.2.2.2 v hv))
  | .ptr t, v, h => by
    cases v <;> simp only [HasTy] at h
    · simp [Survives, encode, decode, Faithful]
    · rename_i v
      have ih := survives_iff lib t v h
      simp only [Faithful]
      constructor
      · rintro ⟨j, h1, h2⟩
        simp only [encode] at h1
        have hj : j ≠ .null := by rintro rfl; simp [decode] at h2
        rw [decode_ptr hj] at h2
        simp only [Option.map_eq_some_iff, Val.ptr.injEq, exists_eq_right] at h2
        exact ⟨fun hv => hj (encode_nil t v j (.inl hv) h1), fun hv => hj (encode_nil t v j (.inr (.inl hv)) h1),
          fun hv => hj (encode_nil t v j (.inr (.inr hv)) h1), ih.1 ⟨j, h1, h2⟩⟩
      · rintro ⟨n1, n2, n3, hf⟩
        obtain ⟨j, h1, h2⟩ := ih.2 hf
        have hj : j ≠ .null := by
          rintro rfl
          rcases encode_null t v hf h1 with h' | h' | h'
          · exact n1 h'
          · exact n2 h'
          · exact n3 h'
        exact ⟨j, by simpa only [encode] using h1, by rw [decode_ptr hj, h2]; rfl⟩
  | .struct fs ts, v, h => by
    cases v <;> simp only [HasTy] at h
    rename_i vs
    have ih := fields_iff lib fs ts vs h.2 0 fs [] (by simp) h.1 (by simp)
    simp only [Faithful]
    rw [← ih]
    simp only [Survives, encode, Option.map_eq_some_iff, List.nil_append]
    constructor
    · rintro ⟨j, ⟨ps, h1, rfl⟩, h2⟩
      simp only [decode, Option.map_eq_some_iff, Val.struct.injEq, exists_eq_right] at h2
      exact ⟨ps, h1, h2⟩
    · rintro ⟨ps, h1, h2⟩
      exact ⟨_, ⟨ps, h1, rfl⟩, by simp [decode, h2]⟩
  | .defined t, v, h => by
    have h' : HasTy t v := by simpa only [HasTy] using h
    have ih := survives_iff lib t v h'
    simp only [Survives, encode, decode, Faithful] at ih ⊢
    exact ih
  | .opaque, v, h => by
    cases v <;> simp only [HasTy] at h
    simp [Survives, encode, Faithful]
/-- The same for the fields of a struct, from position `i`; `pre` are the entries of the fields before. -/
theorem fields_iff (lib : Lib) (all : List Field) : ∀ (ts : List Ty) (vs : List Val), HasTys ts vs →
    ∀ (i : Nat) (fs : List Field) (pre : List (Bytes × Json)), all.drop i = fs → fs.length = ts.length →
    (∀ f ∈ fs, live all f = true → f.key ∉ pre.map (·.1)) →
    ((∃ ps, encodeFields lib all fs ts vs = some ps ∧
      decodeFields all fs ts ((pre ++ ps).map fun x => .str x.1) ((pre ++ ps).map (·.2)) = some vs) ↔
      FaithfulFields lib.valid all i ts vs)
  | [], vs, h, i, fs, pre, hd, hl, hp => by
    cases vs with
    | nil =>
      cases fs with
      | nil => simp [encodeFields, decodeFields, FaithfulFields]
      | cons _ _ => simp at hl
    | cons _ _ => simp [HasTys] at h
  | t :: ts, vs, h, i, fs, pre, hd, hl, hp => by
    cases vs with
    | nil => simp [HasTys] at h
    | cons v vs =>
      cases fs with
      | nil => simp at hl
      | cons f fs =>
        simp only [HasTys] at h
        obtain ⟨hi, hd'⟩ := drop_cons hd
        have hw := written_iff hi h.1
        have hlater : ∀ g ∈ fs, live all g = true → live all f = true → g.key ≠ f.key := by
          intro g hg hlg hlf
          rw [← hd'] at hg
          obtain ⟨k, hk⟩ := List.getElem?_of_mem hg
          rw [List.getElem?_drop] at hk
          exact visible_keys hk hi ((live_iff all _ g hk).1 hlg) ((live_iff all _ f hi).1 hlf) (by omega)
        have ihv := survives_iff lib t v h.1
        simp only [encodeFields, FaithfulFields, isZero_iff, ← hw]
        by_cases hwr : (live all f && !(f.omitempty && emptyVal v)) = true
        · have hlf : live all f = true := by simp only [Bool.and_eq_true] at hwr; exact hwr.1
          rw [if_pos hwr]
          simp only [hwr, true_implies, not_true_eq_false, false_implies, true_and]
          have hkey : f.key ∉ pre.map (·.1) := hp f (by simp) hlf
          have hlook : ∀ (j : Json) (ps : List (Bytes × Json)), (pre ++ (f.key, j) :: ps).lookup f.key = some j := by
            intro j ps
            clear hp
            induction pre with
            | nil => simp
            | cons p pre ih =>
              simp only [List.map_cons, List.mem_cons, not_or] at hkey
              rw [List.cons_append, List.lookup_cons, beq_eq_false_iff_ne.2 hkey.1]
              exact ih hkey.2
          have ihf := fun j => fields_iff lib all ts vs h.2 (i + 1) fs (pre ++ [(f.key, j)]) hd' (by simpa using hl) (by
            intro g hg hlg
            simp only [List.map_append, List.map_cons, List.map_nil, List.mem_append, List.mem_singleton, not_or]
            exact ⟨hp g (by simp [hg]) hlg, hlater g hg hlg hlf⟩)
          have hassoc : ∀ (j : Json) (ps : List (Bytes × Json)), pre ++ [(f.key, j)] ++ ps = pre ++ (f.key, j) :: ps := by
            intro j ps; simp
          constructor
          · rintro ⟨ps, h1, h2⟩
            cases he : encode lib t v with
            | none => simp [he] at h1
            | some j =>
              simp only [he, Option.map_eq_some_iff] at h1
              obtain ⟨ps', h1, rfl⟩ := h1
              simp only [decodeFields, hlf, if_true, field_lookup, hlook] at h2
              cases hdj : decode t j with
              | none => simp [hdj] at h2
              | some w =>
                simp only [hdj, Option.map_eq_some_iff, List.cons.injEq] at h2
                obtain ⟨vs', h2, rfl, rfl⟩ := h2
                refine ⟨ihv.1 ⟨j, he, hdj⟩, (ihf j).1 ⟨ps', h1, ?_⟩⟩
                rw [hassoc]; exact h2
          · rintro ⟨hf1, hf2⟩
            obtain ⟨j, he, hdj⟩ := ihv.2 hf1
            obtain ⟨ps', h1, h2⟩ := (ihf j).2 hf2
            rw [hassoc] at h2
            refine ⟨(f.key, j) :: ps', by simp only [he, h1, Option.map_some], ?_⟩
            simp only [decodeFields, hlf, if_true, field_lookup, hlook, hdj]
            rw [h2]; rfl
        · rw [if_neg hwr]
          have hwf : (live all f && !(f.omitempty && emptyVal v)) = false := by simpa using hwr
          simp only [hwf, Bool.false_eq_true, false_implies, true_and, not_false_eq_true, true_implies]
          have ihf := fields_iff lib all ts vs h.2 (i + 1) fs pre hd' (by simpa using hl) (fun g hg => hp g (by simp [hg]))
          rw [← ihf]
          have hnone : ∀ ps, encodeFields lib all fs ts vs = some ps →
              (if live all f then field f.key ((pre ++ ps).map fun x => .str x.1) ((pre ++ ps).map (·.2)) else none) = none := by
            intro ps hps
            by_cases hlf : live all f = true
            · rw [if_pos hlf, field_lookup, List.lookup_eq_none_iff]
              intro p hpm
              rcases List.mem_append.1 hpm with hpm | hpm
              · have := hp f (by simp) hlf
                simp only [beq_eq_false_iff_ne, ne_eq, bne_iff_ne]
                intro he
                exact this (he ▸ List.mem_map_of_mem hpm)
              · obtain ⟨g, hg, hlg, he⟩ := encodeFields_keys lib all _ _ _ _ hps p hpm
                have := hlater g hg hlg hlf
                simp only [beq_eq_false_iff_ne, ne_eq, bne_iff_ne]
                intro he'
                exact this (by rw [he', he])
            · rw [if_neg hlf]
          constructor
          · rintro ⟨ps, h1, h2⟩
            simp only [decodeFields, hnone ps h1, Option.map_eq_some_iff, List.cons.injEq] at h2
            obtain ⟨vs', h2, h3, rfl⟩ := h2
            exact ⟨h3.symm, ps, h1, h2⟩
          · rintro ⟨hz, ps, h1, h2⟩
            refine ⟨ps, h1, ?_⟩
            simp only [decodeFields, hnone ps h1]
            rw [h2, ← hz]; rfl
end

end Verif.Http
