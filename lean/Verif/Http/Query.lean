import Verif.Http.Spec
/- Query strings: what was encoded is parsed back. -/
namespace Verif.Http

theorem unhex_hexDigit : ∀ n : Fin 16, unhex (hexDigit n) = some n := by decide

theorem unreserved_ne : ∀ b : Byte, unreserved b = true → b.val ≠ 37 ∧ b.val ≠ 43 := by decide +kernel

theorem unescape_byte (b : Byte) (r : Bytes) :
    unescape .plain (escapeByte b ++ r) = (unescape .plain r).map (b :: ·) := by
  unfold escapeByte
  by_cases h : unreserved b = true
  · have := unreserved_ne b h
    rw [if_pos h]
    show (if b.val = 37 then _ else if b.val = 43 then _ else _) = _
    rw [if_neg this.1, if_neg this.2]
    rfl
  · rw [if_neg h]
    by_cases h32 : b.val = 32
    · have hb : b = (32 : Byte) := Fin.ext h32
      rw [if_pos h32, hb]
      rfl
    · rw [if_neg h32]
      show (match unhex (hexDigit (Fin.ofNat 16 (b.val / 16))) with
        | some h => unescape (.digit h) (hexDigit (Fin.ofNat 16 (b.val % 16)) :: r)
        | none => none) = _
      rw [unhex_hexDigit]
      show (match unhex (hexDigit (Fin.ofNat 16 (b.val % 16))) with
        | some l => (unescape .plain r).map (Fin.ofNat 256 ((Fin.ofNat 16 (b.val / 16)).val * 16 + l.val) :: ·)
        | none => none) = _
      rw [unhex_hexDigit]
      have : Fin.ofNat 256 ((Fin.ofNat 16 (b.val / 16)).val * 16 + (Fin.ofNat 16 (b.val % 16)).val) = b := by
        apply Fin.ext
        have := b.isLt
        simp only [Fin.ofNat]
        omega
      show (unescape .plain r).map (Fin.ofNat 256 _ :: ·) = _
      rw [this]

theorem unescape_escape (s r : Bytes) : unescape .plain (escape s ++ r) = (unescape .plain r).map (s ++ ·) := by
  induction s with
  | nil => simp [escape]
  | cons b s ih =>
    have : escape (b :: s) = escapeByte b ++ escape s := rfl
    rw [this, List.append_assoc, unescape_byte, ih]
    cases unescape .plain r <;> simp

theorem unescape_escape' (s : Bytes) : unescape .plain (escape s) = some s := by
  have := unescape_escape s []
  simpa [unescape] using this

/-- The bytes that have a meaning in a query string or URL do not occur in escaped text. -/
theorem escapeByte_clean : ∀ b : Byte, ∀ c ∈ escapeByte b, c ≠ 38 ∧ c ≠ 61 ∧ c ≠ 59 ∧ c ≠ 35 := by
  decide +kernel

theorem escape_clean (s : Bytes) : ∀ c ∈ escape s, c ≠ 38 ∧ c ≠ 61 ∧ c ≠ 59 ∧ c ≠ 35 := by
  intro c hc
  obtain ⟨b, _, h⟩ := List.mem_flatMap.1 hc
  exact escapeByte_clean b c h

instance (b : Byte) : Decidable (UrlByte b) := by unfold UrlByte IdentByte; infer_instance

theorem escapeByte_url : ∀ b : Byte, ∀ c ∈ escapeByte b, UrlByte c := by decide +kernel

theorem escape_url (s : Bytes) : ∀ c ∈ escape s, UrlByte c := by
  intro c hc
  obtain ⟨b, _, h⟩ := List.mem_flatMap.1 hc
  exact escapeByte_url b c h

theorem joinAmp_url (l : List Bytes) (h : ∀ p ∈ l, ∀ c ∈ p, UrlByte c) : ∀ c ∈ joinAmp l, UrlByte c := by
  induction l with
  | nil => intro c hc; cases hc
  | cons p l ih =>
    have ih := ih fun q hq => h q (List.mem_cons_of_mem _ hq)
    cases l with
    | nil => exact h p List.mem_cons_self
    | cons q l =>
      intro c hc
      rcases List.mem_append.1 (show c ∈ p ++ 38 :: joinAmp (q :: l) from hc) with hc | hc
      · exact h p List.mem_cons_self c hc
      · rcases List.mem_cons.1 hc with rfl | hc
        · decide
        · exact ih c hc

theorem encodeValues_url (vals : List (Bytes × Bytes)) : ∀ c ∈ encodeValues vals, UrlByte c := by
  apply joinAmp_url
  intro p hp c hc
  obtain ⟨q, _, rfl⟩ := List.mem_map.1 hp
  rcases List.mem_append.1 hc with hc | hc
  · exact escape_url _ c hc
  · rcases List.mem_cons.1 hc with rfl | hc
    · decide
    · exact escape_url _ c hc

theorem cut_append (sep : Byte) (a r : Bytes) (h : sep ∉ a) : cut sep (a ++ sep :: r) = (a, r) := by
  induction a with
  | nil => simp [cut]
  | cons c a ih =>
    simp only [List.mem_cons, not_or] at h
    simp [cut, Ne.symm h.1, ih h.2]

theorem cut_none (sep : Byte) (a : Bytes) (h : sep ∉ a) : cut sep a = (a, []) := by
  induction a with
  | nil => rfl
  | cons c a ih =>
    simp only [List.mem_cons, not_or] at h
    simp [cut, Ne.symm h.1, ih h.2]

theorem splitOn_none (sep : Byte) (a : Bytes) (h : sep ∉ a) : splitOn sep a = [a] := by
  induction a with
  | nil => rfl
  | cons c a ih =>
    simp only [List.mem_cons, not_or] at h
    simp [splitOn, Ne.symm h.1, ih h.2]

theorem splitOn_append (sep : Byte) (a r : Bytes) (h : sep ∉ a) : splitOn sep (a ++ sep :: r) = a :: splitOn sep r := by
  induction a with
  | nil => simp [splitOn]
  | cons c a ih =>
    simp only [List.mem_cons, not_or] at h
    simp [splitOn, Ne.symm h.1, ih h.2]

theorem splitOn_joinAmp (ps : List Bytes) (hne : ps ≠ []) (h : ∀ p ∈ ps, (38 : Byte) ∉ p) :
    splitOn 38 (joinAmp ps) = ps := by
  induction ps with
  | nil => exact absurd rfl hne
  | cons p ps ih =>
    cases ps with
    | nil => exact splitOn_none _ _ (h p (by simp))
    | cons q ps =>
      rw [joinAmp, splitOn_append _ _ _ (h p (by simp)), ih (by simp) (fun x hx => h x (by simp [hx]))]
      simp

theorem pairText_clean (p : Bytes × Bytes) : (38 : Byte) ∉ pairText p ∧ (59 : Byte) ∉ pairText p ∧ (35 : Byte) ∉ pairText p := by
  have h1 := escape_clean p.1
  have h2 := escape_clean p.2
  simp only [pairText, List.mem_append, List.mem_cons, not_or]
  refine ⟨⟨fun h => (h1 _ h).1 rfl, by decide, fun h => (h2 _ h).1 rfl⟩,
    ⟨fun h => (h1 _ h).2.2.1 rfl, by decide, fun h => (h2 _ h).2.2.1 rfl⟩,
    ⟨fun h => (h1 _ h).2.2.2 rfl, by decide, fun h => (h2 _ h).2.2.2 rfl⟩⟩

theorem parsePair_pairText (p : Bytes × Bytes) : parsePair (pairText p) = some p := by
  have hc : cut 61 (pairText p) = (escape p.1, escape p.2) :=
    cut_append _ _ _ (fun h => (escape_clean p.1 _ h).2.1 rfl)
  have hne : pairText p ≠ [] := by simp [pairText]
  unfold parsePair
  rw [if_neg hne, if_neg (pairText_clean p).2.1, hc]
  simp [unescape_escape']

theorem parseQuery_join (l : List (Bytes × Bytes)) : parseQuery (joinAmp (l.map pairText)) = l := by
  unfold parseQuery
  cases l with
  | nil => simp [joinAmp, splitOn, parsePair]
  | cons p l =>
    rw [splitOn_joinAmp _ (by simp) (by
      intro q hq
      obtain ⟨x, _, rfl⟩ := List.mem_map.1 hq
      exact (pairText_clean x).1)]
    rw [List.filterMap_map]
    have : parsePair ∘ pairText = some := by funext x; exact parsePair_pairText x
    rw [this, List.filterMap_some]

theorem joinAmp_no_hash (l : List (Bytes × Bytes)) : (35 : Byte) ∉ joinAmp (l.map pairText) := by
  induction l with
  | nil => simp [joinAmp]
  | cons p l ih =>
    cases l with
    | nil => simpa [joinAmp] using (pairText_clean p).2.2
    | cons q l =>
      simp only [List.map_cons, joinAmp, List.mem_append, List.mem_cons, not_or] at ih ⊢
      exact ⟨(pairText_clean p).2.2, by decide, ih⟩

theorem encodeValues_no_hash (l : List (Bytes × Bytes)) : (35 : Byte) ∉ encodeValues l := joinAmp_no_hash _

theorem lookup_iff {l : List (Bytes × Bytes)} (h : (l.map (·.1)).Nodup) (k v : Bytes) :
    l.lookup k = some v ↔ (k, v) ∈ l := by
  induction l with
  | nil => simp
  | cons p l ih =>
    obtain ⟨a, b⟩ := p
    simp only [List.map_cons, List.nodup_cons] at h
    by_cases hk : k = a
    · subst hk
      simp only [List.lookup_cons, beq_self_eq_true, List.mem_cons, Option.some.injEq, Prod.mk.injEq, true_and]
      constructor
      · intro h; exact .inl h.symm
      · rintro (h' | h')
        · exact h'.symm
        · exact absurd (List.mem_map.2 ⟨_, h', rfl⟩) h.1
    · simp only [List.lookup_cons, beq_eq_false_iff_ne.2 hk, List.mem_cons, ih h.2]
      simp [hk]

theorem lookup_perm {l l' : List (Bytes × Bytes)} (hp : l.Perm l') (h : (l.map (·.1)).Nodup) (k : Bytes) :
    l.lookup k = l'.lookup k := by
  have h' : (l'.map (·.1)).Nodup := (hp.map _).nodup_iff.1 h
  cases hl : l.lookup k with
  | some v => exact ((lookup_iff h' k v).2 (hp.mem_iff.1 ((lookup_iff h k v).1 hl))).symm
  | none =>
    cases hl' : l'.lookup k with
    | none => rfl
    | some v => rw [(lookup_iff h k v).2 (hp.mem_iff.2 ((lookup_iff h' k v).1 hl'))] at hl; cases hl

/-- The server finds for every name the value that the client added for it. -/
theorem query_get (l : List (Bytes × Bytes)) (h : (l.map (·.1)).Nodup) (k : Bytes) :
    queryGet (parseQuery (encodeValues l)) k = (l.lookup k).getD [] := by
  unfold queryGet encodeValues
  rw [parseQuery_join]
  rw [← lookup_perm (List.mergeSort_perm l _).symm h k]

theorem parseTarget_target (path raw : Bytes) (h1 : (63 : Byte) ∉ path) (h2 : (35 : Byte) ∉ path)
    (h3 : (35 : Byte) ∉ raw) : parseTarget (target path raw) = (path, raw) := by
  unfold parseTarget target
  by_cases h : raw = []
  · subst h
    simp [cut_none _ _ h2, cut_none _ _ h1]
  · rw [if_neg h, cut_none 35 _ (by
      simp only [List.mem_append, List.mem_cons, not_or]
      exact ⟨h2, by decide, h3⟩)]
    exact cut_append _ _ _ h1

theorem ident_clean : ∀ b : Byte, IdentByte b → b ≠ 63 ∧ b ≠ 35 := by
  intro b h
  unfold IdentByte at h
  constructor <;> rintro rfl <;> revert h <;> decide

end Verif.Http
