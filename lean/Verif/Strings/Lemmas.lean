import Verif.Strings.Model
import Verif.Strings.Spec
/-
Lemmas for C23 and C24, in the model's vocabulary.
-/
namespace Verif.Strings

/-- Letters, digits and underscore. -/
def IdentM (c : Char) : Prop := isLower c = true ∨ isUpper c = true ∨ isDigit c = true ∨ c = '_'

/-- Letters and digits. -/
def alnumM (c : Char) : Bool := isLower c || isUpper c || isDigit c

/-! ### C23 -/

theorem collapse_chars (s : List Char) : ∀ b, ∀ c ∈ collapse b s, kept c = true ∧ c ∈ s ∨ c = '_' := by
  induction s with
  | nil => simp [collapse]
  | cons a s ih =>
    intro b c hc
    simp only [collapse] at hc
    split at hc
    · rcases List.mem_cons.1 hc with rfl | hc
      · exact .inl ⟨by assumption, by simp⟩
      · exact (ih _ _ hc).imp (fun h => ⟨h.1, by simp [h.2]⟩) id
    · split at hc
      · exact (ih _ _ hc).imp (fun h => ⟨h.1, by simp [h.2]⟩) id
      · rcases List.mem_cons.1 hc with rfl | hc
        · exact .inr rfl
        · exact (ih _ _ hc).imp (fun h => ⟨h.1, by simp [h.2]⟩) id

theorem strip_suffix (s : List Char) : stripDigits s <:+ s := by
  induction s with
  | nil => simp [stripDigits]
  | cons c s ih =>
    simp only [stripDigits]
    split
    · exact ih.trans (List.suffix_cons c s)
    · exact List.suffix_refl _

theorem strip_head (s : List Char) : ∀ c, (stripDigits s).head? = some c → isDigit c = false := by
  induction s with
  | nil => simp [stripDigits]
  | cons a s ih =>
    intro c h
    simp only [stripDigits] at h
    split at h
    · exact ih c h
    · simp at h; subst h; simpa using ‹¬ isDigit a = true›

/-- C23: a name without spaces is turned into letters, digits and underscores, not starting with a digit.
-/
theorem m_identifier_partial (s : List Char) (hs : ' ' ∉ s) :
    (∀ c ∈ cleanName s, IdentM c) ∧ (∀ c, (cleanName s).head? = some c → isDigit c = false) := by
  refine ⟨?_, strip_head _⟩
  intro c hc
  rcases collapse_chars s false c ((strip_suffix _).subset hc) with ⟨h1, h2⟩ | h
  · have : c ≠ ' ' := fun h => hs (h ▸ h2)
    simp only [kept, Bool.or_eq_true, beq_iff_eq] at h1
    unfold IdentM
    rcases h1 with ((h | h) | h) | h
    · exact .inl h
    · exact .inr (.inl h)
    · exact .inr (.inr (.inl h))
    · exact absurd h this
  · exact .inr (.inr (.inr h))

/-- C23, every name: besides letters, digits and underscores only spaces survive. -/
theorem m_identifier_or_space (s : List Char) : ∀ c ∈ cleanName s, IdentM c ∨ c = ' ' := by
  intro c hc
  rcases collapse_chars s false c ((strip_suffix _).subset hc) with ⟨h1, h2⟩ | h
  · simp only [kept, Bool.or_eq_true, beq_iff_eq] at h1
    unfold IdentM
    rcases h1 with ((h | h) | h) | h
    · exact .inl (.inl h)
    · exact .inl (.inr (.inl h))
    · exact .inl (.inr (.inr (.inl h)))
    · exact .inr h
  · exact .inl (.inr (.inr (.inr h)))





theorem collapse_false_of (s : List Char) (h : ∀ c, s.head? = some c → kept c = true) :
    collapse true s = collapse false s := by
  cases s with
  | nil => rfl
  | cons c s => simp [collapse, h c rfl]

/-- No two neighbouring characters that would be merged. -/
private inductive Single : List Char → Prop
  | nil : Single []
  | cons (c s) : (kept c = true ∨ c = '_' ∧ ∀ d, s.head? = some d → kept d = true) → Single s → Single (c :: s)

theorem collapse_single (s : List Char) : ∀ b, Single (collapse b s) ∧
    (b = true → ∀ d, (collapse b s).head? = some d → kept d = true) := by
  induction s with
  | nil => intro b; exact ⟨.nil, by simp [collapse]⟩
  | cons c s ih =>
    intro b
    simp only [collapse]
    split
    · exact ⟨.cons _ _ (.inl ‹_›) (ih false).1, fun _ d hd => by simp at hd; subst hd; assumption⟩
    · cases b with
      | true => simp only [if_true]; exact ⟨(ih true).1, fun _ => (ih true).2 rfl⟩
      | false =>
        simp only [Bool.false_eq_true, if_false]
        exact ⟨.cons _ _ (.inr ⟨rfl, (ih true).2 rfl⟩) (ih true).1, by simp⟩

theorem collapse_of_single {s : List Char} (h : Single s) : collapse false s = s := by
  induction h with
  | nil => rfl
  | cons c s hc _ ih =>
    simp only [collapse]
    rcases hc with hc | ⟨rfl, hd⟩
    · simp [hc, ih]
    · have : kept '_' = false := by decide
      simp [this, collapse_false_of s hd, ih]

theorem single_suffix {s t : List Char} (h : Single s) (ht : t <:+ s) : Single t := by
  induction h with
  | nil => rw [List.suffix_nil.1 ht]; exact .nil
  | cons c s hc hs ih =>
    rcases List.suffix_cons_iff.1 ht with rfl | h
    · exact .cons c s hc hs
    · exact ih h

theorem strip_id (s : List Char) (h : ∀ c, s.head? = some c → isDigit c = false) : stripDigits s = s := by
  cases s with
  | nil => rfl
  | cons c s => simp [stripDigits, h c rfl]

/-- C23: cleaning a clean name changes nothing. -/
theorem m_idempotent (s : List Char) : cleanName (cleanName s) = cleanName s := by
  have h := single_suffix (collapse_single s false).1 (strip_suffix (collapse false s))
  show stripDigits (collapse false (cleanName s)) = _
  rw [show cleanName s = stripDigits (collapse false s) from rfl, collapse_of_single h, strip_id]
  exact strip_head _

/-- C23: an identifier without two underscores in a row is left alone.  -/
theorem m_clean_names_unchanged_partial (s : List Char) (h1 : ∀ c ∈ s, IdentM c)
    (h2 : ∀ c, s.head? = some c → isDigit c = false) (h3 : ¬ ['_', '_'] <:+: s) : cleanName s = s := by
  have : Single s := by
    clear h2
    induction s with
    | nil => exact .nil
    | cons c s ih =>
      refine .cons c s ?_ (ih (fun x hx => h1 x (by simp [hx])) (fun h => h3 (h.trans (List.suffix_cons c s).isInfix)))
      have hk : ∀ x, IdentM x → x ≠ '_' → kept x = true := by
        intro x hx hne
        unfold IdentM at hx
        simp only [kept, Bool.or_eq_true, beq_iff_eq]
        rcases hx with h | h | h | h
        · exact .inl (.inl (.inl h))
        · exact .inl (.inl (.inr h))
        · exact .inl (.inr h)
        · exact absurd h hne
      by_cases hc : c = '_'
      · right
        refine ⟨hc, ?_⟩
        intro d hd
        cases s with
        | nil => simp at hd
        | cons e s =>
          simp at hd; subst hd
          apply hk e (h1 e (by simp))
          intro he
          apply h3
          subst hc he
          exact (List.prefix_append ['_', '_'] s).isInfix
      · exact .inl (hk c (h1 c (by simp)) hc)
  show stripDigits (collapse false s) = s
  rw [collapse_of_single this, strip_id s h2]



theorem collapse_alnumM (s : List Char) : ∀ b, (collapse b s).filter alnumM = s.filter alnumM := by
  induction s with
  | nil => intro b; simp [collapse]
  | cons c s ih =>
    intro b
    simp only [collapse]
    split
    · simp [List.filter_cons, ih]
    · have hk : alnumM c = false := by
        have : kept c = false := by simpa using ‹¬ kept c = true›
        simp only [kept, Bool.or_eq_false_iff] at this
        simp [alnumM, this]
      have hu : alnumM '_' = false := by decide
      split
      · rw [ih, List.filter_cons_of_neg (by simp [hk])]
      · rw [List.filter_cons_of_neg (by simp [hu]), ih, List.filter_cons_of_neg (by simp [hk])]

/-- C23: the letters and digits of a name that does not begin with a digit all survive, in order: names
that differ in their letters or digits have different clean names. -/
theorem m_letters_survive (s : List Char) (h : ∀ c, s.head? = some c → isDigit c = false) :
    (cleanName s).filter alnumM = s.filter alnumM := by
  have : stripDigits (collapse false s) = collapse false s := by
    apply strip_id
    intro c hc
    cases s with
    | nil => simp [collapse] at hc
    | cons a s =>
      simp only [collapse] at hc
      split at hc
      · simp at hc; subst hc; exact h a rfl
      · simp at hc; subst hc; decide
  rw [cleanName, this, collapse_alnumM]

theorem m_different_letters_stay_different (s t : List Char)
    (hs : ∀ c, s.head? = some c → isDigit c = false) (ht : ∀ c, t.head? = some c → isDigit c = false)
    (h : s.filter alnumM ≠ t.filter alnumM) : cleanName s ≠ cleanName t := by
  intro he
  apply h
  rw [← m_letters_survive s hs, ← m_letters_survive t ht, he]

theorem toNat_upper (c : Char) (h : isLower c = true) : (upper c).toNat = c.toNat - 32 := by
  unfold upper
  rw [if_pos h]
  simp only [isLower, Bool.and_eq_true, decide_eq_true_eq] at h
  have h1 : 'a'.toNat = 97 := rfl
  have h2 : 'z'.toNat = 122 := rfl
  have hv : (c.toNat - 32).isValidChar := by left; omega
  unfold Char.ofNat
  rw [dif_pos hv]
  rfl

/-- C23: the environment variable of a name is its clean name with every lower-case letter `x` replaced by
the capital letter 32 code points below; nothing else changes, and no lower-case letter remains. -/
theorem m_env_var (s : List Char) :
    (envVar s).length = (cleanName s).length ∧
    (∀ (i : Nat) (c e : Char), (cleanName s)[i]? = some c → (envVar s)[i]? = some e →
      (isLower c = true → e.toNat = c.toNat - 32 ∧ isUpper e = true) ∧ (isLower c = false → e = c)) ∧
    (∀ e ∈ envVar s, isLower e = false) := by
  have hup : ∀ c, isLower c = true → isUpper (upper c) = true ∧ isLower (upper c) = false := by
    intro c hc
    have := toNat_upper c hc
    simp only [isLower, isUpper, Bool.and_eq_true, decide_eq_true_eq] at hc ⊢
    have h1 : 'a'.toNat = 97 := rfl
    have h2 : 'z'.toNat = 122 := rfl
    have h3 : 'A'.toNat = 65 := rfl
    have h4 : 'Z'.toNat = 90 := rfl
    refine ⟨by omega, ?_⟩
    rw [Bool.eq_false_iff]
    intro hh
    simp only [Bool.and_eq_true, decide_eq_true_eq] at hh
    omega
  refine ⟨by simp [envVar], ?_, ?_⟩
  · intro i c e hc he
    simp only [envVar, List.getElem?_map, hc, Option.map_some, Option.some.injEq] at he
    subst he
    refine ⟨fun h => ⟨toNat_upper c h, (hup c h).1⟩, fun h => by simp [upper, h]⟩
  · intro e he
    obtain ⟨c, _, rfl⟩ := List.mem_map.1 he
    by_cases h : isLower c = true
    · exact (hup c h).2
    · have : isLower c = false := by simpa using h
      simp [upper, this]

/-! ### C24 -/

theorem split_ne_nil (s : List Char) : split s ≠ [] := by
  cases s with
  | nil => simp [split]
  | cons c s =>
    simp only [split]
    by_cases h : c = '\n'
    · simp [h]
    · rw [if_neg h]; cases split s <;> simp

/-- What the lines of a text are: pieces without line breaks that give the text when joined by line breaks.
`split s` is such a list, and (`m_lines_unique`) the only one. -/
theorem m_lines (s : List Char) : join (split s) = s ∧ (∀ l ∈ split s, '\n' ∉ l) ∧ split s ≠ [] := by
  refine ⟨?_, ?_, split_ne_nil s⟩
  · induction s with
    | nil => rfl
    | cons c s ih =>
      simp only [split]
      cases hs : split s with
      | nil => exact absurd hs (split_ne_nil s)
      | cons l ls =>
        rw [hs] at ih
        by_cases hc : c = '\n'
        · rw [if_pos hc, join, ih, hc]
          · rfl
          · simp
        · rw [if_neg hc]
          cases ls with
          | nil => simpa [join] using ih
          | cons m ms => simpa [join] using ih
  · induction s with
    | nil => simp [split]
    | cons c s ih =>
      intro l hl
      simp only [split] at hl
      split at hl
      · rcases List.mem_cons.1 hl with rfl | hl
        · simp
        · exact ih l hl
      · cases hs : split s with
        | nil => exact absurd hs (split_ne_nil s)
        | cons m ms =>
          rw [hs] at hl
          simp only [List.mem_cons] at hl
          rcases hl with rfl | hl
          · have := ih m (by simp [hs])
            simp only [List.mem_cons, not_or]
            exact ⟨fun h => ‹¬ c = '\n'› h.symm, this⟩
          · exact ih l (by simp [hs, hl])

theorem m_lines_unique (ls : List (List Char)) (hne : ls ≠ []) (h : ∀ l ∈ ls, '\n' ∉ l) :
    split (join ls) = ls := by
  have hone : ∀ l : List Char, '\n' ∉ l → ∀ rest, split (l ++ '\n' :: rest) = l :: split rest := by
    intro l
    induction l with
    | nil => intro _ rest; simp [split]
    | cons c l ih =>
      intro hl rest
      simp only [List.mem_cons, not_or] at hl
      simp only [List.cons_append, split, if_neg (Ne.symm hl.1), ih hl.2]
  have hlast : ∀ l : List Char, '\n' ∉ l → split l = [l] := by
    intro l
    induction l with
    | nil => intro _; simp [split]
    | cons c l ih =>
      intro hl
      simp only [List.mem_cons, not_or] at hl
      simp only [split, if_neg (Ne.symm hl.1), ih hl.2]
  induction ls with
  | nil => exact absurd rfl hne
  | cons l ls ih =>
    cases ls with
    | nil => simpa [join] using hlast l (h l (by simp))
    | cons m ms =>
      rw [join, hone l (h l (by simp)), ih (by simp) (fun x hx => h x (by simp [hx]))]
      simp

/-- C24: `Indent` puts exactly `n` spaces in front of every line, and changes nothing else. -/
theorem m_indent (s : List Char) (n : Nat) :
    split (indent s n) = (split s).map (List.replicate n ' ' ++ ·) := by
  apply m_lines_unique
  · simp [split_ne_nil]
  · intro l hl
    obtain ⟨m, hm, rfl⟩ := List.mem_map.1 hl
    intro hmem
    rcases List.mem_append.1 hmem with h | h
    · have := List.eq_of_mem_replicate h; simp at this
    · exact (m_lines s).2.1 m hm h

theorem minIndent_spec (ls : List (List Char)) : ∀ cur,
    minIndent cur ls ≤ cur ∧ (∀ l ∈ ls, l ≠ [] → minIndent cur ls ≤ indentOf l) ∧
    (minIndent cur ls = cur ∨ ∃ l ∈ ls, l ≠ [] ∧ indentOf l = minIndent cur ls) := by
  induction ls with
  | nil => intro cur; simp [minIndent]
  | cons l ls ih =>
    intro cur
    simp only [minIndent]
    by_cases h0 : 0 < l.length
    · rw [if_pos h0]
      have hl0 : l ≠ [] := by intro h; simp [h] at h0
      by_cases h1 : indentOf l < cur
      · rw [if_pos h1]
        obtain ⟨a, b, c⟩ := ih (indentOf l)
        refine ⟨by omega, ?_, ?_⟩
        · intro x hx hne
          rcases List.mem_cons.1 hx with rfl | hx
          · exact a
          · exact b x hx hne
        · right
          rcases c with c | ⟨x, hx, h2, h3⟩
          · exact ⟨l, by simp, hl0, c.symm⟩
          · exact ⟨x, by simp [hx], h2, h3⟩
      · rw [if_neg h1]
        obtain ⟨a, b, c⟩ := ih cur
        refine ⟨a, ?_, c.imp id fun ⟨x, hx, h⟩ => ⟨x, by simp [hx], h⟩⟩
        intro x hx hne
        rcases List.mem_cons.1 hx with rfl | hx
        · omega
        · exact b x hx hne
    · rw [if_neg h0]
      have hl0 : l = [] := by cases l with | nil => rfl | cons => simp at h0
      obtain ⟨a, b, c⟩ := ih cur
      refine ⟨a, ?_, c.imp id fun ⟨x, hx, h⟩ => ⟨x, by simp [hx], h⟩⟩
      intro x hx hne
      rcases List.mem_cons.1 hx with rfl | hx
      · exact absurd hl0 hne
      · exact b x hx hne

theorem take_indent (l : List Char) (k : Nat) (h : k ≤ indentOf l) : l = List.replicate k ' ' ++ l.drop k := by
  induction k generalizing l with
  | zero => simp
  | succ k ih =>
    cases l with
    | nil => simp [indentOf] at h
    | cons c l =>
      by_cases hc : c = ' '
      · subst hc
        simp only [indentOf, List.takeWhile_cons, beq_self_eq_true, if_true, List.length_cons] at h
        have := ih l (by simp only [indentOf]; omega)
        simp only [List.replicate_succ, List.drop_succ_cons, List.cons_append]
        rw [← this]
      · simp [indentOf, hc] at h

theorem expand_ne_nil (l : List Char) (h : l ≠ []) : expandTabs l ≠ [] := by
  cases l with
  | nil => exact absurd rfl h
  | cons c l => simp only [expandTabs]; split <;> simp

theorem expand_no_newline (l : List Char) (h : '\n' ∉ l) : '\n' ∉ expandTabs l := by
  induction l with
  | nil => simp [expandTabs]
  | cons c l ih =>
    simp only [List.mem_cons, not_or] at h
    simp only [expandTabs]
    split
    · simp only [List.mem_cons, not_or]; exact ⟨by decide, by decide, by decide, by decide, ih h.2⟩
    · simp only [List.mem_cons, not_or]; exact ⟨h.1, ih h.2⟩

theorem normalize_nil {l : List Char} : normalize l = [] ↔ l.all isSpace = true := by
  unfold normalize blank
  by_cases h : l.all isSpace = true
  · simp [h]
  · rw [if_neg h]
    constructor
    · intro h2
      have : l ≠ [] := by intro h3; subst h3; exact h rfl
      exact absurd h2 (expand_ne_nil l this)
    · intro h2; exact absurd h2 h

theorem drop_indent (l : List Char) (h : ∃ c ∈ l, c ≠ ' ') : startsNonSpace (l.drop (indentOf l)) := by
  induction l with
  | nil => simp at h
  | cons c l ih =>
    by_cases hc : c = ' '
    · subst hc
      obtain ⟨d, hd, hne⟩ := h
      have hd : d ∈ l := by
        rcases List.mem_cons.1 hd with rfl | hd
        · exact absurd rfl hne
        · exact hd
      have := ih ⟨d, hd, hne⟩
      simpa [indentOf] using this
    · exact ⟨c, l, by simp [indentOf, hc], hc⟩

theorem expand_nonspace (l : List Char) (h : ∃ c ∈ l, isSpace c = false) :
    ∃ c ∈ expandTabs l, c ≠ ' ' := by
  induction l with
  | nil => simp at h
  | cons c l ih =>
    obtain ⟨d, hd, hs⟩ := h
    simp only [expandTabs]
    rcases List.mem_cons.1 hd with rfl | hd
    · have : d ≠ '\t' := by rintro rfl; simp [isSpace] at hs
      rw [if_neg this]
      exact ⟨d, by simp, by rintro rfl; simp [isSpace] at hs⟩
    · obtain ⟨e, he, h2⟩ := ih ⟨d, hd, hs⟩
      split
      · exact ⟨e, by simp [he], h2⟩
      · exact ⟨e, by simp [he], h2⟩

/-- C24, `Reindent`: there is one amount `k` such that every non-blank line, with its tabs written as four
spaces, consists of `k` spaces and a rest, and becomes `n` spaces and that rest; blank lines become empty.
If some non-blank line is indented by at most 10000, some rest starts with a non-space, so that the least
indented line ends up with exactly `n` spaces.  -/
theorem m_reindent_partial (s : List Char) (n : Nat) :
    ∃ k, (split (reindent s n)).length = (split s).length ∧
      (∀ (i : Nat) (l o : List Char), (split s)[i]? = some l → (split (reindent s n))[i]? = some o →
        (l.all isSpace = true → o = []) ∧
        (l.all isSpace = false → ∃ rest, expandTabs l = List.replicate k ' ' ++ rest ∧
          o = List.replicate n ' ' ++ rest)) ∧
      ((∃ l ∈ split s, l.all isSpace = false ∧ indentOf (expandTabs l) ≤ 10000) →
        ∃ l ∈ split s, l.all isSpace = false ∧
          ∃ rest, expandTabs l = List.replicate k ' ' ++ rest ∧ startsNonSpace rest) := by
  let lines := (split s).map normalize
  let cur := minIndent 10000 lines
  have hmin := minIndent_spec lines 10000
  have hsplit : split (reindent s n) = lines.map fun l => if 0 < l.length then spaces n ++ l.drop cur else l := by
    apply m_lines_unique
    · simp [split_ne_nil]
    · intro l hl
      obtain ⟨m, hm, rfl⟩ := List.mem_map.1 hl
      obtain ⟨m', hm', rfl⟩ := List.mem_map.1 hm
      have hnn : '\n' ∉ normalize m' := by
        unfold normalize
        split
        · simp
        · exact expand_no_newline m' ((m_lines s).2.1 m' hm')
      split
      · intro hmem
        rcases List.mem_append.1 hmem with h | h
        · have := List.eq_of_mem_replicate h; simp at this
        · exact hnn (List.mem_of_mem_drop h)
      · exact hnn
  have hnb : ∀ l : List Char, l.all isSpace = false → normalize l = expandTabs l ∧ normalize l ≠ [] := by
    intro l hl
    refine ⟨by unfold normalize blank; rw [if_neg (by simp [hl])], ?_⟩
    intro h; rw [normalize_nil] at h; simp [h] at hl
  refine ⟨cur, by rw [hsplit]; simp [lines], ?_, ?_⟩
  · intro i l o hl ho
    have hmem := List.mem_of_getElem? hl
    rw [hsplit] at ho
    simp only [lines, List.getElem?_map, hl, Option.map_some, Option.some.injEq] at ho
    refine ⟨?_, ?_⟩
    · intro hb
      rw [normalize_nil.2 hb] at ho
      simpa using ho.symm
    · intro hb
      obtain ⟨h1, h2⟩ := hnb l hb
      have hpos : 0 < (normalize l).length := List.length_pos_iff.2 h2
      rw [if_pos hpos] at ho
      have := hmin.2.1 (normalize l) (List.mem_map_of_mem hmem) h2
      refine ⟨(normalize l).drop cur, ?_, ho.symm⟩
      rw [← h1]
      exact take_indent _ _ this
  · rintro ⟨l, hl, hb, hle⟩
    obtain ⟨h1, h2⟩ := hnb l hb
    have key : ∃ m ∈ lines, m ≠ [] ∧ indentOf m = cur := by
      rcases hmin.2.2 with h | h
      · have := hmin.2.1 (normalize l) (List.mem_map_of_mem hl) h2
        refine ⟨normalize l, List.mem_map_of_mem hl, h2, ?_⟩
        rw [← h1] at hle
        show _ = minIndent 10000 lines
        omega
      · exact h
    obtain ⟨m, hm, hne, hmc⟩ := key
    obtain ⟨l', hl', rfl⟩ := List.mem_map.1 hm
    have hb' : l'.all isSpace = false := by
      rw [Bool.eq_false_iff]; intro h; exact hne (normalize_nil.2 h)
    obtain ⟨h1', _⟩ := hnb l' hb'
    refine ⟨l', hl', hb', (expandTabs l').drop cur, ?_, ?_⟩
    · rw [← h1']; exact take_indent _ _ (by omega)
    · rw [← h1', ← hmc, h1']
      apply drop_indent
      apply expand_nonspace
      have := List.all_eq_false.1 hb'
      obtain ⟨c, hc, hcs⟩ := this
      exact ⟨c, hc, by simpa using hcs⟩



theorem indentOf_replicate (k : Nat) (t : List Char) (h : t.head? = some 'x') :
    indentOf (List.replicate k ' ' ++ t) = k := by
  induction k with
  | zero =>
    cases t with
    | nil => simp at h
    | cons c t => simp at h; subst h; simp [indentOf]
  | succ k ih => simpa [List.replicate_succ, indentOf] using ih

theorem reindent_deep (limit k : Nat) (hk : limit ≤ k) :
    split (List.replicate k ' ' ++ ['x']) = [List.replicate k ' ' ++ ['x']] ∧
    reindentFrom limit (List.replicate k ' ' ++ ['x']) 0 = List.replicate (k - limit) ' ' ++ ['x'] := by
  have hnl : '\n' ∉ List.replicate k ' ' ++ ['x'] := by
    intro h
    rcases List.mem_append.1 h with h | h
    · have := List.eq_of_mem_replicate h; simp at this
    · simp at h
  have hs : split (List.replicate k ' ' ++ ['x']) = [List.replicate k ' ' ++ ['x']] :=
    m_lines_unique [List.replicate k ' ' ++ ['x']] (by simp) (by simpa only [List.mem_singleton, forall_eq] using hnl)
  have hexp : ∀ k, expandTabs (List.replicate k ' ' ++ ['x']) = List.replicate k ' ' ++ ['x'] := by
    intro k
    induction k with
    | zero => decide
    | succ k ih => simp [List.replicate_succ, expandTabs, ih]
  have hblank : blank (List.replicate k ' ' ++ ['x']) = false := by
    unfold blank
    rw [List.all_eq_false]
    exact ⟨'x', by simp, by decide⟩
  have hnorm : normalize (List.replicate k ' ' ++ ['x']) = List.replicate k ' ' ++ ['x'] := by
    unfold normalize; rw [hblank]; simpa using hexp k
  have hmin : minIndent limit [List.replicate k ' ' ++ ['x']] = limit := by
    simp only [minIndent]
    rw [indentOf_replicate k ['x'] rfl, if_pos (by simp), if_neg (by omega)]
  refine ⟨hs, ?_⟩
  simp only [reindentFrom, hs, List.map_cons, List.map_nil, hnorm, hmin, join]
  rw [if_pos (by simp), List.drop_append_of_le_length (by simpa using hk), List.drop_replicate]
  simp [spaces]



end Verif.Strings
