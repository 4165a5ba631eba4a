import Verif.Strings.Lemmas
/-
C23 and C24: names and indentation.
-/
namespace Verif.Strings

/-! ### The model's tests of characters -/

private theorem char_of_lt {c : Char} : c = Char.ofNat c.toNat := (Char.ofNat_toNat c).symm

private theorem char_iff (p q : Char → Bool) (h : ∀ n : Fin 128, p (Char.ofNat n.val) = q (Char.ofNat n.val))
    (hp : ∀ c : Char, 128 ≤ c.toNat → p c = false) (hq : ∀ c : Char, 128 ≤ c.toNat → q c = false) (c : Char) : p c = q c := by
  by_cases hc : c.toNat < 128
  · have := h ⟨c.toNat, hc⟩
    simpa using this
  · rw [hp c (by omega), hq c (by omega)]

private theorem mem_small (l : List Char) (h : ∀ x ∈ l, x.toNat < 128) (c : Char) (hc : 128 ≤ c.toNat) :
    decide (c ∈ l) = false := by
  simp only [decide_eq_false_iff_not]
  intro hm; have := h c hm; omega

theorem isLower_eq (c : Char) : isLower c = decide (c ∈ lowers) :=
  char_iff isLower (fun c => decide (c ∈ lowers)) (by decide +kernel)
    (by intro c hc; simp only [isLower, Bool.and_eq_false_iff, decide_eq_false_iff_not]; right
        show ¬ c.toNat ≤ 122; omega) (mem_small _ (by decide +kernel)) c

theorem isUpper_eq (c : Char) : isUpper c = decide (c ∈ uppers) :=
  char_iff isUpper (fun c => decide (c ∈ uppers)) (by decide +kernel)
    (by intro c hc; simp only [isUpper, Bool.and_eq_false_iff, decide_eq_false_iff_not]; right
        show ¬ c.toNat ≤ 90; omega) (mem_small _ (by decide +kernel)) c

theorem isDigit_eq (c : Char) : isDigit c = decide (c ∈ digits) :=
  char_iff isDigit (fun c => decide (c ∈ digits)) (by decide +kernel)
    (by intro c hc; simp only [isDigit, Bool.and_eq_false_iff, decide_eq_false_iff_not]; right
        show ¬ c.toNat ≤ 57; omega) (mem_small _ (by decide +kernel)) c

theorem alnum_eq (c : Char) : alnumM c = alnum c := by
  simp only [alnumM, alnum, isLower_eq, isUpper_eq, isDigit_eq, Bool.decide_or, Bool.or_assoc]

theorem alnum_fun : alnumM = alnum := funext alnum_eq

theorem ident_iff (c : Char) : IdentM c ↔ IdentChar c := by
  unfold IdentChar
  rw [← alnum_eq]
  simp [IdentM, alnumM, or_assoc]

theorem kept_iff (c : Char) : kept c = true ↔ alnum c = true ∨ c = ' ' := by
  rw [← alnum_eq]
  simp [kept, alnumM]

theorem digit_iff (c : Char) : isDigit c = false ↔ c ∉ digits := by
  rw [isDigit_eq]; simp

theorem upper_eq (c : Char) : upper c = toCapital c := by
  by_cases hc : c.toNat < 128
  · have h : ∀ n : Fin 128, upper (Char.ofNat n.val) = toCapital (Char.ofNat n.val) := by decide +kernel
    simpa using h ⟨c.toNat, hc⟩
  · have h1 : c ∉ lowers := by
      intro hm
      exact hc ((by decide +kernel : ∀ x ∈ lowers, x.toNat < 128) c hm)
    have h2 : (lowers.zip uppers).lookup c = none := by
      rw [List.lookup_eq_none_iff]
      intro p hp
      have := (List.of_mem_zip hp).1
      rw [bne_iff_ne]
      intro he; exact h1 (he ▸ this)
    unfold upper toCapital
    rw [isLower_eq, h2]; simp [h1]

theorem lower_eq (c : Char) : lower c = toSmall c := by
  by_cases hc : c.toNat < 128
  · have h : ∀ n : Fin 128, lower (Char.ofNat n.val) = toSmall (Char.ofNat n.val) := by decide +kernel
    simpa using h ⟨c.toNat, hc⟩
  · have h1 : c ∉ uppers := by
      intro hm
      exact hc ((by decide +kernel : ∀ x ∈ uppers, x.toNat < 128) c hm)
    have h2 : (uppers.zip lowers).lookup c = none := by
      rw [List.lookup_eq_none_iff]
      intro p hp
      have := (List.of_mem_zip hp).1
      rw [bne_iff_ne]
      intro he; exact h1 (he ▸ this)
    unfold lower toSmall
    rw [isUpper_eq, h2]; simp [h1]

theorem isSpace_iff (c : Char) : isSpace c = true ↔ c ∈ whiteSpace := by
  have he : ∀ n : Nat, (∀ hv : n.isValidChar, (Char.ofNat n).toNat = n) := by
    intro n hv
    unfold Char.ofNat
    rw [dif_pos hv]; rfl
  constructor
  · intro h
    have : c.toNat ∈ whiteSpace.map Char.toNat := by
      have hl : whiteSpace.map Char.toNat = [9, 10, 11, 12, 13, 32, 0x85, 0xa0, 0x1680, 0x2000, 0x2001, 0x2002, 0x2003,
        0x2004, 0x2005, 0x2006, 0x2007, 0x2008, 0x2009, 0x200a, 0x2028, 0x2029, 0x202f, 0x205f, 0x3000] := by decide +kernel
      rw [hl]
      simp only [isSpace, Bool.or_eq_true, Bool.and_eq_true, decide_eq_true_eq, beq_iff_eq] at h
      simp only [List.mem_cons, List.not_mem_nil, or_false]
      omega
    obtain ⟨d, hd, hdc⟩ := List.mem_map.1 this
    have : d = c := Char.ext (UInt32.toNat.inj hdc)
    exact this ▸ hd
  · intro h
    exact (by decide +kernel : ∀ c ∈ whiteSpace, isSpace c = true) c h

theorem blank_iff (l : List Char) : l.all isSpace = true ↔ Blank l := by
  simp only [List.all_eq_true, isSpace_iff, Blank]

theorem blank_iff' (l : List Char) : l.all isSpace = false ↔ ¬ Blank l := by
  rw [← blank_iff]; simp

theorem detab_eq (l : List Char) : expandTabs l = detab l := by
  unfold detab
  induction l with
  | nil => rfl
  | cons c l ih =>
    simp only [expandTabs, List.flatMap_cons]
    split <;> simp [ih]

theorem join_eq (ls : List (List Char)) : join ls = ['\n'].intercalate ls := by
  induction ls with
  | nil => rfl
  | cons l ls ih =>
    cases ls with
    | nil => simp [join, List.intercalate]
    | cons m ms =>
      rw [join, ih]
      · simp [List.intercalate, List.intersperse]
      · simp

/-! ### C23 -/

private theorem collapse_true_run (s : List Char) (r : List Char)
    (hr : ∀ c ∈ r, ¬ (alnum c = true ∨ c = ' ')) (hs : ∀ c, s.head? = some c → alnum c = true ∨ c = ' ') :
    collapse true (r ++ s) = collapse false s := by
  induction r with
  | nil =>
    exact collapse_false_of s fun c hc => (kept_iff c).2 (hs c hc)
  | cons c r ih =>
    have : kept c = false := by
      rw [Bool.eq_false_iff]; intro hk; exact hr c (by simp) ((kept_iff c).1 hk)
    rw [List.cons_append, collapse]
    simp only [this, Bool.false_eq_true, if_false, if_true]
    exact ih fun c hc => hr c (by simp [hc])

private theorem collapsed_eq {s t : List Char} (h : Collapsed s t) : collapse false s = t := by
  induction h with
  | nil => rfl
  | keep c s t hc _ ih => rw [collapse, if_pos ((kept_iff c).2 hc), ih]
  | run r s t hne hr hs hst ih =>
    cases r with
    | nil => exact absurd rfl hne
    | cons c r =>
      have : kept c = false := by
        rw [Bool.eq_false_iff]; intro hk; exact hr c (by simp) ((kept_iff c).1 hk)
      rw [List.cons_append, collapse]
      simp only [this, Bool.false_eq_true, if_false]
      rw [collapse_true_run s r (fun c hc => hr c (by simp [hc])) hs, ih]

private theorem collapsed_exists (n : Nat) : ∀ s : List Char, s.length ≤ n → ∃ t, Collapsed s t := by
  induction n with
  | zero =>
    intro s hs
    rw [List.length_eq_zero_iff.1 (by omega : s.length = 0)]
    exact ⟨_, .nil⟩
  | succ n ih =>
    intro s hs
    cases s with
    | nil => exact ⟨_, .nil⟩
    | cons c s =>
      by_cases hc : alnum c = true ∨ c = ' '
      · obtain ⟨t, ht⟩ := ih s (by simpa using hs)
        exact ⟨_, .keep c s t hc ht⟩
      · let p : Char → Bool := fun c => !(kept c)
        have hlen : ((c :: s).dropWhile p).length ≤ n := by
          have hpc : p c = true := by
            show (!(kept c)) = true
            rw [Bool.not_eq_true', Bool.eq_false_iff]; intro hk; exact hc ((kept_iff c).1 hk)
          rw [List.dropWhile_cons_of_pos hpc]
          have := (List.dropWhile_suffix p (l := s)).length_le
          simp at hs; omega
        obtain ⟨t, ht⟩ := ih _ hlen
        have := Collapsed.run ((c :: s).takeWhile p) _ t ?_ ?_ ?_ ht
        · rw [List.takeWhile_append_dropWhile] at this
          exact ⟨_, this⟩
        · have hpc : p c = true := by
            show (!(kept c)) = true
            rw [Bool.not_eq_true', Bool.eq_false_iff]; intro hk; exact hc ((kept_iff c).1 hk)
          rw [List.takeWhile_cons_of_pos hpc]; simp
        · intro d hd hk
          have := List.all_eq_true.1 (List.all_takeWhile (p := p) (l := c :: s)) d hd
          simp only [p, Bool.not_eq_true'] at this
          rw [(kept_iff d).2 hk] at this; cases this
        · intro d hd
          have := List.head?_dropWhile_not p (c :: s)
          rw [hd] at this
          simp only [p, Bool.not_not] at this
          exact (kept_iff d).1 (by simpa using this)

/-- C23, exactly: a clean name is the name with every maximal run of characters other than letters, digits and
spaces replaced by one underscore, and then without the digits at the beginning. -/
theorem C23_exact (s : List Char) :
    ∃ t, Collapsed s t ∧ (∀ t', Collapsed s t' → t' = t) ∧ cleanName s = t.dropWhile (fun c => decide (c ∈ digits)) := by
  obtain ⟨t, ht⟩ := collapsed_exists _ s (Nat.le_refl _)
  refine ⟨t, ht, fun t' ht' => by rw [← collapsed_eq ht, collapsed_eq ht'], ?_⟩
  unfold cleanName
  rw [collapsed_eq ht]
  clear ht
  induction t with
  | nil => rfl
  | cons c t ih =>
    simp only [stripDigits, isDigit_eq, List.dropWhile_cons]
    split <;> simp_all

/-- C23: a name without spaces is turned into letters, digits and underscores, not starting with a digit.
Missing from the full property: names with spaces (`C23_space_refuted`), and the result can be empty
(`C23_empty_refuted`). -/
theorem C23_identifier_partial (s : List Char) (hs : ' ' ∉ s) :
    (∀ c ∈ cleanName s, IdentChar c) ∧ (∀ c, (cleanName s).head? = some c → c ∉ digits) := by
  obtain ⟨h1, h2⟩ := m_identifier_partial s hs
  exact ⟨fun c hc => (ident_iff c).1 (h1 c hc), fun c hc => (digit_iff c).1 (h2 c hc)⟩

/-- C23, every name: besides letters, digits and underscores only spaces survive. -/
theorem C23_identifier_or_space (s : List Char) : ∀ c ∈ cleanName s, IdentChar c ∨ c = ' ' :=
  fun c hc => (m_identifier_or_space s c hc).imp_left (ident_iff c).1

/-- C23 refuted: spaces are kept, so the clean name of `a b` is not an identifier. -/
theorem C23_space_refuted : ∃ s, ¬ ∀ c ∈ cleanName s, IdentChar c := by
  refine ⟨['a', ' ', 'b'], ?_⟩
  intro h
  have := h ' ' (by decide)
  revert this
  unfold IdentChar
  decide

/-- C23 refuted: a name of digits becomes the empty string. -/
theorem C23_empty_refuted : ∃ s, s ≠ [] ∧ cleanName s = [] := ⟨['4', '2'], by decide, by decide⟩

/-- C23: cleaning a clean name changes nothing. -/
theorem C23_idempotent (s : List Char) : cleanName (cleanName s) = cleanName s := m_idempotent s

/-- C23: an identifier without two underscores in a row is left alone.  Missing from the full property:
identifiers with repeated underscores (`C23_double_underscore_refuted`). -/
theorem C23_clean_names_unchanged_partial (s : List Char) (h1 : ∀ c ∈ s, IdentChar c)
    (h2 : ∀ c, s.head? = some c → c ∉ digits) (h3 : ¬ ['_', '_'] <:+: s) : cleanName s = s :=
  m_clean_names_unchanged_partial s (fun c hc => (ident_iff c).2 (h1 c hc)) (fun c hc => (digit_iff c).2 (h2 c hc)) h3

/-- C23 refuted: the identifier `a__b` is changed, so it shares its clean name with `a_b`. -/
theorem C23_double_underscore_refuted :
    ∃ s t, s ≠ t ∧ (∀ c ∈ s, IdentChar c) ∧ (∀ c ∈ t, IdentChar c) ∧ cleanName s = cleanName t := by
  refine ⟨['a', '_', '_', 'b'], ['a', '_', 'b'], by decide, ?_, ?_, by decide⟩ <;>
  · intro c hc; unfold IdentChar; revert c; decide

/-- C23: the letters and digits of a name that does not begin with a digit all survive, in order: names
that differ in their letters or digits have different clean names. -/
theorem C23_letters_survive (s : List Char) (h : ∀ c, s.head? = some c → c ∉ digits) :
    (cleanName s).filter alnum = s.filter alnum := by
  rw [← alnum_fun]
  exact m_letters_survive s fun c hc => (digit_iff c).2 (h c hc)

theorem C23_different_letters_stay_different (s t : List Char)
    (hs : ∀ c, s.head? = some c → c ∉ digits) (ht : ∀ c, t.head? = some c → c ∉ digits)
    (h : s.filter alnum ≠ t.filter alnum) : cleanName s ≠ cleanName t := by
  intro he
  apply h
  rw [← C23_letters_survive s hs, ← C23_letters_survive t ht, he]

/-- C23: the environment variable of a name is its clean name in capital letters; the shell function of a name
is its clean name in small letters. -/
theorem C23_env_var (s : List Char) :
    envVar s = (cleanName s).map toCapital ∧ funcName s = (cleanName s).map toSmall := by
  constructor
  · unfold envVar; congr 1; exact funext upper_eq
  · unfold funcName; congr 1; exact funext lower_eq

/-- C23: the capitalized form of a name differs from it in the first letter only, which is a capital; the empty
name makes the program panic. -/
theorem C23_capitalize (s : List Char) :
    (s = [] → capitalize s = none) ∧ (∀ c r, s = c :: r → capitalize s = some (toCapital c :: r)) := by
  refine ⟨by rintro rfl; rfl, ?_⟩
  rintro c r rfl
  simp [capitalize, upper_eq]

/-! ### C24 -/

/-- What the lines of a text are: pieces without line breaks that give the text when joined by line breaks.
`split s` is such a list, and (`C24_lines_unique`) the only one. -/
theorem C24_lines (s : List Char) :
    ['\n'].intercalate (split s) = s ∧ (∀ l ∈ split s, '\n' ∉ l) ∧ split s ≠ [] := by
  rw [← join_eq]; exact m_lines s

theorem C24_lines_unique (ls : List (List Char)) (hne : ls ≠ []) (h : ∀ l ∈ ls, '\n' ∉ l) :
    split (['\n'].intercalate ls) = ls := by
  rw [← join_eq]; exact m_lines_unique ls hne h

/-- C24: `Indent` puts exactly `n` spaces in front of every line, and changes nothing else. -/
theorem C24_indent (s : List Char) (n : Nat) :
    split (indent s n) = (split s).map (List.replicate n ' ' ++ ·) := m_indent s n

/-- C24, `Reindent`: there is one amount `k` such that every non-blank line, with its tabs written as four
spaces, consists of `k` spaces and a rest, and becomes `n` spaces and that rest; blank lines become empty.
If some non-blank line is indented by at most 10000, some rest starts with a non-space, so that the least
indented line ends up with exactly `n` spaces.  Missing from the full property: tabs inside the text are
changed too (`C24_inner_tab_refuted`), and indentations above 10000 (`C24_deep_indentation_refuted`). -/
theorem C24_reindent_partial (s : List Char) (n : Nat) :
    ∃ k, (split (reindent s n)).length = (split s).length ∧
      (∀ (i : Nat) (l o : List Char), (split s)[i]? = some l → (split (reindent s n))[i]? = some o →
        (Blank l → o = []) ∧
        (¬ Blank l → ∃ rest, detab l = List.replicate k ' ' ++ rest ∧ o = List.replicate n ' ' ++ rest)) ∧
      ((∃ l ∈ split s, ¬ Blank l ∧
          ∃ j rest, j ≤ 10000 ∧ detab l = List.replicate j ' ' ++ rest ∧ startsNonSpace rest) →
        ∃ l ∈ split s, ¬ Blank l ∧ ∃ rest, detab l = List.replicate k ' ' ++ rest ∧ startsNonSpace rest) := by
  obtain ⟨k, h1, h2, h3⟩ := m_reindent_partial s n
  refine ⟨k, h1, ?_, ?_⟩
  · intro i l o hl ho
    obtain ⟨h4, h5⟩ := h2 i l o hl ho
    refine ⟨fun hb => h4 ((blank_iff l).2 hb), fun hb => ?_⟩
    rw [← detab_eq]
    exact h5 ((blank_iff' l).2 hb)
  · rintro ⟨l, hl, hb, j, rest, hj, he, c, r, hr, hc⟩
    have hind : indentOf (expandTabs l) = j := by
      rw [detab_eq, he, hr]
      clear he hj
      induction j with
      | zero => simp [indentOf, hc]
      | succ j ih => simpa [indentOf, List.replicate_succ] using ih
    obtain ⟨l', h6, h7, h8⟩ := h3 ⟨l, hl, (blank_iff' l).2 hb, by rw [hind]; exact hj⟩
    rw [detab_eq] at h8
    exact ⟨l', h6, (blank_iff' l').1 h7, h8⟩

/-- C24 refuted for tabs in the text: `x<tab>y` is changed behind its first character. -/
theorem C24_inner_tab_refuted : ∃ s, '\n' ∉ s ∧ s.head? = some 'x' ∧ reindent s 0 ≠ s :=
  ⟨['x', '\t', 'y'], by decide, rfl, by decide⟩

/-- C24 refuted for very deep indentation: a line indented by 10001 keeps one space too many. -/
theorem C24_deep_indentation_refuted :
    ∃ s, split s = [List.replicate 10001 ' ' ++ ['x']] ∧ split (reindent s 0) = [[' ', 'x']] := by
  obtain ⟨h1, h2⟩ := reindent_deep 10000 10001 (by omega)
  exact ⟨_, h1, by rw [reindent, h2]; decide⟩

/-! ### Concrete cases -/

example : cleanName "1a.grpc_addr-x".toList = "a_grpc_addr_x".toList := by decide
example : envVar "a.grpc_addr".toList = "A_GRPC_ADDR".toList := by decide
example : funcName "My.Svc".toList = "my_svc".toList := by decide
example : indent "a\n\nb".toList 2 = "  a\n  \n  b".toList := by decide
example : reindent "    a\n\t\n\t  b".toList 1 = " a\n\n   b".toList := by decide
example : capitalize "leaf".toList = some "Leaf".toList := by decide
example : Collapsed ['a', '.', '-', 'b'] ['a', '_', 'b'] :=
  .keep _ _ _ (by decide) (.run ['.', '-'] _ _ (by decide) (by decide) (by decide) (.keep _ _ _ (by decide) .nil))

end Verif.Strings
