import Verif.Social.TextSpec
/-
C119: texts of posts.  C120: composing a post.
-/
namespace Verif.Social.Text

theorem alnum_iff (c : Char) : (c.isAlpha || c.isDigit) = true ↔ c ∈ letters ++ figures := by
  have key : ∀ c : Char, c.toNat < 128 → ((c.isAlpha || c.isDigit) = true ↔ c ∈ letters ++ figures) := by
    have h : ∀ n < 128, ((Char.ofNat n).isAlpha || (Char.ofNat n).isDigit) = decide (Char.ofNat n ∈ letters ++ figures) := by decide +kernel
    intro c hc
    have := h c.toNat hc
    rw [Char.ofNat_toNat] at this
    rw [this, decide_eq_true_eq]
  by_cases hc : c.toNat < 128
  · exact key c hc
  · constructor
    · intro h
      exfalso
      apply hc
      simp only [Char.isAlpha, Char.isUpper, Char.isLower, Char.isDigit, Bool.or_eq_true, Bool.and_eq_true, decide_eq_true_eq, ge_iff_le,
        UInt32.le_iff_toNat_le] at h
      show c.val.toNat < 128
      rcases h with (⟨h1, h2⟩ | ⟨h1, h2⟩) | ⟨h1, h2⟩
      all_goals
        have : c.val.toNat ≤ 122 := Nat.le_trans h2 (by decide)
        omega
    · intro h
      exfalso
      apply hc
      have : ∀ c ∈ letters ++ figures, c.toNat < 128 := by decide +kernel
      exact this c h

theorem nameChar_iff (c : Char) : nameChar c = true ↔ c ∈ letters ++ figures ++ ['-', '_'] := by
  unfold nameChar
  rw [Bool.or_eq_true, Bool.or_eq_true, alnum_iff, List.mem_append]
  simp [or_assoc]

theorem hostChar_iff (c : Char) : hostChar c = true ↔ c ∈ letters ++ figures ++ "_!~*'().&=+$%-".toList := by
  unfold hostChar
  rw [Bool.or_eq_true, alnum_iff, List.mem_append (s := letters ++ figures), List.contains_iff_mem]

/-! ### Mentions -/

theorem findAll_skip (len : List Char → Nat) : ∀ (k : Nat) (t : List Char), findAll len k t = findAll len 0 (t.drop k)
  | 0, t => by simp
  | k + 1, [] => by simp [findAll]
  | k + 1, _ :: t => by rw [findAll, findAll_skip len k t]; rfl

theorem findAll_cons (len : List Char → Nat) (c : Char) (t : List Char) :
    findAll len 0 (c :: t) = if len (c :: t) = 0 then findAll len 0 t
      else (c :: t).take (len (c :: t)) :: findAll len 0 ((c :: t).drop (len (c :: t))) := by
  rw [findAll.eq_def]
  simp only
  cases h : len (c :: t) with
  | zero => simp
  | succ n => simp [findAll_skip len n t]

theorem takeWhile_spec {p : Char → Bool} {a b : List Char} (ha : ∀ c ∈ a, p c = true) (hb : ∀ c, b.head? = some c → p c = false) :
    (a ++ b).takeWhile p = a := by
  rw [List.takeWhile_append_of_pos ha]
  cases b with
  | nil => simp
  | cons x b => simp [List.takeWhile_cons, hb x rfl]

theorem takeWhile_split (p : Char → Bool) (t : List Char) :
    ∃ b, t = t.takeWhile p ++ b ∧ (∀ c ∈ t.takeWhile p, p c = true) ∧ ∀ c, b.head? = some c → p c = false := by
  refine ⟨t.dropWhile p, List.takeWhile_append_dropWhile.symm, fun c hc => ?_, ?_⟩
  · induction t with
    | nil => simp at hc
    | cons x t ih =>
      rw [List.takeWhile_cons] at hc
      split at hc
      · next h =>
        rcases List.mem_cons.1 hc with rfl | hc
        · exact h
        · exact ih hc
      · cases hc
  intro c hc
  induction t with
  | nil => simp at hc
  | cons x t ih =>
    rw [List.dropWhile_cons] at hc
    split at hc
    · exact ih hc
    · next h =>
      injection hc with hc
      subst hc
      simpa using h

/-- C119: the users who are looked up are exactly those whose names are after an @ sign in the text. -/
theorem C119_mentions (text name : List Char) : name ∈ usernames text ↔ MentionedIn name text := by
  unfold usernames
  have hat : nameChar '@' = false := by decide +kernel
  induction hn : text.length using Nat.strongRecOn generalizing text with
  | ind n ih =>
    cases text with
    | nil =>
      constructor
      · intro h; simp [findAll] at h
      · rintro ⟨a, b, e, -⟩; simp at e
    | cons c t =>
      rw [findAll_cons]
      -- the rest of the text, after a part without @
      have rest : ∀ (p q : List Char), t = p ++ q → '@' ∉ p → (MentionedIn name t ↔ MentionedIn name q) := by
        intro p q e hp
        constructor
        · rintro ⟨a, b, e', h⟩
          rw [e] at e'
          rcases List.append_eq_append_iff.1 e' with ⟨m, e1, e2⟩ | ⟨m, e1, e2⟩
          · exact ⟨m, b, e2, h⟩
          · cases m with
            | nil => exact ⟨[], b, by simpa using e2.symm, h⟩
            | cons x m =>
              rw [List.cons_append] at e2
              injection e2 with e2 _
              exact absurd (by rw [e1, ← e2]; simp) hp
        · rintro ⟨a, b, e', h⟩
          exact ⟨p ++ a, b, by rw [e, e']; simp, h⟩
      have here : MentionedIn name (c :: t) ↔ MentionedIn name t ∨ (c = '@' ∧ name = t.takeWhile nameChar ∧ name ≠ []) := by
        constructor
        · rintro ⟨a, b, e, h1, h2, h3⟩
          cases a with
          | nil =>
            injection e with e1 e2
            refine .inr ⟨e1, ?_, h1⟩
            rw [e2]
            refine (takeWhile_spec (fun c hc => (nameChar_iff c).2 (h2 c hc)) fun c hc => ?_).symm
            rw [Bool.eq_false_iff]
            exact fun h => h3 c hc ((nameChar_iff c).1 h)
          | cons x a =>
            injection e with e1 e2
            exact .inl ⟨a, b, e2, h1, h2, h3⟩
        · rintro (⟨a, b, e, h⟩ | ⟨rfl, hname, h1⟩)
          · exact ⟨c :: a, b, by rw [e]; rfl, h⟩
          · obtain ⟨b, e, h2, h3⟩ := takeWhile_split nameChar t
            rw [← hname] at e h2
            refine ⟨[], b, by rw [← e]; rfl, h1, fun c hc => (nameChar_iff c).1 (h2 c hc), fun c hc hm => ?_⟩
            have := h3 c hc
            rw [(nameChar_iff c).2 hm] at this
            cases this
      simp only [List.length_cons] at hn
      by_cases hz : mentionLen (c :: t) = 0
      · rw [if_pos hz, show name ∈ List.map (fun x => List.drop 1 x) (findAll mentionLen 0 t) ↔ _ from ih t.length (by omega) t rfl, here]
        constructor
        · exact .inl
        · rintro (h | ⟨rfl, hname, h1⟩)
          · exact h
          · exfalso
            apply h1
            unfold mentionLen at hz
            simp only at hz
            rw [← hname] at hz
            cases name with
            | nil => rfl
            | cons x name => simp at hz
      · rw [if_neg hz]
        have hc : c = '@' := by
          rcases Classical.em (c = '@') with h | h
          · exact h
          · exfalso
            apply hz
            unfold mentionLen
            split
            · next e => injection e with e _; exact absurd e h
            · rfl
        subst hc
        have hlen : mentionLen ('@' :: t) = (t.takeWhile nameChar).length + 1 := by
          unfold mentionLen at hz ⊢
          cases h : (t.takeWhile nameChar).length with
          | zero => simp [h] at hz
          | succ n => simp [h]
        obtain ⟨b, e, h2, h3⟩ := takeWhile_split nameChar t
        have htake : ('@' :: t).take (mentionLen ('@' :: t)) = '@' :: t.takeWhile nameChar := by
          rw [hlen, List.take_succ_cons]
          congr 1
          conv => lhs; arg 2; rw [e]
          exact List.take_left
        have hdrop : ('@' :: t).drop (mentionLen ('@' :: t)) = b := by
          rw [hlen, List.drop_succ_cons]
          conv => lhs; arg 2; rw [e]
          exact List.drop_left
        have hne : t.takeWhile nameChar ≠ [] := by
          intro h
          apply hz
          unfold mentionLen
          simp [h]
        have hb : b.length ≤ t.length := by
          have := congrArg List.length e
          simp at this
          omega
        rw [htake, hdrop, List.map_cons, List.mem_cons,
          show name ∈ List.map (fun x => List.drop 1 x) (findAll mentionLen 0 b) ↔ _ from ih b.length (by omega) b rfl, here, rest _ b e (fun h => by
          have := h2 '@' h
          rw [hat] at this
          cases this)]
        simp only [List.drop_succ_cons, List.drop_zero, true_and]
        constructor
        · rintro (rfl | h)
          · exact .inr ⟨rfl, hne⟩
          · exact .inl h
        · rintro (h | ⟨rfl, -⟩)
          · exact .inr h
          · exact .inl rfl

/-! ### Links -/

theorem replaceAll_skip (u s : List Char) : ∀ (k : Nat) (t : List Char), replaceAll u s k t = replaceAll u s 0 (t.drop k)
  | 0, t => by simp
  | k + 1, [] => by simp [replaceAll]
  | k + 1, _ :: t => by rw [replaceAll, replaceAll_skip u s k t]; rfl

theorem replaceAll_hit {u s b : List Char} (hu : u ≠ []) : replaceAll u s 0 (u ++ b) = s ++ replaceAll u s 0 b := by
  cases u with
  | nil => exact absurd rfl hu
  | cons x u =>
    rw [List.cons_append, replaceAll.eq_def]
    simp only
    rw [if_pos (by rw [List.isPrefixOf_iff_prefix]; exact ⟨b, rfl⟩), replaceAll_skip]
    simp

theorem replaceAll_miss {u s : List Char} : ∀ {t : List Char}, ¬ u <:+: t → replaceAll u s 0 t = t
  | [], _ => rfl
  | c :: t, h => by
    rw [replaceAll.eq_def]
    simp only
    rw [if_neg (by rw [List.isPrefixOf_iff_prefix]; exact fun hp => h hp.isInfix), replaceAll_miss]
    exact fun hi => h (hi.trans (List.suffix_cons c t).isInfix)

theorem prefix_space {u w r : List Char} (hu : ' ' ∉ u) : u <+: w ++ ' ' :: r → u <+: w := by
  rintro ⟨b, e⟩
  rcases List.append_eq_append_iff.1 e with ⟨m, e1, e2⟩ | ⟨m, e1, e2⟩
  · exact ⟨m, e1.symm⟩
  · cases m with
    | nil => exact ⟨[], by simpa using e1⟩
    | cons x m =>
      rw [List.cons_append] at e2
      injection e2 with e2 _
      exact absurd (by rw [e1, ← e2]; simp) hu

/-- Replacing in a text is replacing in its words. -/
theorem replaceAll_space {u s : List Char} (hu : ' ' ∉ u) (hne : u ≠ []) (w r : List Char) :
    replaceAll u s 0 (w ++ ' ' :: r) = replaceAll u s 0 w ++ ' ' :: replaceAll u s 0 r := by
  induction hn : w.length using Nat.strongRecOn generalizing w with
  | ind n ih =>
    cases w with
    | nil =>
      rw [List.nil_append, replaceAll.eq_def]
      simp only
      rw [if_neg]
      · rfl
      · rw [List.isPrefixOf_iff_prefix]
        intro hp
        have := prefix_space (w := []) hu hp
        exact hne (List.prefix_nil.1 this)
    | cons c w =>
      simp only [List.length_cons] at hn
      by_cases hp : u <+: c :: w
      · obtain ⟨b, e⟩ := hp
        have hb : b.length < n := by
          have := congrArg List.length e
          have : 0 < u.length := List.length_pos_iff.2 hne
          simp at *
          omega
        rw [← e, List.append_assoc, replaceAll_hit hne, replaceAll_hit hne, ih b.length hb b rfl, List.append_assoc]
      · rw [List.cons_append, replaceAll.eq_def]
        simp only
        rw [if_neg (by rw [List.isPrefixOf_iff_prefix]; exact fun h => hp (prefix_space (w := c :: w) hu h)), ih w.length (by omega) w rfl]
        conv => rhs; rw [replaceAll.eq_def]
        simp only
        rw [if_neg (by rw [List.isPrefixOf_iff_prefix]; exact hp)]
        rfl

theorem replaceAll_spaced {u s : List Char} (hu : ' ' ∉ u) (hne : u ≠ []) : ∀ ws : List (List Char),
    replaceAll u s 0 (spaced ws) = spaced (ws.map (replaceAll u s 0))
  | [] => rfl
  | [w] => rfl
  | w :: w' :: ws => by
    show replaceAll u s 0 (w ++ ' ' :: spaced (w' :: ws)) = _
    rw [replaceAll_space hu hne, replaceAll_spaced hu hne (w' :: ws)]
    rfl

/-! Where a link can occur -/

theorem split_unique {x : Char} {l1 r1 l2 r2 : List Char} (e : l1 ++ x :: r1 = l2 ++ x :: r2) (h2 : x ∉ l2) (h3 : x ∉ r2) : l1 = l2 := by
  rcases List.append_eq_append_iff.1 e with ⟨m, e1, e2⟩ | ⟨m, e1, e2⟩
  · cases m with
    | nil => simpa using e1.symm
    | cons y m =>
      rw [List.cons_append] at e2
      injection e2 with e2 _
      exact absurd (by rw [e1, ← e2]; simp) h2
  · cases m with
    | nil => simpa using e1
    | cons y m =>
      rw [List.cons_append] at e2
      injection e2 with e2 e3
      exact absurd (by rw [e3]; simp) h3

theorem url_form {u : List Char} (h : IsUrl u) : ∃ x host, u = x ++ ':' :: '/' :: '/' :: host ∧ (x = "http".toList ∨ x = "https".toList) ∧
    host ≠ [] ∧ ∀ c ∈ host, hostChar c = true := by
  obtain ⟨scheme, host, rfl, hs, hne, hc⟩ := h
  have hc' : ∀ c ∈ host, hostChar c = true := fun c h => (hostChar_iff c).2 (hc c h)
  rcases hs with rfl | rfl
  · exact ⟨"http".toList, host, by simp, .inl rfl, hne, hc'⟩
  · exact ⟨"https".toList, host, by simp, .inr rfl, hne, hc'⟩

theorem url_ne_nil {u : List Char} (h : IsUrl u) : u ≠ [] := by
  obtain ⟨x, host, rfl, -⟩ := url_form h
  simp

theorem url_no_space {u : List Char} (h : IsUrl u) : ' ' ∉ u := by
  obtain ⟨x, host, rfl, hx, -, hc⟩ := url_form h
  intro hm
  have h1 : ' ' ∉ "http".toList := by decide
  have h2 : ' ' ∉ "https".toList := by decide
  have h3 : hostChar ' ' = false := by decide +kernel
  simp only [List.mem_append, List.mem_cons] at hm
  rcases hm with hm | hm | hm | hm | hm
  · rcases hx with rfl | rfl
    · exact h1 hm
    · exact h2 hm
  · exact absurd hm (by decide)
  · exact absurd hm (by decide)
  · exact absurd hm (by decide)
  · have := hc _ hm
    rw [h3] at this
    cases this

/-- In a text with one colon, after http or https, a link can only be at the beginning. -/
theorem infix_prefix {u y r : List Char} (hu : IsUrl u) (hy : y = "http".toList ∨ y = "https".toList) (hr : ':' ∉ r)
    (h : u <:+: y ++ ':' :: r) : u <+: y ++ ':' :: r := by
  obtain ⟨x, host, rfl, hx, -, -⟩ := url_form hu
  obtain ⟨a, b, e⟩ := h
  have hy' : ':' ∉ y := by rcases hy with rfl | rfl <;> decide
  have e' : (a ++ x) ++ ':' :: ('/' :: '/' :: host ++ b) = y ++ ':' :: r := by rw [← e]; simp
  have e1 := split_unique e' hy' hr
  have ha : a = [] := by
    have hl := congrArg List.length e1
    have hlast := congrArg List.getLast? e1
    rcases hx with rfl | rfl <;> rcases hy with rfl | rfl
    · simp at hl
      exact hl
    · simp [List.getLast?_append] at hlast
    · simp at hl
    · simp at hl
      exact hl
  subst ha
  exact ⟨b, by rw [← e]; simp⟩

theorem slash_of_url {u w : List Char} (hu : IsUrl u) (h : u <:+: w) : '/' ∈ w := by
  obtain ⟨x, host, rfl, -⟩ := url_form hu
  exact h.subset (by simp)

theorem url_in_url {u v : List Char} (hu : IsUrl u) (hv : IsUrl v) (h : u <:+: v) : u <+: v := by
  obtain ⟨y, host, rfl, hy, -, hc⟩ := url_form hv
  refine infix_prefix hu hy ?_ h
  intro hm
  have h3 : hostChar ':' = false := by decide +kernel
  simp only [List.mem_cons] at hm
  rcases hm with hm | hm | hm
  · exact absurd hm (by decide)
  · exact absurd hm (by decide)
  · have := hc _ hm
    rw [h3] at this
    cases this

/-- The strings that are drawn consist of letters. -/
theorem letter_host {c : Char} (h : c ∈ letters) : hostChar c = true := (hostChar_iff c).2 (by simp [h])

theorem url_in_short {u id : List Char} (hu : IsUrl u) (hid : ∀ c ∈ id, hostChar c = true) (h : u <:+: hostname ++ id) :
    u <+: "http://short-url".toList := by
  have h3 : hostChar ':' = false := by decide +kernel
  have h4 : hostChar '/' = false := by decide +kernel
  have e00 : hostname = "http".toList ++ (':' :: "//short-url/".toList) := by decide +kernel
  have e0 : hostname ++ id = "http".toList ++ ':' :: ("//short-url/".toList ++ id) := by
    rw [e00, List.append_assoc, List.cons_append]
  have hp := infix_prefix (y := "http".toList) (r := "//short-url/".toList ++ id) hu (.inl rfl) (by
    intro hm
    rcases List.mem_append.1 hm with hm | hm
    · exact absurd hm (by decide)
    · have := hid _ hm
      rw [h3] at this
      cases this) (by rw [← e0]; exact h)
  obtain ⟨x, host, rfl, hx, hne, hc⟩ := url_form hu
  have hslash : '/' ∉ host := fun hm => by
    have := hc _ hm
    rw [h4] at this
    cases this
  have hfin : ∀ host, host <+: "short-url".toList → "http".toList ++ ':' :: '/' :: '/' :: host <+: "http://short-url".toList := by
    rintro host ⟨m, e⟩
    exact ⟨m, by
      have : "http://short-url".toList = "http".toList ++ ':' :: '/' :: '/' :: "short-url".toList := by decide +kernel
      rw [this, ← e]
      simp⟩
  obtain ⟨b, e⟩ := hp
  rcases hx with rfl | rfl
  · have e' : host ++ b = "short-url".toList ++ '/' :: id := by simpa using e
    rcases List.append_eq_append_iff.1 e' with ⟨m, e1, e2⟩ | ⟨m, e1, e2⟩
    · exact hfin _ ⟨m, e1.symm⟩
    · cases m with
      | nil => exact hfin _ ⟨[], by simpa using e1⟩
      | cons y m =>
        rw [List.cons_append] at e2
        injection e2 with e2 _
        exact absurd (by rw [e1, ← e2]; simp) hslash
  · simp at e

/-! Finding the links -/

theorem schemeLen_zero {p t : List Char} (h : ¬ p <+: t) : schemeLen p t = 0 := by
  unfold schemeLen
  rw [if_neg (by rw [List.isPrefixOf_iff_prefix]; exact h)]

theorem schemeLen_hit {p host b : List Char} (hne : host ≠ []) (hc : ∀ c ∈ host, hostChar c = true)
    (hb : ∀ c, b.head? = some c → hostChar c = false) : schemeLen p (p ++ (host ++ b)) = (p ++ host).length := by
  unfold schemeLen
  rw [if_pos (by rw [List.isPrefixOf_iff_prefix]; exact ⟨_, rfl⟩), List.drop_left, takeWhile_spec hc hb]
  cases host with
  | nil => exact absurd rfl hne
  | cons x host => simp

theorem urlLen_url {u b : List Char} (hu : IsUrl u) (hb : ∀ c, b.head? = some c → hostChar c = false) : urlLen (u ++ b) = u.length := by
  obtain ⟨scheme, host, rfl, hs, hne, hc⟩ := hu
  have hc' : ∀ c ∈ host, hostChar c = true := fun c h => (hostChar_iff c).2 (hc c h)
  have hpos : 0 < host.length := List.length_pos_iff.2 hne
  unfold urlLen
  rw [List.append_assoc]
  rcases hs with rfl | rfl
  · rw [schemeLen_hit hne hc' hb]
    cases h : ("http://".toList ++ host).length with
    | zero => simp at h
    | succ n => rfl
  · rw [schemeLen_zero (by rintro ⟨x, e⟩; simp at e)]
    exact schemeLen_hit hne hc' hb

theorem urlLen_plain {w r : List Char} (hw : '/' ∉ w) (hr : r = [] ∨ ∃ r', r = ' ' :: r') : urlLen (w ++ r) = 0 := by
  have key : ∀ p : List Char, ' ' ∉ p → '/' ∈ p → ¬ p <+: w ++ r := by
    intro p hp hs h
    have : p <+: w := by
      rcases hr with rfl | ⟨r', rfl⟩
      · simpa using h
      · exact prefix_space hp h
    exact hw (this.subset hs)
  unfold urlLen
  rw [schemeLen_zero (key _ (by decide) (by decide)), schemeLen_zero (key _ (by decide) (by decide))]

theorem find_plain : ∀ (w r : List Char), '/' ∉ w → (r = [] ∨ ∃ r', r = ' ' :: r') → findAll urlLen 0 (w ++ r) = findAll urlLen 0 r
  | [], r, _, _ => rfl
  | c :: w, r, hw, hr => by
    have h := urlLen_plain hw hr
    rw [List.cons_append] at h ⊢
    rw [findAll_cons, if_pos h]
    exact find_plain w r (fun hm => hw (List.mem_cons_of_mem _ hm)) hr

theorem find_url {u r : List Char} (hu : IsUrl u) (hr : r = [] ∨ ∃ r', r = ' ' :: r') :
    findAll urlLen 0 (u ++ r) = u :: findAll urlLen 0 r := by
  have hlen := urlLen_url (b := r) hu (by
    intro c hc
    rcases hr with rfl | ⟨r', rfl⟩
    · cases hc
    · injection hc with hc
      subst hc
      decide +kernel)
  have hne := url_ne_nil hu
  cases u with
  | nil => exact absurd rfl hne
  | cons x u =>
    rw [List.cons_append] at hlen ⊢
    rw [findAll_cons, hlen, if_neg (by simp)]
    rw [← List.cons_append, List.take_left, List.drop_left]

theorem find_space (r : List Char) : findAll urlLen 0 (' ' :: r) = findAll urlLen 0 r := by
  have : urlLen (' ' :: r) = 0 := urlLen_plain (w := []) (r := ' ' :: r) nofun (.inr ⟨r, rfl⟩)
  rw [findAll_cons, if_pos this]

open Classical in
theorem urls_spaced : ∀ ws : List (List Char), (∀ w ∈ ws, Word w) → urlStrings (spaced ws) = ws.filter fun w => decide (IsUrl w)
  | [], _ => rfl
  | [w], h => by
    obtain ⟨-, hw⟩ := h w List.mem_cons_self
    unfold urlStrings spaced
    by_cases hu : IsUrl w
    · have := find_url (r := []) hu (.inl rfl)
      rw [List.append_nil] at this
      rw [this]
      simp [hu, findAll]
    · have := find_plain w [] (hw.resolve_left hu) (.inl rfl)
      rw [List.append_nil] at this
      rw [this]
      simp [hu, findAll]
  | w :: w' :: ws, h => by
    obtain ⟨-, hw⟩ := h w List.mem_cons_self
    have ih := urls_spaced (w' :: ws) fun v hv => h v (List.mem_cons_of_mem _ hv)
    unfold urlStrings at ih ⊢
    show findAll urlLen 0 (w ++ ' ' :: spaced (w' :: ws)) = _
    by_cases hu : IsUrl w
    · rw [find_url hu (.inr ⟨_, rfl⟩), find_space, ih, List.filter_cons_of_pos (a := w) (by simp [hu])]
    · rw [find_plain w _ (hw.resolve_left hu) (.inr ⟨_, rfl⟩), find_space, ih, List.filter_cons_of_neg (a := w) (by simp [hu])]

/-- What the loop over the links does to the words. -/
theorem shorten_words (us : List Name) : ∀ (rs : List Url) (ws : List (List Char)), us.length = rs.length →
    (∀ u ∈ us, IsUrl u) → (∀ r ∈ rs, ∀ u ∈ us, ¬ u <:+: r.short) →
    (∀ w ∈ ws, ∀ u ∈ us, u <:+: w → u = w) →
    ∃ short : List Char → List Char, shortenAll (spaced ws) us rs = spaced (ws.map fun w => if w ∈ us then short w else w) ∧
      ∀ w ∈ us, ∃ (i : Nat) (u : Name) (r : Url), us[i]? = some u ∧ rs[i]? = some r ∧ u = w ∧ short w = Url.short r := by
  induction us with
  | nil => intro rs ws hl _ _ _; exact ⟨id, by simp [shortenAll], nofun⟩
  | cons u us ih =>
    intro rs ws hl hus hrs hws
    cases rs with
    | nil => simp at hl
    | cons r rs =>
      have hu := hus u List.mem_cons_self
      have e1 : ws.map (replaceAll u r.short 0) = ws.map fun w => if w = u then r.short else w := by
        apply List.map_congr_left
        intro w hw
        split
        · next e =>
          subst e
          have := replaceAll_hit (s := r.short) (b := []) (url_ne_nil hu)
          simpa [replaceAll] using this
        · next e => exact replaceAll_miss fun h => e (hws w hw u List.mem_cons_self h).symm
      obtain ⟨short, h1, h2⟩ := ih rs (ws.map fun w => if w = u then r.short else w) (by simpa using hl)
        (fun v hv => hus v (List.mem_cons_of_mem _ hv)) (fun q hq v hv => hrs q (List.mem_cons_of_mem _ hq) v (List.mem_cons_of_mem _ hv))
        (by
          intro w hw v hv hvw
          obtain ⟨w0, hw0, rfl⟩ := List.mem_map.1 hw
          split at hvw
          · exact absurd hvw (hrs r List.mem_cons_self v (List.mem_cons_of_mem _ hv))
          · next e => rw [if_neg e]; exact hws w0 hw0 v (List.mem_cons_of_mem _ hv) hvw)
      refine ⟨fun w => if w = u then r.short else short w, ?_, ?_⟩
      · show shortenAll (replaceAll u r.short 0 (spaced ws)) us rs = _
        rw [replaceAll_spaced (url_no_space hu) (url_ne_nil hu), e1, h1, List.map_map]
        congr 1
        apply List.map_congr_left
        intro w hw
        simp only [Function.comp, List.mem_cons]
        by_cases e : w = u
        · subst e
          have : r.short ∉ us := fun h => hrs r List.mem_cons_self r.short (List.mem_cons_of_mem _ h) (List.infix_refl _)
          simp [this]
        · simp [e]
      · intro w hw
        by_cases e : w = u
        · exact ⟨0, u, r, rfl, rfl, e.symm, by simp [e]⟩
        · obtain ⟨i, v, q, h3, h4, h5, h6⟩ := h2 w ((List.mem_cons.1 hw).resolve_left e)
          exact ⟨i + 1, v, q, h3, h4, h5, by simp [e, h6]⟩

/-- C119: in a text of words and links, with spaces between them, every link is replaced by a short one that is recorded for it, and nothing
else is changed.
Missing from the full property: texts in which a link is the beginning of another one (`C119_prefix_refuted`), or has a path
(`C119_path_refuted`). -/
theorem C119_links_partial {E M : Type} (mentions : List Name → List M × Option E) (draws : List Name) (ws : List (List Char))
    (hw : ∀ w ∈ ws, Word w) (hpre : ∀ u ∈ ws, ∀ v ∈ ws, IsUrl u → IsUrl v → u <+: v → u = v)
    (hshort : ∀ u ∈ ws, IsUrl u → ¬ u <+: "http://short-url".toList)
    (hd : ∀ d ∈ draws, ∀ c ∈ d, c ∈ letters) (hn : ws.length ≤ draws.length) (hm : ∀ l, (mentions l).2 = none) :
    ∃ (short : List Char → List Char) (recorded : List Url),
      composeText (E := E) ⟨fun us => ((composeUrls draws us).1, none), mentions⟩ (spaced ws) =
        (spaced (ws.map short), (mentions (usernames (spaced ws))).1, recorded, none) ∧
      (∀ w ∈ ws, IsUrl w → ⟨short w, w⟩ ∈ recorded) ∧ (∀ w ∈ ws, ¬ IsUrl w → short w = w) ∧
      ∀ r ∈ recorded, r.long ∈ ws ∧ IsUrl r.long := by
  classical
  have hus := urls_spaced ws hw
  generalize hU : urlStrings (spaced ws) = us at hus
  have husU : ∀ u, u ∈ us ↔ u ∈ ws ∧ IsUrl u := by intro u; rw [hus]; simp
  have hrec : ∀ r ∈ (composeUrls draws us).1, ∃ d ∈ draws, r.short = hostname ++ d ∧ r.long ∈ us := by
    intro r hr
    obtain ⟨⟨u, d⟩, he, rfl⟩ := List.mem_map.1 hr
    exact ⟨d, (List.of_mem_zip he).2, rfl, (List.of_mem_zip he).1⟩
  have hlen : us.length = (composeUrls draws us).1.length := by
    have : us.length ≤ ws.length := by rw [hus]; exact List.length_filter_le _ _
    simp [composeUrls]
    omega
  obtain ⟨short, h1, h2⟩ := shorten_words us (composeUrls draws us).1 ws hlen (fun u hu => ((husU u).1 hu).2)
    (by
      intro r hr u hu hi
      obtain ⟨d, hdm, e, -⟩ := hrec r hr
      rw [e] at hi
      exact hshort u ((husU u).1 hu).1 ((husU u).1 hu).2
        (url_in_short ((husU u).1 hu).2 (fun c hc => letter_host (hd d hdm c hc)) hi))
    (by
      intro w hwm u hu hi
      have hu' := (husU u).1 hu
      rcases (hw w hwm).2 with h | h
      · exact hpre u hu'.1 w hwm hu'.2 h (url_in_url hu'.2 h hi)
      · exact absurd (slash_of_url hu'.2 hi) h)
  refine ⟨fun w => if w ∈ us then short w else w, (composeUrls draws us).1, ?_, ?_, ?_, ?_⟩
  · simp only [composeText, hU, hm, h1]
  · intro w hwm hu
    have hmem := (husU w).2 ⟨hwm, hu⟩
    obtain ⟨i, u, r, e1, e2, rfl, e4⟩ := h2 w hmem
    simp only [hmem, if_true]
    rw [e4]
    have : (⟨r.short, u⟩ : Url) = r := by
      simp only [composeUrls, List.getElem?_map, Option.map_eq_some_iff] at e2
      obtain ⟨⟨a, d⟩, hz, rfl⟩ := e2
      have := (List.getElem?_zip_eq_some.1 hz).1
      rw [e1] at this
      injection this with this
      rw [this]
    rw [this]
    exact List.mem_of_getElem? e2
  · intro w hwm hu
    have : w ∉ us := fun h => hu ((husU w).1 h).2
    simp [this]
  · intro r hr
    obtain ⟨d, -, -, h⟩ := hrec r hr
    exact (husU r.long).1 h

/-- C119: if one link is the beginning of another, both are replaced by the short form of the first, and the second leads to the wrong place:
its own short form is not in the text. -/
theorem C119_prefix_refuted {E M : Type} (mentions : List Name → List M × Option E) (u e d d' : List Char) (hu : IsUrl u)
    (hue : IsUrl (u ++ e)) (hd : ∀ c ∈ d, c ∈ letters) (hs : ¬ u <+: "http://short-url".toList) (hm : ∀ l, (mentions l).2 = none) :
    (composeText (E := E) ⟨fun us => ((composeUrls [d, d'] us).1, none), mentions⟩ (u ++ ' ' :: (u ++ e))).1 =
      (hostname ++ d) ++ ' ' :: ((hostname ++ d) ++ e) := by
  have hus : urlStrings (u ++ ' ' :: (u ++ e)) = [u, u ++ e] := by
    unfold urlStrings
    rw [find_url hu (.inr ⟨_, rfl⟩), find_space]
    have := find_url (r := []) hue (.inl rfl)
    rw [List.append_nil] at this
    rw [this]
    simp [findAll]
  have hec : ∀ c ∈ e, hostChar c = true := by
    obtain ⟨x, host, e1, hx, hne, hc⟩ := url_form hue
    obtain ⟨x', host', e2, hx', hne', hc'⟩ := url_form hu
    intro c hcm
    have h3 : hostChar ':' = false := by decide +kernel
    rw [e2, List.append_assoc] at e1
    have hxx : x' = x := by
      refine split_unique (x := ':') (by simpa using e1) (by rcases hx with rfl | rfl <;> decide) ?_
      intro hmem
      simp only [List.mem_cons] at hmem
      rcases hmem with hmem | hmem | hmem
      · exact absurd hmem (by decide)
      · exact absurd hmem (by decide)
      · have := hc _ hmem
        rw [h3] at this
        cases this
    subst hxx
    have := List.append_cancel_left e1
    simp at this
    exact hc c (by rw [← this]; simp [hcm])
  have heu : ¬ u <:+: e := fun h => by
    have h4 : hostChar '/' = false := by decide +kernel
    have := hec '/' (slash_of_url hu h)
    rw [h4] at this
    cases this
  have hspace := url_no_space hu
  have hne := url_ne_nil hu
  have hspace' := url_no_space hue
  have hne' := url_ne_nil hue
  have r1 : replaceAll u (hostname ++ d) 0 (u ++ ' ' :: (u ++ e)) = (hostname ++ d) ++ ' ' :: ((hostname ++ d) ++ e) := by
    rw [replaceAll_space hspace hne, replaceAll_hit hne, replaceAll_miss heu]
    have := replaceAll_hit (s := hostname ++ d) (b := []) hne
    rw [List.append_nil] at this
    rw [this]
    simp [replaceAll]
  have notin : ∀ id : List Char, (∀ c ∈ id, hostChar c = true) → ¬ u ++ e <:+: hostname ++ id := by
    intro id hid h
    have := url_in_short hue hid h
    exact hs ((List.prefix_append u e).trans this)
  have r2 : ∀ s, replaceAll (u ++ e) s 0 ((hostname ++ d) ++ ' ' :: ((hostname ++ d) ++ e)) = (hostname ++ d) ++ ' ' :: ((hostname ++ d) ++ e) := by
    intro s
    rw [replaceAll_space hspace' hne', replaceAll_miss (notin d fun c hc => letter_host (hd c hc)), replaceAll_miss]
    rw [List.append_assoc]
    refine notin (d ++ e) fun c hc => ?_
    rcases List.mem_append.1 hc with hc | hc
    · exact letter_host (hd c hc)
    · exact hec c hc
  simp only [composeText, hus, hm, composeUrls, List.zip_cons_cons, List.zip_nil_left, List.map_cons, List.map_nil, shortenAll, r1, r2]

/-- C119: of a link with a path only the host is shortened and recorded. -/
theorem C119_path_refuted (u path : List Char) (hu : IsUrl u) (hp : '/' ∉ path) : urlStrings (u ++ '/' :: path) = [u] := by
  have hlen := urlLen_url (b := '/' :: path) hu (by
    intro c hc
    injection hc with hc
    subst hc
    decide +kernel)
  have hne := url_ne_nil hu
  unfold urlStrings
  cases u with
  | nil => exact absurd rfl hne
  | cons x u =>
    rw [List.cons_append] at hlen ⊢
    rw [findAll_cons, hlen, if_neg (by simp), ← List.cons_append, List.take_left, List.drop_left]
    have h0 : urlLen ('/' :: path) = 0 := by
      unfold urlLen
      rw [schemeLen_zero (by rintro ⟨x, e⟩; simp at e), schemeLen_zero (by rintro ⟨x, e⟩; simp at e)]
    rw [findAll_cons, if_pos h0]
    have := find_plain path [] hp (.inl rfl)
    rw [List.append_nil] at this
    rw [this]
    simp [findAll]

/-- C119: a short link cannot be turned back: whatever is recorded, the service returns nothing. -/
theorem C119_expand_refuted (docs : List Url) (shorts : List Name) : getExtendedUrls docs shorts = [] := rfl

/-! ### C120: composing a post -/

/-- C120: media are paired with their types, and lists of different lengths are refused. -/
theorem C120_media (types : List Name) (ids : List Int) :
    (composeMedia types ids = none ↔ types.length ≠ ids.length) ∧
    ∀ l, composeMedia types ids = some l → l.map (·.1) = ids ∧ l.map (·.2) = types := by
  unfold composeMedia
  split
  · next h => exact ⟨by simp [h], fun l hl => by
      injection hl with hl
      subst hl
      exact ⟨List.map_fst_zip (by omega), List.map_snd_zip (by omega)⟩⟩
  · next h => exact ⟨by simp [h], nofun⟩

section
variable {E M C S T H : Type} (b : Backend E M C S T H) (idOf : M → Int) (now request : Int) (username : Name) (user : Int)
  (text : List Char) (mediaIds : List Int) (mediaTypes : List Name) (kind : Int) (s : S) (t : T) (h : H)

/-- C120: if the text, the media, the identifier or the creator cannot be made, nothing is stored and the reply is an error. -/
theorem C120_nothing (hf : (b.text text).2.2.2 ≠ none ∨ (b.media mediaTypes mediaIds).2 ≠ none ∨ (b.unique kind).2 ≠ none ∨
      (b.creator user username).2 ≠ none) :
    ∃ e, composePost b idOf now request username user text mediaIds mediaTypes kind s t h = ((s, t, h), -1, [], some e) := by
  unfold composePost
  cases h1 : (b.text text).2.2.2 with
  | some e => exact ⟨e, by simp [h1]⟩
  | none =>
    cases h2 : (b.media mediaTypes mediaIds).2 with
    | some e => exact ⟨e, by simp [h1, h2]⟩
    | none =>
      cases h3 : (b.unique kind).2 with
      | some e => exact ⟨e, by simp [h1, h2, h3]⟩
      | none =>
        cases h4 : (b.creator user username).2 with
        | some e => exact ⟨e, by simp [h1, h2, h3, h4]⟩
        | none => simp [h1, h2, h3, h4] at hf

/-- C120: otherwise the post is stored with the composed text, mentions, links and media, its identifier goes to the author's timeline and to
the home timelines, with those who are mentioned; and the reply is free of error exactly if all three writes succeed.
Missing from the full property: that a failure leaves nothing behind (`C120_dangling_refuted`), and the time (`C120_timestamp_refuted`). -/
theorem C120_stored_partial (h1 : (b.text text).2.2.2 = none) (h2 : (b.media mediaTypes mediaIds).2 = none) (h3 : (b.unique kind).2 = none)
    (h4 : (b.creator user username).2 = none) :
    ∃ post : Post M C, post.id = (b.unique kind).1 ∧ post.text = (b.text text).1 ∧ post.mentions = (b.text text).2.1 ∧
      post.urls = (b.text text).2.2.1 ∧ post.media = (b.media mediaTypes mediaIds).1 ∧ post.creator = (b.creator user username).1 ∧
      post.kind = kind ∧ post.request = request ∧
    let ids := post.mentions.map idOf
    let r := composePost b idOf now request username user text mediaIds mediaTypes kind s t h
    r.1 = ((b.store post s).1, (b.userTimeline post.id user now t).1, (b.homeTimeline post.id user now ids h).1) ∧
    r.2.1 = post.id ∧ r.2.2.1 = ids ∧
    (r.2.2.2 = none ↔ (b.store post s).2 = none ∧ (b.userTimeline post.id user now t).2 = none ∧
      (b.homeTimeline post.id user now ids h).2 = none) := by
  refine ⟨⟨_, _, request, _, _, _, _, 0, kind⟩, rfl, rfl, rfl, rfl, rfl, rfl, rfl, rfl, ?_⟩
  simp only [composePost, h1, h2, h3, h4, true_and]
  repeat' split
  all_goals simp_all

/-- C120: if the post cannot be stored, the timelines are written all the same: they have a post that does not exist. -/
theorem C120_dangling_refuted (h1 : (b.text text).2.2.2 = none) (h2 : (b.media mediaTypes mediaIds).2 = none) (h3 : (b.unique kind).2 = none)
    (h4 : (b.creator user username).2 = none) (e : E) (hs : ∀ post, b.store post s = (s, some e)) :
    composePost b idOf now request username user text mediaIds mediaTypes kind s t h =
      ((s, (b.userTimeline (b.unique kind).1 user now t).1, (b.homeTimeline (b.unique kind).1 user now ((b.text text).2.1.map idOf) h).1),
        (b.unique kind).1, (b.text text).2.1.map idOf, some e) := by
  simp [composePost, h1, h2, h3, h4, hs]

end

/-- C120: the time of a post is not stored with it: whenever it is composed, the same post is stored. -/
theorem C120_timestamp_refuted {E M C : Type} (text : List Char → List Char × List M × List Url × Option E)
    (media : List Name → List Int → List (Int × Name) × Option E) (unique : Int → Int × Option E) (creator : Int → Name → C × Option E)
    (idOf : M → Int) (now request : Int) (username : Name) (user : Int) (tx : List Char) (mediaIds : List Int) (mediaTypes : List Name)
    (kind : Int) :
    let b : Backend E M C (List (Post M C)) Unit Unit :=
      ⟨text, media, unique, creator, fun p s => (s ++ [p], none), fun _ _ _ t => (t, none), fun _ _ _ _ h => (h, none)⟩
    ∀ p ∈ (composePost b idOf now request username user tx mediaIds mediaTypes kind [] () ()).1.1, p.timestamp = 0 := by
  intro b p hp
  simp only [composePost, b] at hp
  repeat' split at hp
  all_goals simp at hp
  rw [hp]

/-- C120: the gateway passes a request on by identifiers if both are given, by names if both are given, and refuses it otherwise. -/
theorem C120_gateway (username followeeName : Name) (user followee : Int) :
    (user ≠ 0 ∧ followee ≠ 0 → gatewayFollow username followeeName user followee = .byId user followee) ∧
    (¬ (user ≠ 0 ∧ followee ≠ 0) → username ≠ [] → followeeName ≠ [] →
      gatewayFollow username followeeName user followee = .byName username followeeName) ∧
    (gatewayFollow username followeeName user followee = .invalid ↔
      (user = 0 ∨ followee = 0) ∧ (username = [] ∨ followeeName = [])) := by
  unfold gatewayFollow
  refine ⟨fun h => by simp [h], fun h h1 h2 => by rw [if_neg h, if_pos ⟨h1, h2⟩], ?_⟩
  by_cases a : user = 0 <;> by_cases c : followee = 0 <;> by_cases d : username = [] <;> by_cases f : followeeName = [] <;>
    simp [a, c, d, f]

/-- C120: nobody with the identifier 0, which registration accepts, can post. -/
theorem C120_zero_refuted (username text : Name) : gatewayAccepts 0 username text = false := rfl

/-! ### Concrete cases -/

example : usernames "hi @ann-1, see bob@x.org and @@cy @".toList = ["ann-1".toList, "x".toList, "cy".toList] := by decide +kernel
example : urlStrings "see http://a.b and https://c https:// http://http://x".toList =
    ["http://a.b".toList, "https://c".toList, "http://http".toList] := by decide +kernel
example : IsUrl "http://a.b".toList := ⟨"http://".toList, "a.b".toList, by simp, .inl rfl, by simp, by decide +kernel⟩
example : ((composeText (E := Unit) (M := Unit) ⟨fun us => ((composeUrls ["qqq".toList, "rrr".toList] us).1, none), fun _ => ([], none)⟩
    "go http://a http://ab".toList).1) = "go http://short-url/qqq http://short-url/qqqb".toList := by decide +kernel
example : spaced ["go".toList, "http://a".toList] = "go http://a".toList ∧ ' ' ∉ "go".toList := by decide +kernel

end Verif.Social.Text
