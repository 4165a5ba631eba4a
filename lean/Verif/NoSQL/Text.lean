import Verif.NoSQL.Spec
/-
C58, C39, C105: what the texts "a number" and "the pieces between dots" are, stated without the functions of the model.
-/
namespace Verif.NoSQL

/-- The text is a decimal number of 64 bits: an optional sign and then one or more digits. -/
def IsNumber (s : Name) (n : Int) : Prop :=
  ∃ sign ds, s = sign ++ ds ∧ ds ≠ [] ∧ (∀ c ∈ ds, '0' ≤ c ∧ c ≤ '9') ∧
    ((sign = [] ∨ sign = ['+']) ∧ n = Nat.ofDigitChars 10 ds 0 ∨ sign = ['-'] ∧ n = -(Nat.ofDigitChars 10 ds 0 : Int)) ∧
    -2 ^ 63 ≤ n ∧ n < 2 ^ 63

private theorem isDigit_iff (c : Char) : c.isDigit = true ↔ '0' ≤ c ∧ c ≤ '9' := by
  simp only [Char.isDigit, Bool.and_eq_true, decide_eq_true_eq]
  rfl

private theorem digits_iff (s : Name) (acc n : Nat) :
    digits acc s = some n ↔ (∀ c ∈ s, '0' ≤ c ∧ c ≤ '9') ∧ n = Nat.ofDigitChars 10 s acc := by
  induction s generalizing acc with
  | nil => simp [digits, eq_comm]
  | cons c cs ih =>
    rw [digits]
    by_cases hc : c.isDigit = true
    · rw [if_pos hc, ih, Nat.ofDigitChars_cons]
      simp only [List.mem_cons, forall_eq_or_imp]
      have := (isDigit_iff c).1 hc
      simp [this]
    · rw [if_neg hc]
      simp only [List.mem_cons, forall_eq_or_imp]
      constructor
      · intro h; cases h
      · rintro ⟨⟨h, -⟩, -⟩; exact absurd ((isDigit_iff c).2 h) hc

/-- C58: a piece of a path is taken for a position in an array exactly when it is a decimal number of 64 bits, and it
stands for that number. -/
theorem C58_number (s : Name) (n : Int) : atoi s = some n ↔ IsNumber s n := by
  have sign : ∀ (c : Char) (ds : Name), (∀ d ∈ c :: ds, '0' ≤ d ∧ d ≤ '9') → c ≠ '-' ∧ c ≠ '+' := by
    intro c ds h
    have := h c (by simp)
    constructor <;> rintro rfl <;> exact absurd this (by decide)
  unfold atoi
  simp only
  split
  · rename_i ds
    simp only [Option.bind_eq_some_iff]
    constructor
    · rintro ⟨m, h1, h2⟩
      split at h1
      · cases h1
      · rename_i hne
        obtain ⟨h3, rfl⟩ := (digits_iff _ _ _).1 h1
        split at h2
        · rename_i hle
          cases h2
          refine ⟨['-'], ds, rfl, hne, h3, .inr ⟨rfl, rfl⟩, ?_, ?_⟩ <;> omega
        · cases h2
    · rintro ⟨sg, ds', h1, hne, h3, h4, h5, h6⟩
      rcases h4 with ⟨hs | hs, h4⟩ | ⟨hs, h4⟩
      · subst hs; rw [List.nil_append] at h1; subst h1
        exact absurd rfl (sign _ _ h3).1
      · subst hs; simp at h1
      · subst hs
        obtain rfl : ds = ds' := by simpa using h1
        exact ⟨_, by rw [if_neg hne, digits_iff]; exact ⟨h3, rfl⟩, by rw [if_pos (by omega), h4]⟩
  · rename_i ds
    simp only [Option.bind_eq_some_iff]
    constructor
    · rintro ⟨m, h1, h2⟩
      split at h1
      · cases h1
      · rename_i hne
        obtain ⟨h3, rfl⟩ := (digits_iff _ _ _).1 h1
        split at h2
        · rename_i hle
          cases h2
          refine ⟨['+'], ds, rfl, hne, h3, .inl ⟨.inr rfl, rfl⟩, ?_, ?_⟩ <;> omega
        · cases h2
    · rintro ⟨sg, ds', h1, hne, h3, h4, h5, h6⟩
      rcases h4 with ⟨hs | hs, h4⟩ | ⟨hs, h4⟩
      · subst hs; rw [List.nil_append] at h1; subst h1
        exact absurd rfl (sign _ _ h3).2
      · subst hs
        obtain rfl : ds = ds' := by simpa using h1
        exact ⟨_, by rw [if_neg hne, digits_iff]; exact ⟨h3, rfl⟩, by rw [if_pos (by omega), h4]⟩
      · subst hs; simp at h1
  · rename_i hm hp
    simp only [Option.bind_eq_some_iff]
    constructor
    · rintro ⟨m, h1, h2⟩
      split at h1
      · cases h1
      · rename_i hne
        obtain ⟨h3, rfl⟩ := (digits_iff _ _ _).1 h1
        split at h2
        · rename_i hle
          cases h2
          refine ⟨[], s, rfl, hne, h3, .inl ⟨.inl rfl, rfl⟩, ?_, ?_⟩ <;> omega
        · cases h2
    · rintro ⟨sg, ds', h1, hne, h3, h4, h5, h6⟩
      rcases h4 with ⟨hs | hs, h4⟩ | ⟨hs, h4⟩
      · subst hs; rw [List.nil_append] at h1; subst h1
        exact ⟨_, by rw [if_neg hne, digits_iff]; exact ⟨h3, rfl⟩, by rw [if_pos (by omega), h4]⟩
      · subst hs; exact absurd h1 (hp _)
      · subst hs; exact absurd h1 (hm _)

/-- C58: the pieces of a path are the texts between its dots. -/
theorem C58_pieces (sel : Name) (ps : List Name) :
    splitDots sel = ps ↔ ps ≠ [] ∧ (∀ p ∈ ps, '.' ∉ p) ∧ sel = List.intercalate ['.'] ps := by
  have ic : ∀ (p q : Name) (qs : List Name), List.intercalate ['.'] (p :: q :: qs) = p ++ '.' :: List.intercalate ['.'] (q :: qs) := by
    intro p q qs; simp [List.intercalate, List.intersperse]
  have i1 : ∀ p : Name, List.intercalate ['.'] [p] = p := by intro p; simp [List.intercalate]
  induction sel generalizing ps with
  | nil =>
    rw [splitDots]
    constructor
    · rintro rfl; exact ⟨by simp, by simp, by simp [List.intercalate]⟩
    · rintro ⟨h1, h2, h3⟩
      match ps, h1 with
      | [p], _ => rw [i1] at h3; rw [← h3]
      | p :: q :: qs, _ => rw [ic] at h3; simp at h3
  | cons c cs ih =>
    rw [splitDots]
    obtain ⟨k1, k2, k3⟩ := (ih _).1 rfl
    by_cases hc : c = '.'
    · subst hc
      rw [if_pos rfl]
      constructor
      · rintro rfl
        refine ⟨by simp, ?_, ?_⟩
        · intro p hp
          rcases List.mem_cons.1 hp with rfl | hp
          · simp
          · exact k2 p hp
        · cases hh : splitDots cs with
          | nil => exact absurd hh k1
          | cons q qs => rw [ic, ← hh, ← k3]; rfl
      · rintro ⟨h1, h2, h3⟩
        match ps, h1 with
        | [p], _ => rw [i1] at h3; subst h3; exact (h2 ('.' :: cs) (by simp) (by simp)).elim
        | p :: q :: qs, _ =>
          rw [ic] at h3
          have : p = [] := by
            cases p with
            | nil => rfl
            | cons d p =>
              have : d = '.' := ((List.cons.inj h3).1).symm
              subst this
              exact absurd (h2 _ (List.mem_cons_self ..)) (by simp)
          subst this
          rw [(ih (q :: qs)).2 ⟨by simp, fun x hx => h2 x (by simp [hx]), (List.cons.inj h3).2⟩]
    · rw [if_neg hc]
      cases hh : splitDots cs with
      | nil => exact absurd hh k1
      | cons q qs =>
        simp only
        rw [hh] at k2 k3
        constructor
        · rintro rfl
          refine ⟨by simp, ?_, ?_⟩
          · intro p hp
            rcases List.mem_cons.1 hp with rfl | hp
            · simpa [Ne.symm hc] using k2 q (by simp)
            · exact k2 p (by simp [hp])
          · rw [k3]
            cases qs with
            | nil => rw [i1, i1]
            | cons r rs => rw [ic, ic]; rfl
        · rintro ⟨h1, h2, h3⟩
          match ps, h1 with
          | p :: rest, _ =>
            cases p with
            | nil =>
              cases rest with
              | nil => rw [i1] at h3; simp at h3
              | cons r rs => rw [ic] at h3; exact absurd (List.cons.inj h3).1 hc
            | cons d p =>
              have e : d = c ∧ cs = List.intercalate ['.'] (p :: rest) := by
                cases rest with
                | nil => rw [i1] at h3 ⊢; exact ⟨(List.cons.inj h3).1.symm, (List.cons.inj h3).2⟩
                | cons r rs => rw [ic] at h3 ⊢; exact ⟨(List.cons.inj h3).1.symm, (List.cons.inj h3).2⟩
              obtain ⟨rfl, e2⟩ := e
              have := (ih (p :: rest)).2 ⟨by simp, ?_, e2⟩
              · rw [hh] at this
                obtain ⟨rfl, rfl⟩ := List.cons.inj this
                rfl
              · intro x hx
                rcases List.mem_cons.1 hx with rfl | hx
                · exact fun h => h2 (d :: x) (by simp) (by simp [h])
                · exact h2 x (by simp [hx])

example : IsNumber ['-', '1', '2'] (-12) := (C58_number _ _).1 (by decide +kernel)
example : ∀ n, ¬ IsNumber ['1', 'x'] n := fun n h => by
  have := (C58_number _ _).2 h
  rw [show atoi ['1', 'x'] = none by decide] at this; cases this
example : splitDots ['a', '.', '0', '.', '.'] = [['a'], ['0'], [], []] := by decide

end Verif.NoSQL
