import Verif.GoValue.Spec
/-
C55: typed result delivery.
-/
namespace Verif.GoValue

mutual
private theorem copyTo_ok (src : GoVal) (t : GoType) (w : GoVal) (h : copyTo src t = .ok w) :
    SameContent src w ∧ Fits src t ∧ HasType w t := by
  cases t with
  | any =>
    cases src with
    | nil => simp [copyTo] at h
    | scalar n p => simp [copyTo] at h; subst h; exact ⟨.refl _, .any _ (by simp), .any _⟩
    | slice e vs => simp [copyTo] at h; subst h; exact ⟨.refl _, .any _ (by simp), .any _⟩
  | named n =>
    cases src with
    | nil => simp [copyTo] at h
    | scalar m p =>
      by_cases hm : m = n
      · subst hm
        simp [copyTo, assignable] at h; subst h
        exact ⟨.refl _, .named _ _, .named _ _⟩
      · simp [copyTo, assignable, hm] at h
    | slice e vs => simp [copyTo] at h
  | slice f =>
    cases src with
    | nil => simp [copyTo] at h
    | scalar m p => simp [copyTo] at h
    | slice e vs =>
      simp only [copyTo] at h
      cases hc : copyElems vs f with
      | error o => simp [hc] at h
      | ok ws =>
        simp [hc] at h; subst h
        have := copyElems_ok vs f ws hc
        exact ⟨.slice _ _ _ _ this.1 this.2.1, .slice _ _ _ this.2.2.1, .slice _ _ this.2.2.2⟩
private theorem copyElems_ok (vs : List GoVal) (e : GoType) (ws : List GoVal)
    (h : copyElems vs e = .ok ws) :
    vs.length = ws.length ∧
    (∀ i (h : i < vs.length) (h' : i < ws.length), SameContent vs[i] ws[i]) ∧
    (∀ v ∈ vs, Fits v e) ∧ (∀ w ∈ ws, HasType w e) := by
  cases vs with
  | nil => simp [copyElems] at h; subst h; simp
  | cons v vs =>
    simp only [copyElems] at h
    cases hv : copyTo v e with
    | error o => simp [hv] at h
    | ok w =>
      cases hvs : copyElems vs e with
      | error o => simp [hv, hvs] at h
      | ok ws' =>
        simp [hv, hvs] at h; subst h
        have h1 := copyTo_ok v e w hv
        have h2 := copyElems_ok vs e ws' hvs
        refine ⟨by simp [h2.1], ?_, ?_, ?_⟩
        · intro i hi hi'
          cases i with
          | zero => simpa using h1.1
          | succ i => simpa using h2.2.1 i (by simpa using hi) (by simpa using hi')
        · intro x hx
          cases List.mem_cons.1 hx with
          | inl h => exact h ▸ h1.2.1
          | inr h => exact h2.2.2.1 x h
        · intro x hx
          cases List.mem_cons.1 hx with
          | inl h => exact h ▸ h1.2.2
          | inr h => exact h2.2.2.2 x h
end

mutual
private theorem copyTo_fits (src : GoVal) (t : GoType) (h : Fits src t) : ∃ w, copyTo src t = .ok w := by
  cases h with
  | any v hv => cases src <;> simp_all [copyTo]
  | named n p => simp [copyTo, assignable]
  | slice e f vs hvs =>
    obtain ⟨ws, hws⟩ := copyElems_fits vs f hvs
    exact ⟨.slice f ws, by simp [copyTo, hws]⟩
private theorem copyElems_fits (vs : List GoVal) (e : GoType) (h : ∀ v ∈ vs, Fits v e) :
    ∃ ws, copyElems vs e = .ok ws := by
  cases vs with
  | nil => exact ⟨[], by simp [copyElems]⟩
  | cons v vs =>
    obtain ⟨w, hw⟩ := copyTo_fits v e (h v (by simp))
    obtain ⟨ws, hws⟩ := copyElems_fits vs e (fun x hx => h x (by simp [hx]))
    exact ⟨w :: ws, by simp [copyElems, hw, hws]⟩
end

/-- C55, success side: if the call returns without error the destination was a usable pointer, it now
holds a value with exactly the content of the source, and that value has the destination's type. -/
theorem C55_delivers_same_value (src : GoVal) (dst dst' : Dst)
    (h : copyResult src dst = (dst', .ok)) :
    ∃ t cur w, dst = .ptr t cur ∧ dst' = .ptr t w ∧ SameContent src w ∧ HasType w t := by
  cases dst with
  | notPointer => simp [copyResult] at h
  | nilPointer => simp [copyResult] at h
  | ptr t cur =>
    simp only [copyResult] at h
    cases hc : copyTo src t with
    | error o => simp [hc] at h; cases o <;> simp [Fail.toOutcome] at h
    | ok w =>
      simp [hc] at h
      have := copyTo_ok src t w hc
      exact ⟨t, cur, w, rfl, h.symm, this.1, this.2.2⟩

/-- C55, failure side: any call that does not succeed leaves the destination exactly as it was. -/
theorem C55_failure_leaves_destination (src : GoVal) (dst : Dst)
    (h : (copyResult src dst).2 ≠ .ok) : (copyResult src dst).1 = dst := by
  cases dst with
  | notPointer => rfl
  | nilPointer => rfl
  | ptr t cur =>
    simp only [copyResult] at h ⊢
    cases hc : copyTo src t <;> simp_all

/-- C55, exact domain: delivery to a pointer succeeds if and only if the value fits the pointed-to type. -/
theorem C55_succeeds_iff_fits (src : GoVal) (t : GoType) (cur : GoVal) :
    (copyResult src (.ptr t cur)).2 = .ok ↔ Fits src t := by
  constructor
  · intro h
    simp only [copyResult] at h
    cases hc : copyTo src t with
    | error o => simp [hc] at h; cases o <;> simp [Fail.toOutcome] at h
    | ok w => exact (copyTo_ok src t w hc).2.1
  · intro h
    obtain ⟨w, hw⟩ := copyTo_fits src t h
    simp [copyResult, hw]

/-- C55 as stated is false of the code in one place: a nil source (for example a nil stored in a cache)
makes the delivery panic instead of returning an error. -/
theorem C55_nil_source_refuted (t : GoType) (cur : GoVal) :
    (copyResult .nil (.ptr t cur)).2 = .panic := by
  cases t <;> simp [copyResult, copyTo, Fail.toOutcome]

mutual
private theorem copyTo_no_panic (src : GoVal) (t : GoType) (h : NilFree src) :
    copyTo src t ≠ .error .panic := by
  cases h with
  | scalar n p => cases t <;> simp [copyTo, assignable] <;> split <;> simp
  | slice e vs hvs =>
    cases t with
    | any => simp [copyTo]
    | named n => simp [copyTo]
    | slice f =>
      have := copyElems_no_panic vs f hvs
      simp only [copyTo]
      cases hc : copyElems vs f <;> simp_all
private theorem copyElems_no_panic (vs : List GoVal) (e : GoType) (h : ∀ v ∈ vs, NilFree v) :
    copyElems vs e ≠ .error .panic := by
  cases vs with
  | nil => simp [copyElems]
  | cons v vs =>
    have h1 := copyTo_no_panic v e (h v (by simp))
    have h2 := copyElems_no_panic vs e (fun x hx => h x (by simp [hx]))
    simp only [copyElems]
    cases hv : copyTo v e <;> cases hvs : copyElems vs e <;> simp_all
end

/-- C55, both sides in one statement, for sources without nil in them: the call either stores exactly
the source's content, or returns an error and leaves the destination alone.
Missing from the full property: nil sources, which panic (`C55_nil_source_refuted`). -/
theorem C55_assigns_or_errors_partial (src : GoVal) (dst : Dst) (hs : NilFree src) :
    (∃ t cur w, dst = .ptr t cur ∧ copyResult src dst = (.ptr t w, .ok) ∧ SameContent src w ∧ HasType w t)
    ∨ copyResult src dst = (dst, .err) := by
  cases dst with
  | notPointer => exact .inr rfl
  | nilPointer => exact .inr rfl
  | ptr t cur =>
    cases hc : copyTo src t with
    | ok w =>
      have := copyTo_ok src t w hc
      exact .inl ⟨t, cur, w, rfl, by simp [copyResult, hc], this.1, this.2.2⟩
    | error o =>
      cases o with
      | err => exact .inr (by simp [copyResult, hc, Fail.toOutcome])
      | panic => exact absurd hc (copyTo_no_panic src t hs)

/-- C55: what has been delivered is what is read back through the same pointer. -/
theorem C55_read_back (src : GoVal) (dst dst' : Dst) (h : copyResult src dst = (dst', .ok)) :
    ∃ w, getPointerValue dst' = .ok w ∧ SameContent src w := by
  obtain ⟨t, cur, w, -, rfl, hs, -⟩ := C55_delivers_same_value src dst dst' h
  exact ⟨w, rfl, hs⟩

/-- C55: clearing a destination sets it to nil, to the zero of its type or to an empty slice, if it is a pointer to a variable; otherwise it is
an error and nothing changes. -/
theorem C55_clear (dst : Dst) :
    (∀ cur, dst = .ptr .any cur → setZero dst = (.ptr .any .nil, .ok)) ∧
    (∀ n cur, dst = .ptr (.named n) cur → setZero dst = (.ptr (.named n) (.scalar n 0), .ok)) ∧
    (∀ e cur, dst = .ptr (.slice e) cur → setZero dst = (.ptr (.slice e) (.slice e []), .ok)) ∧
    ((∀ t cur, dst ≠ .ptr t cur) → setZero dst = (dst, .err)) := by
  refine ⟨?_, ?_, ?_, ?_⟩
  · rintro cur rfl; rfl
  · rintro n cur rfl; rfl
  · rintro e cur rfl; rfl
  · intro h
    cases dst with
    | notPointer => rfl
    | nilPointer => rfl
    | ptr t cur => exact absurd rfl (h t cur)

/-- C55: reading through something that is no pointer is an error. -/
theorem C55_read (dst : Dst) (v : GoVal) : getPointerValue dst = .ok v ↔ ∃ t, dst = .ptr t v := by
  cases dst <;> simp [getPointerValue]

/-- C55: reading through a nil pointer is not an error but a panic. -/
theorem C55_read_nil_refuted : getPointerValue .nilPointer = .error .panic ∧ getPointerValue .notPointer = .error .err := ⟨rfl, rfl⟩

/-- `[]any{1,2}` is delivered into a `[]int` variable, and an incompatible element fails. -/
example : copyResult (.slice .any [.scalar "int" 1, .scalar "int" 2]) (.ptr (.slice (.named "int")) (.slice (.named "int") []))
    = (.ptr (.slice (.named "int")) (.slice (.named "int") [.scalar "int" 1, .scalar "int" 2]), .ok) := by
  simp [copyResult, copyTo, copyElems, assignable]
example : (copyResult (.slice .any [.scalar "int" 1, .scalar "string" 2]) (.ptr (.slice (.named "int")) (.slice (.named "int") []))).2
    ≠ .ok := by
  simp [copyResult, copyTo, copyElems, assignable, Fail.toOutcome]
example : Fits (.slice .any [.scalar "int" 1]) (.slice (.named "int")) :=
  .slice _ _ _ (by intro v hv; simp at hv; subst hv; exact .named _ _)
example : NilFree (.slice .any [.scalar "int" 1, .scalar "string" 2]) :=
  .slice _ _ (by intro v hv; simp at hv; rcases hv with h | h <;> subst h <;> exact .scalar _ _)

end Verif.GoValue
