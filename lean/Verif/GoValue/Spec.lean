import Verif.GoValue.Model
/-
Specification vocabulary for typed result delivery (C55): when a Go value has a static type, when two
values carry the same content, and when a value fits a destination type.
-/
namespace Verif.GoValue

/-- `HasType v t`: a variable of static type `t` may hold `v`. -/
inductive HasType : GoVal → GoType → Prop where
  | any (v) : HasType v .any
  | named (n p) : HasType (.scalar n p) (.named n)
  | slice (e vs) : (∀ v ∈ vs, HasType v e) → HasType (.slice e vs) (.slice e)

/-- `SameContent v w`: `w` carries exactly the same data as `v`; slices may differ in their static
element type (`[]any` versus `[]T`) but have the same length and the same content at each index. -/
inductive SameContent : GoVal → GoVal → Prop where
  | refl (v) : SameContent v v
  | slice (e f vs ws) : vs.length = ws.length →
      (∀ i (h : i < vs.length) (h' : i < ws.length), SameContent vs[i] ws[i]) →
      SameContent (.slice e vs) (.slice f ws)

/-- `Fits v t`: the value can be delivered to a variable of type `t` without conversion of data:
any non-nil value to `any`, a value of exactly the type `n` to `n`, and a slice to a slice type if each
element fits the element type. -/
inductive Fits : GoVal → GoType → Prop where
  | any (v) : v ≠ .nil → Fits v .any
  | named (n p) : Fits (.scalar n p) (.named n)
  | slice (e f vs) : (∀ v ∈ vs, Fits v f) → Fits (.slice e vs) (.slice f)

/-- `NilFree v`: neither `v` nor any element nested in it is the nil interface. -/
inductive NilFree : GoVal → Prop where
  | scalar (n p) : NilFree (.scalar n p)
  | slice (e vs) : (∀ v ∈ vs, NilFree v) → NilFree (.slice e vs)

end Verif.GoValue
