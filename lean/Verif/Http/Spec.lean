import Verif.Http.Model
/-
Vocabulary for C68 and C69: which values have a type, and which values survive the way through JSON.
-/
namespace Verif.Http

/-- A map key has a key type. -/
def KeyHasTy : KeyTy → Key → Prop
  | .string, .str _ => True
  | .int lo hi, .int n => lo ≤ n ∧ n ≤ hi
  | _, _ => False

mutual
/-- A value has a type. -/
def HasTy : Ty → Val → Prop
  | .bool, .bool _ => True
  | .int lo hi, .int n => lo ≤ n ∧ n ≤ hi
  | .float, .float _ => True
  | .string, .str _ => True
  | .slice _, .nilSlice => True
  | .slice t, .slice vs => ∀ v ∈ vs, HasTy t v
  | .map _ _, .nilMap => True
  | .map kt t, .map ks vs =>
    ks.Nodup ∧ ks.length = vs.length ∧ (∀ k ∈ ks, KeyHasTy kt k) ∧ ∀ v ∈ vs, HasTy t v
  | .ptr _, .nilPtr => True
  | .ptr t, .ptr v => HasTy t v
  | .struct fs ts, .struct vs => fs.length = ts.length ∧ HasTys ts vs
  | .defined t, v => HasTy t v
  | .opaque, .opaque => True
  | _, _ => False
/-- The values of a list have the types of a list. -/
def HasTys : List Ty → List Val → Prop
  | [], [] => True
  | t :: ts, v :: vs => HasTy t v ∧ HasTys ts vs
  | _, _ => False
end

/-- The JSON name of a field: the one in its tag, or else its own. -/
def jsonName (f : Field) : Bytes :=
  match f.tag with
  | some n => n
  | none => f.name

/-- The field at position `i` takes part in JSON: it is exported, its tag is not `-`, and any other such
field with the same JSON name gives way, because it has that name without a tag and this one by a tag. -/
def Visible (fs : List Field) (i : Nat) : Prop :=
  ∃ f, fs[i]? = some f ∧ f.exported = true ∧ f.skip = false ∧
    ∀ (j : Nat) (g : Field), fs[j]? = some g → j ≠ i → g.exported = true → g.skip = false → jsonName g = jsonName f →
      f.tag ≠ none ∧ g.tag = none

/-- The values that the option `omitempty` leaves out. -/
def Omittable (v : Val) : Prop :=
  v = .bool false ∨ v = .int 0 ∨ v = .float (.fin 0) ∨ v = .str [] ∨ v = .nilSlice ∨ v = .slice [] ∨
  v = .nilMap ∨ (∃ vs, v = .map [] vs) ∨ v = .nilPtr

/-- The value `v` of the field at position `i` is written: the field takes part, and the value is not left out
because of `omitempty`. -/
def Written (fs : List Field) (i : Nat) (v : Val) : Prop :=
  Visible fs i ∧ ¬ ((∃ f, fs[i]? = some f ∧ f.omitempty = true) ∧ Omittable v)

/-- A map key is valid UTF-8. -/
def KeyValid (valid : Bytes → Bool) (k : Key) : Prop := ∀ s, k = .str s → valid s = true

mutual
/-- A value is its type's zero value. -/
def IsZero : Ty → Val → Prop
  | .bool, v => v = .bool false
  | .int _ _, v => v = .int 0
  | .float, v => v = .float (.fin 0)
  | .string, v => v = .str []
  | .slice _, v => v = .nilSlice
  | .map _ _, v => v = .nilMap
  | .ptr _, v => v = .nilPtr
  | .struct _ ts, v => ∃ vs, v = .struct vs ∧ AllZero ts vs
  | .defined t, v => IsZero t v
  | .opaque, v => v = .opaque
def AllZero : List Ty → List Val → Prop
  | [], vs => vs = []
  | t :: ts, vs => ∃ v vs', vs = v :: vs' ∧ IsZero t v ∧ AllZero ts vs'
end

mutual
/-- The values that survive JSON: strings are valid UTF-8, numbers finite, nothing has an opaque type,
pointers do not point to nil, and the fields that do not take part, or are left out, have their zero
values. -/
def Faithful (valid : Bytes → Bool) : Ty → Val → Prop
  | .float, v => ∃ f, v = .float (.fin f)
  | .string, v => ∀ s, v = .str s → valid s = true
  | .slice t, .slice vs => ∀ v ∈ vs, Faithful valid t v
  | .map _ t, .map ks vs => (∀ k ∈ ks, KeyValid valid k) ∧ ∀ v ∈ vs, Faithful valid t v
  | .ptr t, .ptr v => v ≠ .nilSlice ∧ v ≠ .nilMap ∧ v ≠ .nilPtr ∧ Faithful valid t v
  | .struct fs ts, .struct vs => FaithfulFields valid fs 0 ts vs
  | .defined t, v => Faithful valid t v
  | .opaque, _ => False
  | _, _ => True
/-- The fields from position `i`. -/
def FaithfulFields (valid : Bytes → Bool) (fs : List Field) (i : Nat) : List Ty → List Val → Prop
  | t :: ts, v :: vs =>
    (Written fs i v → Faithful valid t v) ∧ (¬ Written fs i v → IsZero t v) ∧ FaithfulFields valid fs (i + 1) ts vs
  | _, _ => True
end

mutual
/-- The names and tags of struct fields are valid UTF-8 (as Go requires of its source files). -/
def Declared (valid : Bytes → Bool) : Ty → Prop
  | .slice t => Declared valid t
  | .map _ t => Declared valid t
  | .ptr t => Declared valid t
  | .struct fs ts => (∀ f ∈ fs, valid (jsonName f) = true) ∧ DeclaredAll valid ts
  | .defined t => Declared valid t
  | _ => True
def DeclaredAll (valid : Bytes → Bool) : List Ty → Prop
  | [] => True
  | t :: ts => Declared valid t ∧ DeclaredAll valid ts
end

/-- The names that a generated client and server are made for: a letter, digit or underscore each. -/
def IdentByte (b : Byte) : Prop :=
  (97 ≤ b.val ∧ b.val ≤ 122) ∨ (65 ≤ b.val ∧ b.val ≤ 90) ∨ (48 ≤ b.val ∧ b.val ≤ 57) ∨ b.val = 95

/-- The characters of a request's target: letters, digits, `_ - . ~`, and `/ ? % + & =`. There are no spaces, control
characters or quotes, which a request line must not contain. -/
def UrlByte (b : Byte) : Prop :=
  IdentByte b ∨ b.val = 45 ∨ b.val = 46 ∨ b.val = 126 ∨ b.val = 47 ∨ b.val = 63 ∨ b.val = 37 ∨ b.val = 43 ∨ b.val = 38 ∨
    b.val = 61

/-- An interface: methods with different names made of letters, digits and underscores; the arguments of
each have different names; the types are properly declared. -/
structure Interface (valid : Bytes → Bool) (ms : List Method) : Prop where
  names : (ms.map (·.name)).Nodup
  ident : ∀ m ∈ ms, ∀ b ∈ m.name, IdentByte b
  args : ∀ m ∈ ms, (m.args.map (·.1)).Nodup
  declaredArgs : ∀ m ∈ ms, ∀ a ∈ m.args, Declared valid a.2
  declaredRets : ∀ m ∈ ms, DeclaredAll valid m.rets
  /-- the names `Ret0`, `Ret1`, … are valid UTF-8 -/
  ascii : ∀ s : Bytes, (∀ b ∈ s, b.val < 128) → valid s = true

/-- The arguments that arrive as they are: strings, and values that survive JSON. -/
def ArgFaithful (valid : Bytes → Bool) (t : Ty) (v : Val) : Prop := t = .string ∨ Faithful valid t v

/-- All arguments of a call. -/
def ArgsFaithful (valid : Bytes → Bool) : List Ty → List Val → Prop
  | t :: ts, v :: vs => ArgFaithful valid t v ∧ ArgsFaithful valid ts vs
  | _, _ => True

/-- All results of a call. -/
def RetsFaithful (valid : Bytes → Bool) : List Ty → List Val → Prop
  | t :: ts, v :: vs => Faithful valid t v ∧ RetsFaithful valid ts vs
  | _, _ => True

end Verif.Http
