import Verif.Grpc.Model
/-
The notions in which the gRPC properties are stated: the fields of a Go struct, the values of
a Go type, the types that a type mentions, and the classes of types that matter.
-/
namespace Verif.Grpc

/-- The name of an embedded type. -/
def embeddedName : Ty → List Char
  | .user t => t.name
  | .pointer t => embeddedName t
  | _ => []

/-- The fields of a Go struct: every name of every line, and embedded types under the name of
their type. -/
def structFields (ds : List FieldDecl) : List (List Char × Ty) :=
  ds.flatMap fun d => match d.names with
    | [] => [(embeddedName d.ty, d.ty)]
    | names => names.map fun x => (x, d.ty)

/-- The integers of a Go type. -/
def InRange (b : Basic) (i : Int) : Prop :=
  match b with
  | .int | .int64 => -9223372036854775808 ≤ i ∧ i < 9223372036854775808
  | .int8 => -128 ≤ i ∧ i < 128
  | .int16 => -32768 ≤ i ∧ i < 32768
  | .int32 | .rune => -2147483648 ≤ i ∧ i < 2147483648
  | .uint | .uint64 | .uintptr => 0 ≤ i ∧ i < 18446744073709551616
  | .uint8 | .byte => 0 ≤ i ∧ i < 256
  | .uint16 => 0 ≤ i ∧ i < 65536
  | .uint32 => 0 ≤ i ∧ i < 4294967296
  | _ => False

/-- The values of a basic type. -/
def PrimOf : Basic → Prim → Prop
  | .bool, .bool _ => True
  | .string, .str _ => True
  | .float32, .float bits => bits < 4294967296
  | .float64, .float bits => bits < 18446744073709551616
  | b, .int i => InRange b i
  | _, _ => False

/-- The values of a type.  A struct value lists its fields in the order of the
declaration. -/
inductive HasType (env : UserTy → Option (List FieldDecl)) : Ty → Val → Prop
  | prim {b p} : PrimOf b p → HasType env (.basic b) (.prim p)
  | struct {t ds fields} : env t = some ds →
      fields.map (·.1) = (structFields ds).map (·.1) →
      (∀ x τ v, (x, τ) ∈ structFields ds → (x, v) ∈ fields → HasType env τ v) →
      HasType env (.user t) (.struct fields)
  | nil {τ} : HasType env (.pointer τ) .nil
  | ptr {τ v} : HasType env τ v → HasType env (.pointer τ) (.ptr v)
  | map {κ τ es} : (es.map (·.1)).Nodup → (∀ k v, (k, v) ∈ es → HasType env κ (.prim k)) →
      (∀ k v, (k, v) ∈ es → HasType env τ v) → HasType env (.map κ τ) (.map es)
  | slice {τ vs} : (∀ v ∈ vs, HasType env τ v) → HasType env (.slice τ) (.slice vs)

/-- A list of variables with their values. -/
def Typed (env : UserTy → Option (List FieldDecl)) (vars : List (List Char × Ty))
    (vals : List (List Char × Val)) : Prop :=
  vals.map (·.1) = vars.map (·.1) ∧
  ∀ x τ v, (x, τ) ∈ vars → (x, v) ∈ vals → HasType env τ v

/-- The arguments (or results) of a method with names: unnamed ones are called `ret` and
their index. -/
def named (i : Nat) : List (List Char × Ty) → List (List Char × Ty)
  | [] => []
  | (x, τ) :: l => ((if x = [] then "ret".toList ++ (toString i).toList else x), τ) :: named (i + 1) l

/-- The struct `t` is mentioned in a type. -/
def Mentions (t : UserTy) : Ty → Prop
  | .user u => u = t
  | .pointer τ => Mentions t τ
  | .map κ τ => Mentions t κ ∨ Mentions t τ
  | .slice τ => Mentions t τ
  | _ => False

/-- The structs that values of a type may contain: those mentioned in the type, and those
mentioned in the types of their fields.  Embedded types are left out. -/
inductive Reach (env : UserTy → Option (List FieldDecl)) (τ : Ty) : UserTy → Prop
  | here {t} : Mentions t τ → Reach env τ t
  | field {t ds d u} : Reach env τ t → env t = some ds → d ∈ ds → d.names ≠ [] →
      Mentions u d.ty → Reach env τ u

/-- `P` holds for a type, and for the types of all fields of the structs in it, which are all
declared. -/
def Everywhere (env : UserTy → Option (List FieldDecl)) (P : Ty → Prop) (τ : Ty) : Prop :=
  P τ ∧ ∀ t, Reach env τ t → ∃ ds, env t = some ds ∧ ∀ d ∈ ds, d.names ≠ [] → P d.ty

/-- The types of all arguments and results. -/
def methodTypes (ms : List Method) : List Ty :=
  ms.flatMap fun m => m.args.map (·.2) ++ m.rets.map (·.2)

/-- The basic types that the generator knows. -/
def KnownBasic (b : Basic) : Prop :=
  b ≠ .complex64 ∧ b ≠ .complex128 ∧ b ≠ .uintptr ∧ b ≠ .error

/-- A struct or a basic type that the generator knows. -/
def Simple : Ty → Prop
  | .user _ => True
  | .basic b => KnownBasic b
  | _ => False

/-- The types for which code is generated: simple types, pointers to them, slices of them, and
maps to them from booleans, strings and integers. -/
def Supported : Ty → Prop
  | .pointer τ => Simple τ
  | .slice τ => Simple τ
  | .map (.basic b) τ => KnownBasic b ∧ b ≠ .byte ∧ b ≠ .rune ∧ b ≠ .float32 ∧ b ≠ .float64 ∧ Simple τ
  | τ => Simple τ

/-- The basic types that protobuf has too. -/
def ProtoBasic (b : Basic) : Prop :=
  b = .bool ∨ b = .string ∨ b = .int32 ∨ b = .int64 ∨ b = .uint32 ∨ b = .uint64 ∨
    b = .float32 ∨ b = .float64

/-- The types for which the generated code compiles. -/
def Compilable : Ty → Prop
  | .user _ => True
  | .basic b => KnownBasic b ∧ b ≠ .byte ∧ b ≠ .rune
  | .pointer (.user _) => True
  | .slice (.user _) => True
  | .slice (.basic b) => b = .byte ∨ ProtoBasic b
  | .map (.basic k) (.user _) => ProtoBasic k ∧ k ≠ .float32 ∧ k ≠ .float64
  | .map (.basic k) (.basic b) => ProtoBasic k ∧ k ≠ .float32 ∧ k ≠ .float64 ∧ ProtoBasic b
  | _ => False

/-- No pointers and no maps. -/
def Plain : Ty → Prop
  | .user _ => True
  | .basic _ => True
  | .slice τ => Plain τ
  | _ => False

/-- Every line of the struct declares one field: no embedded types, and no `A, B int`. -/
def OneFieldPerLine (ds : List FieldDecl) : Prop := ∀ d ∈ ds, d.names.length = 1

/-- The types whose values survive: plain types, all of whose structs declare one field per
line. -/
def Faithful (env : UserTy → Option (List FieldDecl)) (τ : Ty) : Prop :=
  Everywhere env Plain τ ∧ ∀ t ds, Reach env τ t → env t = some ds → OneFieldPerLine ds

/-- A letter. -/
def IsLetter (c : Char) : Prop := ('a' ≤ c ∧ c ≤ 'z') ∨ ('A' ≤ c ∧ c ≤ 'Z')

/-- A list of letters and digits in which no lower case letter comes after a digit. -/
def LettersDigits : List Char → Prop
  | [] => True
  | c :: cs => (IsLetter c ∨ ('0' ≤ c ∧ c ≤ '9' ∧ ∀ d ∈ cs.head?, ¬('a' ≤ d ∧ d ≤ 'z'))) ∧ LettersDigits cs

/-- A name that Go and protobuf write in the same way: letters and digits, beginning with a
letter, without a lower case letter after a digit. -/
def PlainName : List Char → Prop
  | [] => False
  | c :: cs => IsLetter c ∧ LettersDigits cs

/-- The names of the fields of a message do not get in each other's way, also when written
with a capital: they are plain, different, none is a name that every message has, and none is
another one with `Get` in front. -/
def NamesOk (xs : List (List Char)) : Prop :=
  (∀ x ∈ xs, PlainName x ∧ title x ∉ reserved) ∧ (xs.map title).Nodup ∧
  ∀ x ∈ xs, ∀ y ∈ xs, title x ≠ "Get".toList ++ title y

/-- The names that occur in the methods and structs of a service `svc`, whose messages are
called after `base`, do not get in each other's way. -/
structure CleanNames (env : UserTy → Option (List FieldDecl)) (svc base : List Char) (ms : List Method) : Prop where
  methods : (ms.map (·.name)).Nodup
  args : ∀ m ∈ ms, NamesOk ((named 0 m.args).map (·.1)) ∧ NamesOk ((named 0 m.rets).map (·.1)) ∧
    ∀ v ∈ named 0 m.args ++ named 0 m.rets, v.1 ≠ "msg".toList
  fields : ∀ τ ∈ methodTypes ms, ∀ t ds, Reach env τ t → env t = some ds →
    NamesOk (ds.filterMap fun d => d.names.head?) ∧
    ∀ d ∈ ds, ∀ x ∈ d.names.head?, ∀ c ∈ x.head?, 'A' ≤ c ∧ c ≤ 'Z'
  structs : ∀ τ ∈ methodTypes ms, ∀ τ' ∈ methodTypes ms, ∀ t t', Reach env τ t → Reach env τ' t' →
    t.name = t'.name → t = t'
  messages : ∀ τ ∈ methodTypes ms, ∀ t, Reach env τ t → ∀ m ∈ ms,
    base ++ '_' :: t.name ≠ svc ++ '_' :: m.name ++ "_Request".toList ∧
    base ++ '_' :: t.name ≠ svc ++ '_' :: m.name ++ "_Response".toList

end Verif.Grpc
