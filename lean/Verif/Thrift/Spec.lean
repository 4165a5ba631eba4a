import Verif.Thrift.Model
/-
The notions in which the Thrift properties are stated, besides those of `Verif.Grpc.Spec`
(the values of a type, the structs that can be reached from a type, …).
-/
namespace Verif.Thrift
open Verif.Grpc

/-- The basic types that the generator knows: not `uint`, `uintptr`, `error` and complex
numbers. -/
def KnownBasic (b : Basic) : Prop :=
  b = .bool ∨ b = .string ∨ b = .int ∨ b = .int8 ∨ b = .int16 ∨ b = .int32 ∨ b = .int64 ∨
    b = .uint8 ∨ b = .uint16 ∨ b = .uint32 ∨ b = .uint64 ∨ b = .float32 ∨ b = .float64 ∨
    b = .byte ∨ b = .rune

/-- A struct or a basic type that the generator knows. -/
def Simple : Ty → Prop
  | .user _ => True
  | .basic b => KnownBasic b
  | _ => False

/-- Everything in the type is known. -/
def Known : Ty → Prop
  | .user _ => True
  | .basic b => KnownBasic b
  | .pointer τ => Known τ
  | .slice τ => Known τ
  | .map κ τ => Known κ ∧ Known τ
  | .other => False

/-- The types for which code is generated: simple types, pointers to them, slices of them, and
maps to them. -/
def Supported : Ty → Prop
  | .pointer τ => Simple τ
  | .slice τ => Simple τ
  | .map κ τ => Known κ ∧ Simple τ
  | τ => Simple τ

/-- The basic types that thrift has too. -/
def ThriftBasic (b : Basic) : Prop :=
  b = .bool ∨ b = .string ∨ b = .int8 ∨ b = .int16 ∨ b = .int32 ∨ b = .int64 ∨ b = .float64

/-- The types for which the generated statements compile. -/
def Compilable : Ty → Prop
  | .user _ => True
  | .basic b => KnownBasic b ∧ b ≠ .int8 ∧ b ≠ .byte ∧ b ≠ .rune
  | .pointer (.user _) => True
  | .slice (.user _) => True
  | .slice (.basic b) => ThriftBasic b
  | .map (.basic k) (.user _) => ThriftBasic k ∧ k ≠ .int8
  | .map (.basic k) (.basic b) => ThriftBasic k ∧ ThriftBasic b
  | _ => False

/-- A type in which `int` is replaced by `int32`. -/
def narrow : Ty → Ty
  | .basic .int => .basic .int32
  | .pointer τ => .pointer (narrow τ)
  | .map κ τ => .map (narrow κ) (narrow τ)
  | .slice τ => .slice (narrow τ)
  | τ => τ

/-- The same in all structs. -/
def narrowEnv (env : UserTy → Option (List FieldDecl)) : UserTy → Option (List FieldDecl) :=
  fun t => (env t).map fun ds => ds.map fun d => ⟨d.names, narrow d.ty⟩

/-- Values of the given types all of whose numbers of type `int` fit into 32 bits: they also
have the types with `int32` instead of `int`. -/
def SmallInts (env : UserTy → Option (List FieldDecl)) (vars : List (List Char × Ty))
    (vals : List (List Char × Val)) : Prop :=
  Typed (narrowEnv env) (vars.map fun v => (v.1, narrow v.2)) vals

/-- The thrift compiler's well-known abbreviations, which it writes in capitals. -/
def abbreviations : List (List Char) :=
  [['i', 'd'], ['u', 'r', 'l'], ['u', 'r', 'i'], ['h', 't', 't', 'p'], ['h', 't', 't', 'p', 's'], ['a', 'p', 'i'],
    ['j', 's', 'o', 'n'], ['x', 'm', 'l'], ['h', 't', 'm', 'l'], ['c', 's', 's'], ['s', 'q', 'l'], ['i', 'p'], ['t', 'c', 'p'],
    ['u', 'd', 'p'], ['d', 'n', 's'], ['t', 'l', 's'], ['s', 's', 'l'], ['c', 'p', 'u'], ['r', 'a', 'm'], ['u', 'u', 'i', 'd']]

/-- The Go name of a thrift field: abbreviations in capitals, and other names with a capital first letter. -/
def goName (x : List Char) : List Char :=
  if x.map Char.toLower ∈ abbreviations then x.map Char.toUpper
  else match x with
    | [] => []
    | c :: cs => c.toUpper :: cs

/-- The names of the fields of a struct, or of the variables of a method, are as the generated
statements expect: they and their capitalised versions are different, and the thrift compiler
capitalises them in the same way. -/
def NamesOk (pub : List Char → List Char) (xs : List (List Char)) : Prop :=
  xs.Nodup ∧ (xs.map goName).Nodup ∧ ∀ x ∈ xs, pub x = goName x

/-- The names that occur in the methods and structs of a service `svc` do not get in each
other's way. -/
structure CleanNames (env : UserTy → Option (List FieldDecl)) (pub : List Char → List Char)
    (svc : List Char) (ms : List Method) : Prop where
  methods : (ms.map (·.name)).Nodup
  args : ∀ m ∈ ms, NamesOk pub ((named 0 m.args).map (·.1)) ∧ NamesOk pub ((named 0 m.rets).map (·.1)) ∧
    ∀ v ∈ named 0 m.args ++ named 0 m.rets, v.1 ∉ hiddenNames (lower svc)
  fields : ∀ τ ∈ methodTypes ms, ∀ t ds, Reach env τ t → env t = some ds →
    NamesOk pub (ds.filterMap fun d => d.names.head?) ∧
    ∀ d ∈ ds, ∀ x ∈ d.names.head?, ∃ c cs, x = c :: cs ∧ 'A' ≤ c ∧ c ≤ 'Z'
  structs : ∀ τ ∈ methodTypes ms, ∀ τ' ∈ methodTypes ms, ∀ t t', Reach env τ t → Reach env τ' t' →
    t.name = t'.name → t = t'
  messages : ∀ τ ∈ methodTypes ms, ∀ t, Reach env τ t → ∀ m ∈ ms,
    t.name ≠ svc ++ '_' :: m.name ++ "_Request".toList ∧
    t.name ≠ svc ++ '_' :: m.name ++ "_Response".toList

/-- The integers of a thrift type. -/
def ThriftHolds : Base → Int → Prop
  | .byte, i => -128 ≤ i ∧ i ≤ 127
  | .i16, i => -32768 ≤ i ∧ i ≤ 32767
  | .i32, i => -2147483648 ≤ i ∧ i ≤ 2147483647
  | .i64, i => -9223372036854775808 ≤ i ∧ i ≤ 9223372036854775807
  | _, _ => False

end Verif.Thrift
