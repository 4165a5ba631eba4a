/-
Model of the typed-result helpers that every in-memory back end uses to deliver a value
into a caller-supplied destination.

Models /repo/runtime/core/backend/reflect.go (lines 9-62).  The compiler has the same
function in /repo/blueprint/pkg/wiring/reflect.go.
-/
namespace Verif.GoValue

/-- Static Go types, as seen by `reflect`.  Simplification: scalar and named types are identified by a
name (`.named "int64"`, `.named "mypkg.User"`), slices carry their element type, and the only interface
type is the empty interface (`any`), which is the one the back ends use. -/
inductive GoType where
  | any
  | named (name : String)
  | slice (elem : GoType)
deriving DecidableEq, Repr

/-- A value stored in a Go `any`: its dynamic type together with its content.
* `nil` is the nil interface (no dynamic type);
* `scalar n p` is a value of the non-slice type named `n` whose content is identified by `p`;
* `slice t vs` is a value of type `[]t` with elements `vs` (for `[]any` an element may be `nil`).
Simplification: nil and empty slices are identified. -/
inductive GoVal where
  | nil
  | scalar (type : String) (payload : Int)
  | slice (elem : GoType) (vs : List GoVal)
deriving Repr

mutual
/-- Boolean equality of Go values. -/
def GoVal.beq : GoVal → GoVal → Bool
  | .nil, .nil => true
  | .scalar a x, .scalar b y => a == b && x == y
  | .slice s xs, .slice t ys => decide (s = t) && GoVal.beqList xs ys
  | _, _ => false
/-- Boolean equality of lists of Go values. -/
def GoVal.beqList : List GoVal → List GoVal → Bool
  | [], [] => true
  | x :: xs, y :: ys => GoVal.beq x y && GoVal.beqList xs ys
  | _, _ => false
end

/-- `reflect.ValueOf(v).Type()`; `none` for the nil interface, where the Go call panics. -/
def GoVal.dynType? : GoVal → Option GoType
  | .nil => none
  | .scalar t _ => some (.named t)
  | .slice e _ => some (.slice e)

/-- `reflect.Type.AssignableTo` restricted to the modelled types: identical types, or anything to
`any`. -/
def assignable (src dst : GoType) : Bool := dst = .any || src = dst

/-- The zero value of a Go type. -/
def GoType.zero : GoType → GoVal
  | .any => .nil
  | .named n => .scalar n 0
  | .slice e => .slice e []

/-- A destination argument `dst any`: not a pointer, a nil pointer, or a pointer to a variable of
type `t` whose current content is `cur`. -/
inductive Dst where
  | notPointer
  | nilPointer
  | ptr (t : GoType) (cur : GoVal)
deriving Repr

/-- How a call ends: normally, with a Go error, or with a run-time panic. -/
inductive Outcome where
  | ok
  | err
  | panic
deriving DecidableEq, Repr

/-- The ways a call can fail. -/
inductive Fail where
  | err
  | panic
deriving DecidableEq, Repr

/-- A failure seen as the outcome of a call. -/
def Fail.toOutcome : Fail → Outcome
  | .err => .err
  | .panic => .panic

mutual
/-- The body of `CopyResult` for a destination variable of type `t`: the value to be stored, or the
failure (reflect.go lines 27-49).  The store itself is done by `copyResult`. -/
def copyTo (src : GoVal) (t : GoType) : Except Fail GoVal :=
  match t, src with
  | .slice e, .slice _ vs =>                      -- lines 30-42: both are slices
      match copyElems vs e with
      | .ok ws => .ok (.slice e ws)
      | .error o => .error o
  | .slice _, .nil => .error .panic               -- line 44: `src_val.Type()` on the zero Value
  | .named _, .nil => .error .panic
  | .any, .nil => .error .panic
  | .any, v => .ok v                              -- lines 44-48: assignable to `any`
  | .named n, .scalar m p =>
      if assignable (.named m) (.named n) then .ok (.scalar m p) else .error .err
  | .named _, .slice _ _ => .error .err
  | .slice _, .scalar _ _ => .error .err
/-- The element loop (lines 33-40): each element is copied into a fresh element of the destination's
element type; the first failure aborts. -/
def copyElems : List GoVal → GoType → Except Fail (List GoVal)
  | [], _ => .ok []
  | v :: vs, e =>
      match copyTo v e with
      | .error o => .error o
      | .ok w =>
        match copyElems vs e with
        | .error o => .error o
        | .ok ws => .ok (w :: ws)
end

/-- `CopyResult(src, dst)` (reflect.go lines 22-50): the destination after the call and how the call
ended. -/
def copyResult (src : GoVal) (dst : Dst) : Dst × Outcome :=
  match dst with
  | .notPointer => (dst, .err)                    -- lines 24-26
  | .nilPointer => (dst, .err)
  | .ptr t _ =>
    match copyTo src t with
    | .ok v => (.ptr t v, .ok)                    -- `dst_val.Set(...)` on lines 41, 47
    | .error o => (dst, o.toOutcome)

/-- `SetZero(dst)` (reflect.go lines 55-62). -/
def setZero (dst : Dst) : Dst × Outcome :=
  match dst with
  | .notPointer => (dst, .err)
  | .nilPointer => (dst, .err)
  | .ptr t _ => (.ptr t t.zero, .ok)

/-- `GetPointerValue(val)` (reflect.go lines 9-15).  `reflect.Indirect` of a nil pointer is the zero
Value and `.Interface()` panics. -/
def getPointerValue (dst : Dst) : Except Fail GoVal :=
  match dst with
  | .notPointer => .error .err
  | .nilPointer => .error .panic
  | .ptr _ v => .ok v

end Verif.GoValue
