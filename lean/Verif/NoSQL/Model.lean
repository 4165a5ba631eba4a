/-
Model of /repo/runtime/plugins/simplenosqldb (nosqldb.go, query/filter.go, query/parsefilter.go,
query/update.go, query/parseupdate.go).

Simplifications that hold throughout:
* Documents do not share memory with each other, with the caller's values or with cursors: values are
  immutable here and an in-place change replaces the value.
* `float32` and unsigned integers are left out; nil and empty slices are not distinguished.
* The `String` methods and verbose output are left out.
-/
namespace Verif.NoSQL

abbrev Name := List Char

/-- What the code takes from Go and its libraries: `float64` arithmetic and comparison, regular
expressions, and how much room `append` adds when it reallocates a slice of the given length.
Nothing is assumed about them. -/
class Host (F : Type) where
  ofInt : Int → F
  feq : F → F → Bool
  flt : F → F → Bool
  fle : F → F → Bool
  fadd : F → F → F
  /-- `regexp.Compile` and `MatchString` -/
  regex : Name → Option (Name → Bool)
  room : Nat → Nat
  /-- the same for a slice decoded from BSON -/
  decodeRoom : Nat → Nat

/-- Go's signed integer types. -/
inductive IntKind where
  | int | int8 | int16 | int32 | int64
deriving DecidableEq

def IntKind.bits : IntKind → Nat
  | .int => 64 | .int8 => 8 | .int16 => 16 | .int32 => 32 | .int64 => 64

/-- Two's complement wrap-around of a signed integer of a kind. -/
def IntKind.wrap (k : IntKind) (v : Int) : Int :=
  (v + 2 ^ (k.bits - 1)) % 2 ^ k.bits - 2 ^ (k.bits - 1)

/-- A value in a document or query.  `arr` is a `bson.A` with the contents of the capacity beyond its length;
`bad` is a `bson.E` or `bson.M`; `other` any other type that is compared by equality. -/
inductive Value (F : Type) where
  | null
  | bool (b : Bool)
  | int (k : IntKind) (v : Int)
  | float (f : F)
  | str (s : Name)
  | oid (n : Nat)
  | other (n : Nat)
  | doc (fs : List (Name × Value F))
  | arr (es spare : List (Value F))
  | bad

/-- A document: `bson.D`. -/
abbrev Doc (F : Type) := List (Name × Value F)

variable {F : Type} [Host F]

/-! ### Reading values -/

/-- `intValue` (filter.go lines 429-444). -/
def intValue : Value F → Option Int
  | .int _ v => some v
  | _ => none

/-- `floatValue` (lines 446-465). -/
def floatValue : Value F → Option F
  | .int _ v => some (Host.ofInt v)
  | .float f => some f
  | _ => none

mutual
/-- `reflect.DeepEqual` on values. -/
def deepEq : Value F → Value F → Bool
  | .null, .null => true
  | .bool a, .bool b => a == b
  | .int k a, .int k' b => k == k' && a == b
  | .float a, .float b => Host.feq a b
  | .str a, .str b => a == b
  | .oid a, .oid b => a == b
  | .other a, .other b => a == b
  | .doc a, .doc b => deepEqFields a b
  | .arr a _, .arr b _ => deepEqList a b
  | _, _ => false
def deepEqFields : List (Name × Value F) → List (Name × Value F) → Bool
  | [], [] => true
  | (k, a) :: as, (k', b) :: bs => k == k' && deepEq a b && deepEqFields as bs
  | _, _ => false
def deepEqList : List (Value F) → List (Value F) → Bool
  | [], [] => true
  | a :: as, b :: bs => deepEq a b && deepEqList as bs
  | _, _ => false
end

/-- The value of the first element of a `bson.D` with the key. -/
def field (k : Name) : Doc F → Option (Value F)
  | [] => none
  | (k', v) :: d => if k' = k then some v else field k d

/-! ### Filters -/

inductive Cmp where
  | eq | gt | gte | lt | lte
deriving DecidableEq

/-- `Filter` (filter.go lines 18-80).  `elemMatch` is left out: the parser never makes one. -/
inductive Filter (F : Type) where
  | select (fieldName : Name) (next : Filter F)
  | index (i : Int) (next : Filter F)
  | broadcast (next : Filter F)
  | equals (value : Value F)
  | cmpInt (value : Int) (cmp : Cmp)
  | cmpFloat (value : F) (cmp : Cmp)
  | and (filters : List (Filter F))
  | or (filters : List (Filter F))
  | not (filter : Filter F)
  | exists
  | exactFieldMatch (fields : List Name)
  | regex (re : Name → Bool)
  | all (values : List (Filter F))

/-- The switch in `cmpInt.Apply` (lines 223-239). -/
def cmpInts : Cmp → Int → Int → Bool
  | .eq, v, w => v == w
  | .gt, v, w => decide (v > w)
  | .gte, v, w => decide (v ≥ w)
  | .lt, v, w => decide (v < w)
  | .lte, v, w => decide (v ≤ w)

/-- The switch in `cmpFloat.Apply` (lines 241-257). -/
def cmpFloats : Cmp → F → F → Bool
  | .eq, v, w => Host.feq v w
  | .gt, v, w => Host.flt w v
  | .gte, v, w => Host.fle w v
  | .lt, v, w => Host.flt v w
  | .lte, v, w => Host.fle v w

/-- A loop that returns true at the first element for which `p` is true; `none` for a panic. -/
def anyM {α : Type} (p : α → Option Bool) : List α → Option Bool
  | [] => some false
  | a :: l => match p a with
    | none => none
    | some true => some true
    | some false => anyM p l

mutual
/-- `Apply` (filter.go lines 188-338): `none` is a panic (index out of range). -/
def Filter.eval : Filter F → Value F → Option Bool
  | .select k next, item => match item with
    | .doc d => match field k d with
      | some v => next.eval v
      | none => some false
    | _ => some false
  | .index i next, item => match item with
    | .arr es _ => if i < es.length then
        if i < 0 then none else match es[i.toNat]? with
          | some v => next.eval v
          | none => none
      else some false
    | _ => some false
  | .broadcast next, item => match item with
    | .arr es _ => anyM (fun e => next.eval e) es
    | v => next.eval v
  | .equals value, item => some (deepEq item value)
  | .cmpInt w c, item => match intValue item with
    | some v => some (cmpInts c v w)
    | none => some false
  | .cmpFloat w c, item => match floatValue item with
    | some v => some (cmpFloats c v w)
    | none => some false
  | .and fs, item => Filter.evalAnd fs item
  | .or fs, item => Filter.evalOr fs item
  | .not f, item => (f.eval item).map (!·)
  | .exists, _ => some true
  | .exactFieldMatch ks, item => match item with
    | .doc d => some (d.all fun e => ks.contains e.1)
    | _ => some false
  | .regex re, item => match item with
    | .str s => some (re s)
    | _ => some false
  | .all fs, item => match item with
    | .arr es _ => Filter.evalAll fs es
    | _ => some false
/-- the loop of `and.Apply` (lines 259-266) -/
def Filter.evalAnd : List (Filter F) → Value F → Option Bool
  | [], _ => some true
  | f :: fs, item => match f.eval item with
    | none => none
    | some false => some false
    | some true => Filter.evalAnd fs item
/-- the loop of `or.Apply` (lines 268-275) -/
def Filter.evalOr : List (Filter F) → Value F → Option Bool
  | [], _ => some false
  | f :: fs, item => match f.eval item with
    | none => none
    | some true => some true
    | some false => Filter.evalOr fs item
/-- the loops of `all.Apply` (lines 306-321) -/
def Filter.evalAll : List (Filter F) → List (Value F) → Option Bool
  | [], _ => some true
  | f :: fs, es => match anyM (fun e => f.eval e) es with
    | none => none
    | some false => some false
    | some true => Filter.evalAll fs es
end

/-- `And` (lines 137-146). -/
def mkAnd : List (Filter F) → Filter F
  | [] => .exists
  | [f] => f
  | fs => .and fs

/-- `Or` (lines 148-157). -/
def mkOr : List (Filter F) → Filter F
  | [] => .exists
  | [f] => f
  | fs => .or fs

/-- `Equals` (lines 119-127). -/
def mkEquals (v : Value F) : Filter F :=
  match intValue v with
  | some i => .cmpInt i .eq
  | none => match floatValue v with
    | some f => .cmpFloat f .eq
    | none => .equals v

/-! ### Selectors -/

/-- `strings.Split(selector, ".")`. -/
def splitDots : Name → List Name
  | [] => [[]]
  | c :: cs => if c = '.' then [] :: splitDots cs else
    match splitDots cs with
    | [] => [[c]]
    | p :: ps => (c :: p) :: ps

/-- The value of decimal digits, or `none` if there is another character. -/
def digits : Nat → Name → Option Nat
  | acc, [] => some acc
  | acc, c :: cs => if c.isDigit then digits (10 * acc + (c.toNat - '0'.toNat)) cs else none

/-- `strconv.Atoi`: an optional sign, at least one digit, within the range of `int`. -/
def atoi (s : Name) : Option Int :=
  let unsigned (ds : Name) : Option Nat := if ds = [] then none else digits 0 ds
  match s with
  | '-' :: ds => (unsigned ds).bind fun n => if n ≤ 2 ^ 63 then some (-(n : Int)) else none
  | '+' :: ds => (unsigned ds).bind fun n => if n < 2 ^ 63 then some n else none
  | ds => (unsigned ds).bind fun n => if n < 2 ^ 63 then some n else none

/-- The loop of `Lookup` (filter.go lines 92-105) from the piece at hand on. -/
def lookupPieces : Bool → List Name → Filter F → Filter F
  | _, [], next => next
  | first, p :: ps, next =>
    let next := lookupPieces false ps next
    match atoi p with
    | some j => .index j next
    | none => if first then .select p next else .broadcast (.select p next)

def lookup (selector : Name) (next : Filter F) : Filter F := lookupPieces true (splitDots selector) next

/-! ### Parsing filters -/

/-- `strings.HasPrefix(key, "$")` -/
def isOp : Name → Bool
  | '$' :: _ => true
  | _ => false

def kAnd : Name := ['$', 'a', 'n', 'd']
def kOr : Name := ['$', 'o', 'r']
def kNor : Name := ['$', 'n', 'o', 'r']
def kNot : Name := ['$', 'n', 'o', 't']
def kAll : Name := ['$', 'a', 'l', 'l']
def kElemMatch : Name := ['$', 'e', 'l', 'e', 'm', 'M', 'a', 't', 'c', 'h']
def kExists : Name := ['$', 'e', 'x', 'i', 's', 't', 's']
def kEq : Name := ['$', 'e', 'q']
def kNe : Name := ['$', 'n', 'e']
def kGt : Name := ['$', 'g', 't']
def kGte : Name := ['$', 'g', 't', 'e']
def kLt : Name := ['$', 'l', 't']
def kLte : Name := ['$', 'l', 't', 'e']
def kIn : Name := ['$', 'i', 'n']
def kRegex : Name := ['$', 'r', 'e', 'g', 'e', 'x']
def kId : Name := ['_', 'i', 'd']

mutual
/-- `parseValue` (parsefilter.go lines 86-99): `none` is an error. -/
def parseValue : Value F → Option (Filter F)
  | .doc d => (parseFields d).map fun fs => mkAnd (fs ++ [.exactFieldMatch (d.map (·.1))])
  | .arr es _ => (parseElems 0 es).map mkAnd
  | .bad => none
  | v => some (mkEquals v)
/-- the loop of `parseValues` (lines 62-84), before the exact field match -/
def parseFields : List (Name × Value F) → Option (List (Filter F))
  | [] => some []
  | (k, v) :: d =>
    if isOp k || k.contains '.' then none
    else match parseValue v with
      | none => none
      | some f => (parseFields d).map fun fs => .select k f :: fs
/-- the loop of `parseArrayValues` (lines 101-132): an array in the array is always an error -/
def parseElems : Nat → List (Value F) → Option (List (Filter F))
  | _, [] => some []
  | i, v :: es =>
    match v with
    | .arr _ _ => none
    | v => match parseValue v with
      | none => none
      | some f => (parseElems (i + 1) es).map fun fs => .index i f :: fs
end

/-- `parseNumericOperator` (lines 396-425): `none` when there is nothing to report. -/
def parseNumericOperator (k : Name) (v : Value F) : Option (Filter F) :=
  let cmp : Option Cmp :=
    if k = kEq then some .eq else if k = kGt then some .gt else if k = kGte then some .gte
    else if k = kLt then some .lt else if k = kLte then some .lte else none
  match intValue v with
  | some i => cmp.map (.cmpInt i)
  | none => match floatValue v with
    | some f => cmp.map (.cmpFloat f)
    | none => none

/-- `parseValueOperator` (lines 337-394). -/
def parseValueOperator (k : Name) (v : Value F) : Option (Filter F) :=
  match parseNumericOperator k v with
  | some f => some f
  | none =>
    if k = kEq then parseValue v
    else if k = kNe then (parseValue v).map .not
    else if k = kIn then
      match v with
      | .arr [] _ => some (.not .exists)
      | .arr es _ => (es.mapM parseValue).map mkOr
      | .doc [] => some (.not .exists)      -- a `bson.D` is a slice of `bson.E`
      | _ => none
    else if k = kRegex then
      match v with
      | .str s => (Host.regex F s).map .regex
      | _ => none
    else none

/-- `parseValueOperators` (lines 324-335). -/
def parseValueOperators (d : Doc F) : Option (Filter F) :=
  (d.mapM fun e => parseValueOperator e.1 e.2).map mkAnd

/-- `parseExistsOperators` (lines 304-319): `none` is an error, `some none` no filter. -/
def parseExistsOperators : Doc F → Option (Option (Filter F))
  | [] => some none
  | (k, v) :: d =>
    if k = kExists then
      match v with
      | .bool false => some (some (.not (lookup k .exists)))
      | .bool true => some none
      | _ => none
    else parseExistsOperators d

mutual
/-- `parseQuery` (lines 43-53) before the conjunction. -/
def parseConds : List (Name × Value F) → Option (List (Filter F))
  | [] => some []
  | (k, v) :: d => match parseCond k v with
    | none => none
    | some f => (parseConds d).map (f :: ·)
/-- `parseFilterCondition` (lines 137-194) with `parseLogicalOperator` (lines 199-241). -/
def parseCond : Name → Value F → Option (Filter F)
  | k, v =>
    if k = kAnd then match v with
      | .arr es _ => (parseQueries es).map mkAnd
      | _ => none
    else if k = kNot then match v with
      | .doc d => (parseConds d).map fun fs => .not (mkAnd fs)
      | _ => none
    else if k = kOr then match v with
      | .arr es _ => (parseQueries es).map mkOr
      | _ => none
    else if k = kNor then match v with
      | .arr es _ => (parseQueries es).map fun fs => .not (mkOr fs)
      | _ => none
    else if isOp k then none
    else match v with
      | .doc d =>
        if d.any (fun e => isOp e.1) then
          match parseArrayOps d with
          | none => none
          | some [] => match parseExistsOperators d with
            | none => none
            | some (some f) => some f
            | some none => (parseValueOperators d).map fun f => lookup k (.broadcast f)
          | some fs => if fs.length ≠ d.length then none else some (lookup k (mkAnd fs))
        else (parseValue (.doc d)).map fun f => lookup k (.broadcast f)
      | .arr es sp => (parseValue (.arr es sp)).map fun f => lookup k f
      | .bad => none
      | v => some (lookup k (.broadcast (mkEquals v)))
/-- `parseQueries` (lines 27-41). -/
def parseQueries : List (Value F) → Option (List (Filter F))
  | [] => some []
  | v :: es => match v with
    | .doc d => match parseConds d with
      | none => none
      | some fs => (parseQueries es).map (mkAnd fs :: ·)
    | _ => none
/-- the loop of `parseArrayOperators` with `parseArrayOperator` (lines 249-300); `$size` gives no filter -/
def parseArrayOps : List (Name × Value F) → Option (List (Filter F))
  | [] => some []
  | (k, v) :: d =>
    if k = kAll then match v with
      | .arr es _ => match es.mapM parseValue with
        | none => none
        | some fs => (parseArrayOps d).map (.all fs :: ·)
      | _ => none
    else if k = kElemMatch then match v with
      | .doc q => match parseConds q with
        | none => none
        | some fs => (parseArrayOps d).map (.broadcast (mkAnd fs) :: ·)
      | _ => none
    else parseArrayOps d
end

/-- `ParseFilter` (line 15). -/
def parseFilter (q : Doc F) : Option (Filter F) := (parseConds q).map mkAnd

/-! ### Updates -/

/-- How an operation ends. -/
inductive Outcome where
  | ok | error | panic
deriving DecidableEq

/-- `Update` (update.go lines 15-70), without `updateall`, which is the list of updates in `parseUpdate`. -/
inductive Update (F : Type) where
  | set (value : Value F)
  | push (value : Value F)
  | addToSet (value : Value F)
  | pull (filter : Filter F)
  | unsetField (fieldName : Name)
  | unsetElement (index : Int)
  | incInt (amount : Int)
  | field (fieldName : Name) (createIfAbsent : Bool) (update : Update F)
  | index (index : Int) (createIfAbsent : Bool) (update : Update F)
  | broadcast (update : Update F)

/-- `append(a, v)` -/
def appendTo (es spare : List (Value F)) (v : Value F) : Value F :=
  match spare with
  | [] => .arr (es ++ [v]) (List.replicate (Host.room F es.length) .null)
  | _ :: spare => .arr (es ++ [v]) spare

/-- Replaces the value of the first element with the key. -/
def setField (k : Name) (v : Value F) : Doc F → Doc F
  | [] => []
  | (k', w) :: d => if k' = k then (k', v) :: d else (k', w) :: setField k v d

/-- Removes the first element with the key. -/
def eraseField (k : Name) : Doc F → Doc F
  | [] => []
  | (k', w) :: d => if k' = k then d else (k', w) :: eraseField k d

/-- The elements for which the filter does not hold; `none` for a panic. -/
def reject (f : Filter F) : List (Value F) → Option (List (Value F))
  | [] => some []
  | v :: es => match f.eval v with
    | none => none
    | some b => (reject f es).map fun rest => if b then rest else v :: rest

/-- `itemVal == nil` -/
def isNull : Value F → Bool
  | .null => true
  | _ => false

/-- `Apply` (update.go lines 167-447) on the value behind the pointer: the value afterwards and how the call
ended.  `broadcast` never sees a pointer to a slice: it is only used below the top level, where pointers are
to interfaces. -/
def Update.apply : Update F → Value F → Value F × Outcome
  | .set v, item => match v with
    | .null => (item, .panic)                       -- `Set` of the zero `reflect.Value`
    | v => (v, .ok)
  | .push v, item => match item with
    | .null => (appendTo [] [] v, .ok)
    | .arr es sp => (appendTo es sp v, .ok)
    | _ => (item, .error)
  | .addToSet v, item => match item with
    | .null => (appendTo [] [] v, .ok)
    | .arr es sp => if es.any (deepEq v) then (item, .ok) else (appendTo es sp v, .ok)
    | _ => (item, .error)
  | .pull f, item => match item with
    | .null => (item, .ok)
    | .arr es _ => match reject f es with
      | none => (item, .panic)
      | some kept =>
        if kept.length = es.length then (item, .ok)
        else (.arr kept (List.replicate (Host.room F kept.length) .null), .ok)
    | _ => (item, .error)
  | .unsetField k, item => match item with
    | .null => (item, .ok)
    | .doc d => (.doc (eraseField k d), .ok)
    | _ => (item, .error)
  | .unsetElement i, item => match item with
    | .null => (item, .ok)
    | .arr es sp => if i < es.length then
        if i < 0 then (item, .panic) else (.arr (es.set i.toNat .null) sp, .ok)
      else (item, .ok)
    | _ => (item, .error)
  | .incInt n, item => match item with
    | .null => (.int .int64 (IntKind.int64.wrap n), .ok)
    | .int k v => (.int k (k.wrap (v + n)), .ok)
    | .float f => (.float (Host.fadd f (Host.ofInt n)), .ok)
    | _ => (item, .error)
  | .field k create u, item =>
    let d? : Option (Doc F) := match item with
      | .null => some []
      | .doc d => some d
      | _ => none
    match d? with
    | none => (item, .error)
    | some d => match NoSQL.field k d with
      | some v =>
        let (v', o) := u.apply v
        (.doc (setField k v' d), o)
      | none =>
        if !create then (item, .ok)
        else
          let (v', o) := u.apply .null
          if o = .ok then (.doc (d ++ [(k, v')]), .ok) else (item, o)
  | .index i create u, item =>
    let a? : Option (List (Value F) × List (Value F)) := match item with
      | .null => some ([], [])
      | .arr es sp => some (es, sp)
      | _ => none
    match a? with
    | none => (item, .error)
    | some (es, sp) =>
      if !create && (isNull item || (es.length : Int) ≤ i) then (item, .ok)
      else if i < 0 then (item, .panic)
      else
        let full := if es.length + sp.length ≤ i.toNat
          then es ++ List.replicate (i.toNat + 1 - es.length) .null else es ++ sp
        match full[i.toNat]? with
        | none => (item, .panic)
        | some v =>
          let (v', o) := u.apply v
          let full := full.set i.toNat v'
          if o = .ok then (.arr (full.take (i.toNat + 1)) (full.drop (i.toNat + 1)), .ok)
          else if i.toNat < es.length then (.arr (es.set i.toNat v') sp, o)
          else (item, o)
  | .broadcast u, item => u.apply item

/-- `updateall.Apply` (lines 420-427). -/
def applyAll : List (Update F) → Value F → Value F × Outcome
  | [], item => (item, .ok)
  | u :: us, item => match u.apply item with
    | (item', .ok) => applyAll us item'
    | r => r

/-! ### Parsing updates -/

/-- The loop of `UpdatePath` (lines 112-125) and of `UnsetPath` (lines 127-148). -/
def pathPieces (create : Bool) : Bool → List Name → Update F → Update F
  | _, [], u => u
  | first, p :: ps, u =>
    let u := pathPieces create false ps u
    match atoi p with
    | some j => .index j create u
    | none => if first then .field p create u else .broadcast (.field p create u)

def updatePath (selector : Name) (u : Update F) : Update F := pathPieces true true (splitDots selector) u

def unsetPath (selector : Name) : Update F :=
  let ps := splitDots selector
  let last := ps.getLastD []
  let u := match atoi last with
    | some i => .unsetElement i
    | none => .unsetField last
  pathPieces false true ps.dropLast u

mutual
/-- `bson.MarshalValue` followed by `bson.UnmarshalValue`: integers become `int32` or `int64`.
Simplification: `bad` values are refused (maps are marshalled in some order by the library). -/
def normalise : Value F → Option (Value F)
  | .int k v =>
    if k = .int64 then some (.int .int64 v)
    else if k = .int ∧ ¬ (-2147483648 ≤ v ∧ v ≤ 2147483647) then some (.int .int64 v)
    else some (.int .int32 v)
  | .doc d => (normaliseFields d).map .doc
  | .arr es _ => (normaliseList es).map fun es => .arr es (List.replicate (Host.decodeRoom F es.length) .null)
  | .bad => none
  | v => some v
def normaliseFields : List (Name × Value F) → Option (List (Name × Value F))
  | [] => some []
  | (k, v) :: d => match normalise v with
    | none => none
    | some v => (normaliseFields d).map ((k, v) :: ·)
def normaliseList : List (Value F) → Option (List (Value F))
  | [] => some []
  | v :: es => match normalise v with
    | none => none
    | some v => (normaliseList es).map (v :: ·)
end

def kSet : Name := ['$', 's', 'e', 't']
def kUnset : Name := ['$', 'u', 'n', 's', 'e', 't']
def kInc : Name := ['$', 'i', 'n', 'c']
def kPush : Name := ['$', 'p', 'u', 's', 'h']
def kPull : Name := ['$', 'p', 'u', 'l', 'l']
def kAddToSet : Name := ['$', 'a', 'd', 'd', 'T', 'o', 'S', 'e', 't']

/-- The check for modifiers in `parsePush`, `parseAddToSet`, `parsePull`. -/
def hasModifiers : Value F → Bool
  | .doc d => d.any fun e => isOp e.1
  | _ => false

/-- One entry of an operator's document: `parseSet`, `parseUnset`, `parseInc`, `parsePush`, `parseAddToSet`,
`parsePull` (parseupdate.go lines 69-212). -/
def parseUpdateEntry (op : Name) (k : Name) (v : Value F) : Option (Update F) :=
  if op = kSet then (normalise v).map fun v => updatePath k (.set v)
  else if op = kUnset then some (unsetPath k)
  else if op = kInc then match v with
    | .int _ n => some (updatePath k (.incInt n))
    | _ => none
  else if op = kPush then
    if hasModifiers v then none else (normalise v).map fun v => updatePath k (.push v)
  else if op = kAddToSet then
    if hasModifiers v then none else (normalise v).map fun v => updatePath k (.addToSet v)
  else if op = kPull then
    if hasModifiers v then none else
      match v with
      | .doc d => (parseFilter d).map fun f => updatePath k (.pull f)
      | v => some (updatePath k (.pull (mkEquals v)))
  else none

/-- `ParseUpdate` (lines 11-67): the updates of `updateall`, in order. -/
def parseUpdate : Doc F → Option (List (Update F))
  | [] => some []
  | (op, v) :: d => match v with
    | .doc entries => match entries.mapM (fun e => parseUpdateEntry op e.1 e.2) with
      | none => none
      | some us =>
        if op ∈ [kSet, kUnset, kInc, kPush, kPull, kAddToSet] then (parseUpdate d).map (us ++ ·) else none
    | _ => none

/-! ### Collections (nosqldb.go) -/

/-- What a call returns. -/
inductive Ret (α : Type) where
  | ok (a : α)
  | error
  | panic
deriving DecidableEq

/-- A document argument: a `bson.D`, or another Go value with the result of `toBson` (lines 340-348) on
it. -/
inductive Input (F : Type) where
  | raw (d : Doc F)
  | obj (bson : Option (Doc F))

/-- `toBson` (lines 340-348).  For a `bson.D` it normalises integers.  On an error the code uses the nil
document. -/
def Input.toBson : Input F → Option (Doc F)
  | .raw d => normaliseFields d
  | .obj b => b

/-- The loop of `FindMany` (lines 172-183). -/
def findLoop (f : Filter F) : List (Doc F) → Ret (List (Doc F))
  | [] => .ok []
  | d :: ds => match f.eval (.doc d) with
    | none => .panic
    | some b => match findLoop f ds with
      | .ok rest => .ok (if b then d :: rest else rest)
      | r => r

/-- `FindMany` (lines 163-185): the documents of the cursor.  The projection is not used by the code. -/
def findMany (items : List (Doc F)) (q : Doc F) : Ret (List (Doc F)) :=
  match parseFilter q with
  | none => .error
  | some f => findLoop f items

/-- The loop `for i, item := range db.items { if query.Apply(item) { …; return } }` used by `FindOne`,
`DeleteOne`, `UpdateOne` and `ReplaceOne`: the position of the first match. -/
def firstMatch (f : Filter F) : List (Doc F) → Ret (Option Nat)
  | [] => .ok none
  | d :: ds => match f.eval (.doc d) with
    | none => .panic
    | some true => .ok (some 0)
    | some false => match firstMatch f ds with
      | .ok (some i) => .ok (some (i + 1))
      | r => r

/-- `FindOne` (lines 133-152). -/
def findOne (items : List (Doc F)) (q : Doc F) : Ret (Option (Doc F)) :=
  match parseFilter q with
  | none => .error
  | some f => match firstMatch f items with
    | .ok (some i) => .ok items[i]?
    | .ok none => .ok none
    | .error => .error
    | .panic => .panic

/-- `InsertOne` (lines 99-121); `newId` is the fresh identifier. -/
def insertOne (items : List (Doc F)) (doc : Input F) (newId : Nat) : List (Doc F) × Ret Unit :=
  let d? := match doc with
    | .raw d => some d
    | .obj b => b
  match d? with
  | none => (items, .error)
  | some d =>
    let d := if d.any (fun e => e.1 == kId) then d else (kId, .oid newId) :: d
    (items ++ [d], .ok ())

/-- `InsertMany` (lines 123-131), each document with the identifier it would be given. -/
def insertMany (items : List (Doc F)) : List (Input F × Nat) → List (Doc F) × Ret Unit
  | [] => (items, .ok ())
  | (d, i) :: ds => match insertOne items d i with
    | (items', .ok ()) => insertMany items' ds
    | r => r

/-- `DeleteOne` (lines 187-199). -/
def deleteOne (items : List (Doc F)) (q : Doc F) : List (Doc F) × Ret Unit :=
  match parseFilter q with
  | none => (items, .error)
  | some f => match firstMatch f items with
    | .ok (some i) => (items.take i ++ items.drop (i + 1), .ok ())
    | .ok none => (items, .ok ())
    | .error => (items, .error)
    | .panic => (items, .panic)

/-- The loop of `DeleteMany` (lines 208-215): it copies the range from `copyrangebegin` before each match. -/
def deleteLoop (f : Filter F) (items : List (Doc F)) (i copyrangebegin : Nat) (newitems : List (Doc F)) :
    List (Doc F) → Option (Nat × List (Doc F))
  | [] => some (copyrangebegin, newitems)
  | d :: ds => match f.eval (.doc d) with
    | none => none
    | some false => deleteLoop f items (i + 1) copyrangebegin newitems ds
    | some true =>
      deleteLoop f items (i + 1) (i + 1)
        (if i > copyrangebegin then newitems ++ (items.drop copyrangebegin).take (i - copyrangebegin)
          else newitems) ds

/-- `DeleteMany` (lines 201-222). -/
def deleteMany (items : List (Doc F)) (q : Doc F) : List (Doc F) × Ret Unit :=
  match parseFilter q with
  | none => (items, .error)
  | some f =>
    match deleteLoop f items 0 0 [] items with
    | none => (items, .panic)
    | some (begin, newitems) =>
      (if begin < items.length then newitems ++ (items.drop begin).take (items.length - begin) else newitems,
        .ok ())

/-- The document behind `&db.items[i]` after an update. -/
def asDoc : Value F → Doc F
  | .doc d => d
  | _ => []

/-- `UpdateOne` (lines 224-251): the collection, the count and how the call ended. -/
def updateOne (items : List (Doc F)) (q u : Doc F) : List (Doc F) × Nat × Outcome :=
  match parseFilter q with
  | none => (items, 0, .error)
  | some f => match parseUpdate u with
    | none => (items, 0, .error)
    | some us => match firstMatch f items with
      | .ok (some i) => match items[i]? with
        | some d => let (v, o) := applyAll us (.doc d); (items.set i (asDoc v), 1, o)
        | none => (items, 0, .ok)
      | .ok none => (items, 0, .ok)
      | .error => (items, 0, .error)
      | .panic => (items, 0, .panic)

/-- The loop of `UpdateMany` (lines 269-287). -/
def updateLoop (f : Filter F) (us : List (Update F)) (updated : Nat) :
    List (Doc F) → List (Doc F) × Nat × Outcome
  | [] => ([], updated, .ok)
  | d :: ds => match f.eval (.doc d) with
    | none => (d :: ds, updated, .panic)
    | some false => let (ds', n, o) := updateLoop f us updated ds; (d :: ds', n, o)
    | some true => match applyAll us (.doc d) with
      | (v, .ok) => let (ds', n, o) := updateLoop f us (updated + 1) ds; (asDoc v :: ds', n, o)
      | (v, o) => (asDoc v :: ds, updated, o)

/-- `UpdateMany` (lines 253-289). -/
def updateMany (items : List (Doc F)) (q u : Doc F) : List (Doc F) × Nat × Outcome :=
  match parseFilter q with
  | none => (items, 0, .error)
  | some f => match parseUpdate u with
    | none => (items, 0, .error)
    | some us => updateLoop f us 0 items

/-- `ReplaceOne` (lines 308-320): on a conversion error the item becomes the nil document. -/
def replaceOne (items : List (Doc F)) (q : Doc F) (doc : Input F) : List (Doc F) × Nat × Outcome :=
  match parseFilter q with
  | none => (items, 0, .error)
  | some f => match firstMatch f items with
    | .ok (some i) => match doc.toBson with
      | some d => (items.set i d, 1, .ok)
      | none => (items.set i [], 1, .error)
    | .ok none => (items, 0, .ok)
    | .error => (items, 0, .error)
    | .panic => (items, 0, .panic)

/-- The loop of `ReplaceMany` (lines 328-336). -/
def replaceLoop (f : Filter F) (count : Nat) :
    List (Input F) → List (Doc F) → List (Doc F) × Nat × Outcome
  | [], ds => (ds, count, .ok)
  | _, [] => ([], count, .ok)
  | r :: rs, d :: ds => match f.eval (.doc d) with
    | none => (d :: ds, count, .panic)
    | some false => let (ds', n, o) := replaceLoop f count (r :: rs) ds; (d :: ds', n, o)
    | some true => match r.toBson with
      | some d' => let (ds', n, o) := replaceLoop f (count + 1) rs ds; (d' :: ds', n, o)
      | none => ([] :: ds, count, .error)

/-- `ReplaceMany` (lines 322-338): an error in the filter is not reported. -/
def replaceMany (items : List (Doc F)) (q : Doc F) (docs : List (Input F)) : List (Doc F) × Nat × Outcome :=
  match parseFilter q with
  | none => (items, 0, .ok)
  | some f => replaceLoop f 0 docs items

/-- `Upsert` (lines 291-297): the collection, whether a document was replaced, and how the call ended. -/
def upsert (items : List (Doc F)) (q : Doc F) (doc : Input F) (newId : Nat) : List (Doc F) × Bool × Outcome :=
  match replaceOne items q doc with
  | (items', n, .ok) =>
    if n = 1 then (items', true, .ok)
    else match insertOne items' doc newId with
      | (items'', .ok ()) => (items'', false, .ok)
      | (items'', .error) => (items'', false, .error)
      | (items'', .panic) => (items'', false, .panic)
  | (items', _, o) => (items', true, o)

/-- `UpsertID` (lines 299-306). -/
def upsertID (items : List (Doc F)) (id : Nat) (doc : Input F) (newId : Nat) : List (Doc F) × Bool × Outcome :=
  upsert items [(kId, .oid id)] doc newId

end Verif.NoSQL
