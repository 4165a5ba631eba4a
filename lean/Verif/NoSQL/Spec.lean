import Verif.NoSQL.Model
/-
Vocabulary for the statements about queries.
-/
namespace Verif.NoSQL
variable {F : Type} [Host F]

/-- Whether a query matches a document, observed through the API: `FindMany` on a collection containing only
that document.  `none` if the call fails. -/
def matchesQuery (q d : Doc F) : Option Bool :=
  match findMany [d] q with
  | .ok r => some (!r.isEmpty)
  | _ => none

/-- The query is accepted and matches the document. -/
def Matches (q d : Doc F) : Prop := matchesQuery q d = some true

/-- An ordinary top-level field name: no dots, not a number, not an operator. -/
structure Plain (k : Name) : Prop where
  noDot : '.' ∉ k
  notOp : isOp k = false
  notNumber : atoi k = none

/-- The values a dotted path reaches: a number selects an array element; a name selects a field of a document,
or of every document in an array. -/
def reach : List Name → Value F → List (Value F)
  | [], v => [v]
  | p :: ps, v => match atoi p with
    | some j => match v with
      | .arr es _ => (es[j.toNat]?).toList.flatMap (reach ps)
      | _ => []
    | none => match v with
      | .doc d => (field p d).toList.flatMap (reach ps)
      | .arr es _ => es.flatMap fun e => match e with
        | .doc d => (field p d).toList.flatMap (reach ps)
        | _ => []
      | _ => []

/-- The value itself, and for an array its elements instead. -/
def spread : Value F → List (Value F)
  | .arr es _ => es
  | v => [v]

/-- The values a condition on a selector is tried on. -/
def valuesAt (sel : Name) (d : Doc F) : List (Value F) := (reach (splitDots sel) (.doc d)).flatMap spread

/-- The integers among some values. -/
def ints (vs : List (Value F)) : List Int := vs.filterMap fun
  | .int _ n => some n
  | _ => none

/-- The numbers among some values, as floating point numbers. -/
def floats (vs : List (Value F)) : List F := vs.filterMap fun
  | .int _ n => some (Host.ofInt n)
  | .float f => some f
  | _ => none

/-- A selector for a condition: not an operator, and without negative array positions. -/
structure Selector (sel : Name) : Prop where
  notOp : isOp sel = false
  noNegative : ∀ p ∈ splitDots sel, ∀ j, atoi p = some j → 0 ≤ j

mutual
/-- A value without arrays equals another value: integers by their numbers (whatever their Go type), documents
if they have the same fields with the same values, in any order, everything else by equality. -/
def same : Value F → Value F → Bool
  | .int _ a, .int _ b => a == b
  | .float a, .float b => Host.feq b a
  | .float a, .int _ b => Host.feq (Host.ofInt b) a
  | .null, .null => true
  | .bool a, .bool b => a == b
  | .str a, .str b => a == b
  | .oid a, .oid b => a == b
  | .other a, .other b => a == b
  | .doc a, .doc b => sameFields a b && b.all fun e => (a.map (·.1)).contains e.1
  | _, _ => false
/-- every field of the first document is in the second, with the same value -/
def sameFields : List (Name × Value F) → List (Name × Value F) → Bool
  | [], _ => true
  | (k, x) :: a, b => (match field k b with
    | some y => same x y
    | none => false) && sameFields a b
end

mutual
/-- No arrays inside, and no keys that a query value may not have. -/
def literal : Value F → Bool
  | .arr _ _ => false
  | .bad => false
  | .doc d => literalFields d
  | _ => true
def literalFields : List (Name × Value F) → Bool
  | [] => true
  | (k, v) :: d => !isOp k && !k.contains '.' && literal v && literalFields d
end

mutual
/-- Literals that are equal to themselves: no NaN inside, and no document with a key twice. -/
def storable : Value F → Bool
  | .arr _ _ => false
  | .bad => false
  | .float f => Host.feq f f
  | .doc d => storableFields d
  | _ => true
def storableFields : List (Name × Value F) → Bool
  | [] => true
  | (k, v) :: d => !isOp k && !k.contains '.' && storable v && !(d.map (·.1)).contains k && storableFields d
end

/-- The query is accepted, and evaluating it on the documents does not panic. -/
structure Defined (q : Doc F) (items : List (Doc F)) : Prop where
  accepted : findMany [] q = .ok []
  total : ∀ d ∈ items, (matchesQuery q d).isSome

/-- Whether the query matches. -/
def hit (q d : Doc F) : Bool := matchesQuery q d == some true

/-- What an update does to one document, observed through the API: `UpdateOne` with the query that matches
everything, on a collection with only that document. -/
def updateDoc (u d : Doc F) : Doc F × Outcome :=
  match updateOne [d] [] u with
  | (items, _, o) => (items.headD [], o)

mutual
/-- Two stored values that Go's `reflect.DeepEqual` takes for the same: the same type and the same contents, integers
with the same Go type, documents with the same keys in the same order; floating point numbers by `==`. -/
inductive Identical : Value F → Value F → Prop
  | null : Identical .null .null
  | bool (b : Bool) : Identical (.bool b) (.bool b)
  | int (t : IntKind) (n : Int) : Identical (.int t n) (.int t n)
  | float {a b : F} : Host.feq a b = true → Identical (.float a) (.float b)
  | str (s : Name) : Identical (.str s) (.str s)
  | oid (n : Nat) : Identical (.oid n) (.oid n)
  | other (n : Nat) : Identical (.other n) (.other n)
  | doc {a b : List (Name × Value F)} : IdenticalFields a b → Identical (.doc a) (.doc b)
  | arr {a b sa sb : List (Value F)} : IdenticalElements a b → Identical (.arr a sa) (.arr b sb)
inductive IdenticalFields : List (Name × Value F) → List (Name × Value F) → Prop
  | nil : IdenticalFields [] []
  | cons {k : Name} {v w : Value F} {a b : List (Name × Value F)} :
      Identical v w → IdenticalFields a b → IdenticalFields ((k, v) :: a) ((k, w) :: b)
inductive IdenticalElements : List (Value F) → List (Value F) → Prop
  | nil : IdenticalElements [] []
  | cons {v w : Value F} {a b : List (Value F)} :
      Identical v w → IdenticalElements a b → IdenticalElements (v :: a) (w :: b)
end

/-- The elements of an array. -/
def elements : Value F → Option (List (Value F))
  | .arr es _ => some es
  | _ => none

end Verif.NoSQL
