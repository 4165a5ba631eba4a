import Verif.Wiring.Model
/-
What a sequence of wiring spec calls means, read off the calls themselves.
-/
namespace Verif.Wiring
variable {T B P : Type}

/-- The name an operation is about. -/
def Op.name : Op T B P → Name
  | .define n .. => n
  | .alias a _ => a
  | .setProperty n .. => n
  | .addProperty n .. => n

/-- The last operation about name `n`. -/
def lastOn (ops : List (Op T B P)) (n : Name) : Option (Op T B P) :=
  (ops.filter fun o => o.name == n).getLast?

/-- The target if the operation is an alias. -/
def Op.target : Op T B P → Option Name
  | .alias _ p => some p
  | _ => none

/-- The operations about `n` since it last was an alias. -/
def sinceAlias (ops : List (Op T B P)) (n : Name) : List (Op T B P) :=
  ((ops.filter fun o => o.name == n).reverse.takeWhile fun o => o.target.isNone).reverse

/-- The node type and build function of the last Define among some operations. -/
def lastDefine (ops : List (Op T B P)) : Option (T × B) :=
  (ops.filterMap fun o => match o with
    | .define _ t b _ => some (t, b)
    | _ => none).getLast?

/-- The values of a property key after some operations on one name: SetProperty
replaces, AddProperty appends, Define records its call site. -/
def valuesOf (key : Name) : List (Op T B P) → List P → List P
  | [], vs => vs
  | .define _ _ _ st :: ops, vs => valuesOf key ops (if key = callsite then [st] else vs)
  | .alias _ _ :: ops, _ => valuesOf key ops []
  | .setProperty _ k v :: ops, vs => valuesOf key ops (if k = key then [v] else vs)
  | .addProperty _ k v :: ops, vs => valuesOf key ops (if k = key then vs ++ [v] else vs)

/-- `b` is reached from `a` by following the aliases of `s` and is not itself an
alias. -/
inductive Leads (s : Spec T B P) : Name → Name → Prop where
  | stop {a : Name} : s.getAlias a = none → Leads s a a
  | follow {a p b : Name} : s.getAlias a = some p → Leads s p b → Leads s a b

end Verif.Wiring
