import Verif.Registry.Model
/-
Vocabulary for C07, over histories of calls.
-/
namespace Verif.Registry
variable {R : Type}

/-- The function last registered under `name` in a history. -/
def lastRegistered (name : String) : List (Op R) → Option Nat
  | [] => none
  | op :: ops =>
    match lastRegistered name ops, op with
    | some f, _ => some f
    | none, .register n f => if n = name then some f else none
    | none, _ => none

/-- The name of the first registration in a history. -/
def firstRegistered : List (Op R) → Option String
  | [] => none
  | .register n _ :: _ => some n
  | _ :: ops => firstRegistered ops

/-- The argument of the last SetDefault call in a history. -/
def lastSetDefault : List (Op R) → Option String
  | [] => none
  | op :: ops =>
    match lastSetDefault ops, op with
    | some n, _ => some n
    | none, .setDefault n => some n
    | none, _ => none

/-- The part of a history after the first registration. -/
def afterFirstRegister : List (Op R) → List (Op R)
  | [] => []
  | .register _ _ :: ops => ops
  | _ :: ops => afterFirstRegister ops

/-- Is the call a Get? -/
def Op.isGet : Op R → Bool
  | .get _ => true
  | _ => false

end Verif.Registry
