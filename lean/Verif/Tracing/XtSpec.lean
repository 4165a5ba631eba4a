import Verif.Tracing.XtModel
import Verif.Tracing.OtSpec
/-
What an X-Trace trace should show.
-/
namespace Verif.Tracing.Xt
open Verif.Tracing.Ot

/-- The event `a` comes before the event `b`, according to the parents of the events. -/
inductive Before (events : List Event) : List Nat → List Nat → Prop
  | parent {a : List Nat} {e : Event} : e ∈ events → a ∈ e.parents → Before events a e.id
  | trans {a b c : List Nat} : Before events a b → Before events b c → Before events a c

/-- The text of an error, if there is one. -/
def errText (r : Res) : List (List Char × Bool) :=
  match r.err with
  | some e => [(e, true)]
  | none => []

/-- The texts of the events for what some code did. -/
def texts : Acts → List (List Char × Bool)
  | .nil => []
  | .log msg rest => ("INFO: ".toList ++ msg, false) :: texts rest
  | .call m seen served sub rest =>
    let server := match served with
      | none => []
      | some r => (m.method ++ " start".toList, false) :: texts sub ++ errText r ++ [(m.method ++ " end".toList, false)]
    (m.method ++ " client call start".toList, false) :: server ++ errText seen ++
      (m.method ++ " client call end".toList, false) :: texts rest

end Verif.Tracing.Xt
