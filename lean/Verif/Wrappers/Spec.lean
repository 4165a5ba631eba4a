import Verif.Wrappers.Model
/-
What the properties of the generated wrappers say, without reference to how the
wrappers compute it.
-/
namespace Verif.Wrappers

/-- The calls of the wrapped method in a trace of effects, in order. -/
def calls {V E : Type} : List (Ev V E) → List (Nat × Ret V E)
  | [] => []
  | .call n r :: t => (n, r) :: calls t
  | .sleep _ :: t => calls t

/-- The sleeps in a trace of effects, in order. -/
def sleeps {V E : Type} : List (Ev V E) → List Int
  | [] => []
  | .call _ _ :: t => sleeps t
  | .sleep d :: t => d :: sleeps t

/-- A retrying client with at most `max` attempts, facing a method whose k-th
call (from 0) returns `out k`, made the calls `cs` and returned `r`. -/
structure Retried {V E : Type} (max : Int) (out : Nat → Ret V E) (cs : List (Nat × Ret V E))
    (r : Ret V E) : Prop where
  /-- between one and `max` calls -/
  atLeastOne : 1 ≤ cs.length
  atMost : (cs.length : Int) ≤ max
  /-- the attempts are numbered 1, 2, 3, … -/
  numbered : ∀ k, k < cs.length → cs[k]? = some (k + 1, out k)
  /-- no attempt follows a successful one -/
  stops : ∀ k, k + 1 < cs.length → (out k).err ≠ none
  /-- it only gives up after `max` attempts -/
  persists : (out (cs.length - 1)).err = none ∨ (cs.length : Int) = max
  /-- the caller sees the result of the last attempt -/
  result : r = out (cs.length - 1)

/-- The exponential backoff client's loop ends with this trace and outcome. -/
def BackoffEnds {V E : Type} (env : Env V E) (jitter : Bool) (delay limit : Int)
    (t : List (Ev V E)) (o : Outcome V E) : Prop :=
  ∃ fuel, backoff env jitter limit fuel 0 delay = some (t, o)

/-- The number of retries (second attempts) among some calls. -/
def retries (cs : List TbCall) : Nat := (cs.map fun c => c.calls - 1).sum

/-- The number of retries that succeeded. -/
def goodRetries (cs : List TbCall) : Nat := (cs.filter fun c => c.calls = 2 ∧ c.ok).length

/-- A state of a timeout client's call that some schedule reaches. -/
def Reached {V E : Type} (zero : V) (s : Tmo V E) : Prop :=
  ∃ as, s = (Tmo.init zero).exec as

end Verif.Wrappers
