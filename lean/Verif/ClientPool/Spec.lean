import Verif.ClientPool.Model
/- Vocabulary for C05 and C06, over the history. -/
namespace Verif.ClientPool

/-- Clients built so far. -/
def built (log : List Event) : List Nat := log.filterMap fun | .built c => some c | _ => none

/-- How many times a Pop handed out client `c`, and how many times somebody gave it back. -/
def handedOut (log : List Event) (c : Nat) : Nat :=
  (log.filter fun | .popOk _ c' => c' = c | _ => false).length
def givenBack (log : List Event) (c : Nat) : Nat :=
  (log.filter fun | .push c' => c' = c | _ => false).length

/-- How many times Pop call `p` returned, with a client or an error. -/
def returned (log : List Event) (p : Nat) : Nat :=
  (log.filter fun | .popOk q _ => q = p | .popErr q => q = p | _ => false).length

/-- Nobody holds a client and no call is in the middle of anything except waiting in Pop. -/
structure Quiescent (s : State) : Prop where
  noneHeld : ∀ c, handedOut s.log c = givenBack s.log c
  trying : s.trying = []
  reading : s.reading = []
  casing : s.casing = []
  building : s.building = []
  failing : s.failing = []
  took : s.took = []
  returning : s.returning = []
  sending : s.sending = []

end Verif.ClientPool
