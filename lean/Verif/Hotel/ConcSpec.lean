import Verif.Hotel.Conc
/-
What guests expect of calls that overlap.
-/
namespace Verif.Hotel
open Verif.Interleave

/-- The hotels a call is about: `MakeReservation` only uses the first of the list. -/
def Call.hotels : Call → List Name
  | .make _ hs _ _ _ => hs.take 1
  | .check hs _ _ _ => hs

/-- No two of the calls are about the same hotel. -/
def Apart (cs : List Call) : Prop :=
  cs.Pairwise fun c c' => ∀ h ∈ c.hotels, h ∉ c'.hotels

/-- A history of rounds: the requests of a round overlap, in any schedule of their calls of the cache and the database, and all of them
end before the next round. -/
inductive History (cal : Calendar) : State → List (List Call × List Answer) → State → Prop
  | nil {s} : History cal s [] s
  | round {s calls replies schedule rest s'} :
      (Sys.run ⟨s, calls.map (request cal)⟩ schedule).threads = replies.map .done →
      History cal (Sys.run ⟨s, calls.map (request cal)⟩ schedule).store rest s' →
      History cal s ((calls, replies) :: rest) s'

/-- Each of the replies is right, given the bookings `bs` from before; `news` are the bookings that are new. -/
inductive Together (cal : Calendar) (capacity : Name → Int) (bs : List Booking) : List Call → List Answer → List Booking → Prop
  | nil : Together cal capacity bs [] [] []
  | cons {c o new cs os news} : Right cal capacity bs c (bs ++ new) o → Together cal capacity bs cs os news →
      Together cal capacity bs (c :: cs) (o :: os) (new ++ news)

/-- All rounds are right, and at the end there are the bookings `bs'`. -/
inductive RoundsRight (cal : Calendar) (capacity : Name → Int) : List Booking → List (List Call × List Answer) → List Booking → Prop
  | nil {bs} : RoundsRight cal capacity bs [] bs
  | cons {bs cs os news rest bs'} : Together cal capacity bs cs os news → RoundsRight cal capacity (bs ++ news) rest bs' →
      RoundsRight cal capacity bs ((cs, os) :: rest) bs'

end Verif.Hotel
