import Verif.Hotel.Model
/-
What a hotel guest expects, independently of how reservations are stored.
-/
namespace Verif.Hotel

/-- Rooms in a hotel, taken for the nights `first`, ..., `last - 1`. -/
structure Booking where
  hotel : Name
  first : Nat
  last : Nat
  rooms : Int
  deriving DecidableEq, Repr

/-- The booking includes the night. -/
def Booking.covers (b : Booking) (hotel : Name) (night : Nat) : Bool :=
  b.hotel == hotel && decide (b.first ≤ night) && decide (night < b.last)

/-- The rooms that are taken in the hotel in that night. -/
def taken (bs : List Booking) (hotel : Name) (night : Nat) : Int :=
  ((bs.filter (·.covers hotel night)).map (·.rooms)).sum

/-- There is room for all nights. -/
def Fits (bs : List Booking) (capacity : Name → Int) (hotel : Name) (first last : Nat) (rooms : Int) : Prop :=
  ∀ night, first ≤ night → night < last → taken bs hotel night + rooms ≤ capacity hotel

/-- A call of the service. -/
inductive Call where
  | make (customer : Name) (hotels : List Name) (inDate outDate : Name) (rooms : Int)
  | check (hotels : List Name) (inDate outDate : Name) (rooms : Int)

/-- `found` are the elements of the list for which `P` holds, in the same order. -/
inductive Selects (P : Name → Prop) : List Name → List Name → Prop
  | nil : Selects P [] []
  | keep {h hs found} : P h → Selects P hs found → Selects P (h :: hs) (h :: found)
  | drop {h hs found} : ¬ P h → Selects P hs found → Selects P (h :: hs) found

/-- The reply that is right, and the bookings after the call. -/
inductive Right (cal : Calendar) (capacity : Name → Int) : List Booking → Call → List Booking → Option (List Name) → Prop
  | booked {bs customer hotel hotels inDate outDate rooms} :
      Fits bs capacity hotel (cal.parse inDate) (cal.parse outDate) rooms →
      Right cal capacity bs (.make customer (hotel :: hotels) inDate outDate rooms)
        (bs ++ [⟨hotel, cal.parse inDate, cal.parse outDate, rooms⟩]) (some [hotel])
  | full {bs customer hotel hotels inDate outDate rooms} :
      ¬ Fits bs capacity hotel (cal.parse inDate) (cal.parse outDate) rooms →
      Right cal capacity bs (.make customer (hotel :: hotels) inDate outDate rooms) bs (some [])
  | panic {bs customer inDate outDate rooms} : Right cal capacity bs (.make customer [] inDate outDate rooms) bs none
  | available {bs hotels inDate outDate rooms found} :
      Selects (fun h => cal.parse inDate < cal.parse outDate ∧ Fits bs capacity h (cal.parse inDate) (cal.parse outDate) rooms)
        hotels found →
      Right cal capacity bs (.check hotels inDate outDate rooms) bs (some found)

/-- A call of the model. -/
def call (cal : Calendar) (s : State) : Call → State × Option (List Name)
  | .make customer hotels inDate outDate rooms => make cal s customer hotels inDate outDate rooms
  | .check hotels inDate outDate rooms => let r := check cal inDate outDate rooms s hotels; (r.1, some r.2)

def run (cal : Calendar) : State → List Call → State × List (Option (List Name))
  | s, [] => (s, [])
  | s, c :: cs =>
    let r := call cal s c
    let rest := run cal r.1 cs
    (rest.1, r.2 :: rest.2)

/-- The replies are right throughout, and at the end there are the bookings `bs'`. -/
inductive AllRight (cal : Calendar) (capacity : Name → Int) : List Booking → List Call → List (Option (List Name)) → List Booking → Prop
  | nil {bs} : AllRight cal capacity bs [] [] bs
  | cons {bs c bs' o cs os bs''} : Right cal capacity bs c bs' o → AllRight cal capacity bs' cs os bs'' →
      AllRight cal capacity bs (c :: cs) (o :: os) bs''

/-- Dates are days of the calendar that have different texts, made of other characters than those of the cache keys. -/
structure Calendar.Sane (cal : Calendar) (lastDay : Nat) : Prop where
  parse : ∀ t, cal.parse t ≤ lastDay
  inj : ∀ a b, a ≤ lastDay → b ≤ lastDay → cal.text a = cal.text b → a = b
  chars : ∀ d, ∀ c ∈ cal.text d, c ≠ '_' ∧ c ≠ 'p'

/-- A fresh service whose database holds the given reservations, of one night each. -/
def fresh (cal : Calendar) (numbers : List (Name × Int)) (start : List (Name × Booking)) : State :=
  ⟨[], start.map fun e => ⟨e.2.hotel, e.1, cal.text e.2.first, cal.text e.2.last, e.2.rooms⟩, numbers⟩

/-- No availability check for a range that begins before a night that was reserved from the start, and includes it. -/
def Harmless (cal : Calendar) (start : List Booking) : Call → Prop
  | .make .. => True
  | .check hotels inDate outDate _ => ∀ b ∈ start, b.hotel ∈ hotels → ¬ (cal.parse inDate < b.first ∧ b.first < cal.parse outDate)

end Verif.Hotel
