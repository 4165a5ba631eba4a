import Verif.Hotel.Lemmas
import Verif.Interleave.Props
/-
The reservation service with calls that overlap: each call of the cache and of the database happens at one moment, and between two of
them other requests may run.
-/
namespace Verif.Hotel
open Verif.Interleave

/-- What a call of the service returns; `none` is a panic. -/
abbrev Answer := Option (List Name)

/-- A request in progress. -/
abbrev Request := Prog State Answer

/-- A call of the cache or the database that only reads. -/
def look (next : State → Request) : Request := .act id next

/-- `Cache.Put`. -/
def putThen (k : Name) (v : Int) (next : Request) : Request := .act (fun s => { s with cache := put k v s.cache }) fun _ => next

/-- Lines 116-133 of ReservationService.go: `Cache.Get`, and `FindMany` if the night is not in the cache. -/
def roomsThen (cal : Calendar) (hotel : Name) (day : Nat) (next : Int → Request) : Request :=
  look fun s => match s.cache.lookup (nightKey cal hotel (day + 1)) with
    | some n => next n
    | none => look fun s => next (counted s hotel (cal.text day) (cal.text (day + 1)))

/-- Lines 208-232: the same in `CheckAvailability`, with the `Put`. -/
def roomsCachedThen (cal : Calendar) (hotel : Name) (first day : Nat) (next : Int → Request) : Request :=
  look fun s => match s.cache.lookup (nightKey cal hotel (day + 1)) with
    | some n => next n
    | none => look fun s =>
      putThen (nightKey cal hotel (day + 1)) (counted s hotel (cal.text first) (cal.text (day + 1)))
        (next (counted s hotel (cal.text first) (cal.text (day + 1))))

/-- Lines 137-156 and 235-254: `Cache.Get`, and `FindOne` and `Put` if the capacity is not in the cache. -/
def capacityThen (hotel : Name) (next : Int → Request) : Request :=
  look fun s => match s.cache.lookup (capKey hotel) with
    | some c => next c
    | none => look fun s => putThen (capKey hotel) ((s.numbers.lookup hotel).getD 0) (next ((s.numbers.lookup hotel).getD 0))

/-- Lines 166-174: one `InsertOne` per night. -/
def insertsThen (next : Request) : List Reservation → Request
  | [] => next
  | r :: rs => .act (fun s => { s with reservations := s.reservations ++ [r] }) fun _ => insertsThen next rs

/-- Lines 176-181: one `Put` per night. -/
def putsThen (next : Request) : List (Name × Int) → Request
  | [] => next
  | (k, v) :: us => putThen k v (putsThen next us)

/-- Lines 111-183: the loops of `MakeReservation`. -/
def makeLoop (cal : Calendar) (hotel customer : Name) (rooms : Int) (first all : Nat) : Nat → Nat → List (Name × Int) → Request
  | _, 0, updates => insertsThen (putsThen (.done (some [hotel])) updates) (stored cal hotel customer rooms first first all)
  | day, nights + 1, updates =>
    roomsThen cal hotel day fun n => capacityThen hotel fun c =>
      if n + rooms > c then .done (some [])
      else makeLoop cal hotel customer rooms first all (day + 1) nights (put (nightKey cal hotel (day + 1)) (n + rooms) updates)

/-- Lines 203-265: the loop over nights of `CheckAvailability`. -/
def hotelLoop (cal : Calendar) (hotel : Name) (rooms : Int) (first : Nat) (next : Bool → Request) : Nat → Nat → Request
  | _, 0 => next false
  | day, nights + 1 =>
    roomsCachedThen cal hotel first day fun n => capacityThen hotel fun c =>
      if n + rooms > c then next false
      else if nights = 0 then next true
      else hotelLoop cal hotel rooms first next (day + 1) nights

/-- Lines 198-268: the loop over hotels; `found` is `available_hotels`. -/
def checkLoop (cal : Calendar) (inDate outDate : Name) (rooms : Int) : List Name → List Name → Request
  | found, [] => .done (some found)
  | found, hotel :: hotels =>
    hotelLoop cal hotel rooms (cal.parse inDate) (fun ok => checkLoop cal inDate outDate rooms (if ok then found ++ [hotel] else found) hotels)
      (cal.parse inDate) (cal.parse outDate - cal.parse inDate)

/-- `MakeReservation` (lines 96-184) and `CheckAvailability` (lines 186-269). -/
def request (cal : Calendar) : Call → Request
  | .make _ [] _ _ _ => .done none
  | .make customer (hotel :: _) inDate outDate rooms =>
    makeLoop cal hotel customer rooms (cal.parse inDate) (cal.parse outDate - cal.parse inDate) (cal.parse inDate)
      (cal.parse outDate - cal.parse inDate) []
  | .check hotels inDate outDate rooms => checkLoop cal inDate outDate rooms [] hotels

end Verif.Hotel
