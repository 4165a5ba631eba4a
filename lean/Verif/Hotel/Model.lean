/-
Model of the reservation, rate, profile and user services of the hotel reservation example
(examples/dsb_hotel/workflow/hotelreservation).

Simplifications: calls of the cache and the database succeed; int64 is `Int`; documents are typed records, and a filter is a
comparison of fields (the general filters are in `Verif.NoSQL`); the two counters of cache hits and requests, which nothing reads, are
left out.
-/
namespace Verif.Hotel

abbrev Name := List Char

/-- What the code uses of package `time`: `time.Parse` of a date (the number of days since 0001-01-01, which is also what a text that
is not a date gives, since the error is ignored: ReservationService.go lines 105-106), and the text `YYYY-MM-DD` of a day
(`String()[0:10]`). -/
structure Calendar where
  parse : Name → Nat
  text : Nat → Name

/-- DataModels.go lines 45-51. -/
structure Reservation where
  hotel : Name
  customer : Name
  inDate : Name
  outDate : Name
  number : Int
  deriving DecidableEq, Repr

/-- The cache, and the collections `reservation` and `number`. -/
structure State where
  cache : List (Name × Int)
  reservations : List Reservation
  numbers : List (Name × Int)
  deriving DecidableEq, Repr

/-- `Cache.Put`. -/
def put (k : Name) (v : Int) : List (Name × Int) → List (Name × Int)
  | [] => [(k, v)]
  | (k', v') :: m => if k' = k then (k, v) :: m else (k', v') :: put k v m

/-- Line 115: the out-day is used twice. -/
def nightKey (cal : Calendar) (hotel : Name) (out : Nat) : Name := hotel ++ '_' :: (cal.text out ++ '_' :: cal.text out)

/-- Line 137. -/
def capKey (hotel : Name) : Name := hotel ++ ['_', 'c', 'a', 'p']

/-- The rooms in the reservations that are found by the query of line 124. -/
def counted (s : State) (hotel inDate outDate : Name) : Int :=
  ((s.reservations.filter fun r => r.hotel == hotel && r.inDate == inDate && r.outDate == outDate).map (·.number)).sum

/-- Lines 140-156: the capacity, and the state with it in the cache.  For an unknown hotel the capacity is 0: the error of `One` is
ignored. -/
def capacity (s : State) (hotel : Name) : Int × State :=
  match s.cache.lookup (capKey hotel) with
  | some c => (c, s)
  | none =>
    let c := (s.numbers.lookup hotel).getD 0
    (c, { s with cache := put (capKey hotel) c s.cache })

/-- Lines 116-133: the rooms that are taken, from the cache or else from the database. -/
def reserved (cal : Calendar) (s : State) (hotel : Name) (day : Nat) : Int :=
  match s.cache.lookup (nightKey cal hotel (day + 1)) with
  | some n => n
  | none => counted s hotel (cal.text day) (cal.text (day + 1))

/-- The first loop of `MakeReservation` (lines 111-161), from the day `day` on, for `nights` nights; `updates` is
`reservation_update_map`.  `none`: the rooms do not fit. -/
def checkNights (cal : Calendar) (hotel : Name) (rooms : Int) : State → Nat → Nat → List (Name × Int) →
    State × Option (List (Name × Int))
  | s, _, 0, updates => (s, some updates)
  | s, day, nights + 1, updates =>
    let key := nightKey cal hotel (day + 1)
    let n := reserved cal s hotel day
    let c := capacity s hotel
    if n + rooms > c.1 then (c.2, none)
    else checkNights cal hotel rooms c.2 (day + 1) nights (put key (n + rooms) updates)

/-- The second loop (lines 166-174): the in-date is that of the first night each time. -/
def stored (cal : Calendar) (hotel customer : Name) (rooms : Int) (first : Nat) : Nat → Nat → List Reservation
  | _, 0 => []
  | day, nights + 1 =>
    ⟨hotel, customer, cal.text first, cal.text (day + 1), rooms⟩ :: stored cal hotel customer rooms first (day + 1) nights

/-- The third loop (lines 176-181).  Go may iterate over the map in another order; its keys are different ones. -/
def putAll (cache : List (Name × Int)) : List (Name × Int) → List (Name × Int)
  | [] => cache
  | (k, v) :: us => putAll (put k v cache) us

/-- What `MakeReservation` does once the rooms fit (lines 163-183). -/
def commit (cal : Calendar) (s : State) (hotel customer : Name) (first nights : Nat) (rooms : Int) (updates : List (Name × Int)) :
    State :=
  { s with reservations := s.reservations ++ stored cal hotel customer rooms first first nights,
           cache := putAll s.cache updates }

/-- `MakeReservation` (lines 96-184).  `none` is a panic (`hotelIds[0]`). -/
def make (cal : Calendar) (s : State) (customer : Name) (hotels : List Name) (inDate outDate : Name) (rooms : Int) :
    State × Option (List Name) :=
  match hotels with
  | [] => (s, none)
  | hotel :: _ =>
    let first := cal.parse inDate
    let nights := cal.parse outDate - first
    match checkNights cal hotel rooms s first nights [] with
    | (s, none) => (s, some [])
    | (s, some updates) => (commit cal s hotel customer first nights rooms updates, some [hotel])

/-- Lines 208-232: the rooms that are taken, from the cache or else from the database, with the in-date of the first night; the count
is put into the cache. -/
def reservedCached (cal : Calendar) (s : State) (hotel : Name) (first day : Nat) : Int × State :=
  match s.cache.lookup (nightKey cal hotel (day + 1)) with
  | some n => (n, s)
  | none => (counted s hotel (cal.text first) (cal.text (day + 1)),
      { s with cache := put (nightKey cal hotel (day + 1)) (counted s hotel (cal.text first) (cal.text (day + 1))) s.cache })

/-- The loop over nights of `CheckAvailability` (lines 203-265) for one hotel. -/
def checkHotel (cal : Calendar) (hotel : Name) (rooms : Int) (first : Nat) : State → Nat → Nat → State × Bool
  | s, _, 0 => (s, false)
  | s, day, nights + 1 =>
    let r := reservedCached cal s hotel first day
    let c := capacity r.2 hotel
    if r.1 + rooms > c.1 then (c.2, false)
    else if nights = 0 then (c.2, true)
    else checkHotel cal hotel rooms first c.2 (day + 1) nights

/-- `CheckAvailability` (lines 186-269). -/
def check (cal : Calendar) (inDate outDate : Name) (rooms : Int) : State → List Name → State × List Name
  | s, [] => (s, [])
  | s, hotel :: hotels =>
    let first := cal.parse inDate
    let r := checkHotel cal hotel rooms first s first (cal.parse outDate - first)
    let rest := check cal inDate outDate rooms r.1 hotels
    (rest.1, if r.2 then hotel :: rest.2 else rest.2)

/-! ### Rates and profiles -/

/-- The cache-aside loop that `GetRates` (RateService.go lines 128-155) and `GetProfiles` (ProfileService.go lines 174-200) share, for a
read from the database that does not fail. -/
def cached {α : Type} (db : Name → α) : List (Name × α) → List Name → List (Name × α) × List α
  | cache, [] => (cache, [])
  | cache, id :: ids =>
    match cache.lookup id with
    | some a =>
      let r := cached db cache ids
      (r.1, a :: r.2)
    | none =>
      let r := cached db ((id, db id) :: cache) ids
      (r.1, db id :: r.2)

/-- DataModels.go `RatePlan`, without the room type. -/
structure RatePlan where
  hotel : Name
  inDate : Name
  outDate : Name
  deriving DecidableEq, Repr

/-- `GetRates`: the dates are not used. -/
def getRates (plans : List RatePlan) (cache : List (Name × List RatePlan)) (hotels : List Name) (_inDate _outDate : Name) :
    List (Name × List RatePlan) × List RatePlan :=
  let r := cached (fun h => plans.filter fun p => p.hotel == h) cache hotels
  (r.1, r.2.flatten)

/-- `GetProfiles`; `zero` is the profile in which all fields are empty, for hotels that are not found. -/
def getProfiles {α : Type} (profiles : List (Name × α)) (zero : α) (cache : List (Name × α)) (hotels : List Name) :
    List (Name × α) × List α :=
  cached (fun h => (profiles.lookup h).getD zero) cache hotels

/-- `SearchService.Nearby` (SearchService.go), given the hotels that the geo service returned. -/
def nearby (plans : List RatePlan) (cache : List (Name × List RatePlan)) (near : List Name) (inDate outDate : Name) :
    List (Name × List RatePlan) × List Name :=
  let r := getRates plans cache near inDate outDate
  (r.1, r.2.map (·.hotel))

end Verif.Hotel
