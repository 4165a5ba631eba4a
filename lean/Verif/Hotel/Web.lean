import Verif.Hotel.Model
/-
The hotel example's remaining services (examples/dsb_hotel/workflow/hotelreservation): recommendations, users, reviews, and the two front
ends, and what starting a service does to its database.

Simplifications: as in `Model.lean`.  SHA-256 is a function `hash`; numbers are a type with an order (no NaN); distances and the index of
points (package geoindex) are functions.
-/
namespace Verif.Hotel

/-! ### Recommendations -/

/-- What is used of `float64`: `<`, 0 and `math.MaxFloat64`. -/
class Number (F : Type) where
  lt : F → F → Bool
  zero : F
  big : F

/-- DataModels.go `Hotel`. -/
structure Offer (F : Type) where
  id : Name
  lat : F
  lon : F
  rate : F
  price : F

section
variable {F : Type} [Number F] [DecidableEq F]

/-- `r.hotels[hotel.HId] = hotel`: RecommendationService.go line 118.  The map as a list without repeated identifiers. -/
def putOffer (o : Offer F) : List (Offer F) → List (Offer F)
  | [] => [o]
  | p :: m => if p.id = o.id then o :: m else p :: putOffer o m

/-- `LoadRecommendations` (lines 102-122), from the documents in the collection. -/
def loadOffers (docs : List (Offer F)) : List (Offer F) := docs.foldl (fun m o => putOffer o m) []

/-- The loops for a smallest value (lines 133-139 and 163-168). -/
def smallest (f : Offer F → F) (visit : List (Offer F)) : F :=
  visit.foldl (fun m o => if Number.lt (f o) m then f o else m) Number.big

/-- The loop for a largest value (lines 149-154). -/
def largest (f : Offer F → F) (visit : List (Offer F)) : F :=
  visit.foldl (fun m o => if Number.lt m (f o) then f o else m) Number.zero

/-- The second loops (lines 140-145, 155-160, 169-173).  The maps `dist`, `rates` and `prices` have the values under the identifiers, which
are different for different hotels. -/
def withValue (f : Offer F → F) (v : F) (visit : List (Offer F)) : List Name := (visit.filter fun o => f o = v).map (·.id)

/-- `GetRecommendations` (lines 124-181).  `visit` and `visit'` are the orders in which the two loops go through the map of hotels. -/
def recommend (distance : F → F → Offer F → F) (visit visit' : List (Offer F)) (require : String) (lat lon : F) : List Name :=
  if require = "dis" then withValue (distance lat lon) (smallest (distance lat lon) visit) visit'
  else if require = "rate" then withValue (·.rate) (largest (·.rate) visit) visit'
  else if require = "price" then withValue (·.price) (smallest (·.price) visit) visit'
  else []

end

/-! ### Users -/

/-- `LoadUsers` (UserService.go lines 61-82): the map from user names to hashes. -/
def loadUsers (docs : List (Name × Name)) : Name → Option Name :=
  docs.foldl (fun m u => fun n => if n = u.1 then some u.2 else m n) fun _ => none

/-- `CheckUser` (lines 84-92). -/
def checkUser (hash : Name → Name) (users : Name → Option Name) (user password : Name) : Bool :=
  match users user with
  | some p => hash password == p
  | none => false

/-- The user that `initUserDB` inserts for `i` (lines 30-38). -/
def seedName (i : Nat) : Name := "Cornell_".toList ++ Nat.toDigits 10 i
def seedPassword (i : Nat) : Name := (List.replicate 10 (Nat.toDigits 10 i)).flatten

/-- `initUserDB` (lines 25-46): inserts 501 users, on every start of the service. -/
def initUsers (hash : Name → Name) (docs : List (Name × Name)) : List (Name × Name) :=
  docs ++ (List.range 501).map fun i => (seedName i, hash (seedPassword i))

/-! ### Reviews -/

/-- DataModels.go `Review`, without rating, text and picture. -/
structure Review where
  id : Name
  hotel : Name
  author : Name
  deriving DecidableEq, Repr

/-- What every start of a service does to its collection: it inserts the documents in the program's text, one after the other (`initReviewDB`,
ReviewService.go lines 20-83; `initRateDB`, RateService.go lines 23-118; `initReservationDB`, ReservationService.go lines 28-84;
`initRecommendationDB`, RecommendationService.go lines 24-88). -/
def insertSeeds {α : Type} (seeds docs : List α) : List α := docs ++ seeds

/-- `GetReviews` (lines 95-126). -/
def getReviews (docs : List Review) (cache : List (Name × List Review)) (hotel : Name) : List (Name × List Review) × List Review :=
  let r := cached (fun h => docs.filter fun d => d.hotel == h) cache [hotel]
  (r.1, r.2.flatten)

/-! ### Front ends -/

/-- What a call returns. -/
inductive Reply (α : Type) where
  | ok (a : α)
  | error (message : String)
  deriving DecidableEq

/-- The services behind the front ends; `S` is the state of the whole application. -/
structure Services (S F P R A : Type) where
  nearby : F → F → Name → Name → S → S × Reply (List Name)
  available : List Name → Name → Name → Int → S → S × Reply (List Name)
  profiles : List Name → Name → S → S × Reply (List P)
  recommendations : String → F → F → S → S × Reply (List Name)
  checkUser : Name → Name → S → S × Reply Bool
  reserve : Name → List Name → Name → Name → Int → S → S × Reply (List Name)
  reviews : Name → S → S × Reply (List R)
  attractions : F → F → S → S × Reply (List A)

/-- A digit: FrontEndService.go line 126. -/
def digitChar (c : Char) : Bool := decide ('0' ≤ c) && decide (c ≤ '9')

/-- `checkDataFormat` (lines 115-132).  The program looks at bytes and here there are characters: the bytes of a character that is not
ASCII are neither digits nor hyphens, so that both refuse it. -/
def goodFormat (date : Name) : Bool :=
  date.length == 10 && (date.zipIdx.all fun e => if e.2 = 4 || e.2 = 7 then e.1 == '-' else digitChar e.1)

section
variable {S F P R A : Type} (sv : Services S F P R A)

/-- `SearchHandler` (lines 33-51).  An error of the reservation service is not passed on (line 43). -/
def searchHandler (inDate outDate : Name) (lat lon : F) (locale : Name) (s : S) : S × Reply (List P) :=
  match sv.nearby lat lon inDate outDate s with
  | (s, .error e) => (s, .error e)
  | (s, .ok near) =>
    match sv.available near inDate outDate 1 s with
    | (s, .error _) => (s, .ok [])
    | (s, .ok free) => sv.profiles free (if locale = [] then ['e', 'n'] else locale) s

/-- `RecommendHandler` (lines 53-69). -/
def recommendHandler (lat lon : F) (require : String) (locale : Name) (s : S) : S × Reply (List P) :=
  if require ≠ "dis" ∧ require ≠ "rate" ∧ require ≠ "price" then (s, .error ("Invalid require param " ++ require))
  else match sv.recommendations require lat lon s with
    | (s, .error e) => (s, .error e)
    | (s, .ok hotels) => sv.profiles hotels (if locale = [] then ['e', 'n'] else locale) s

/-- `UserHandler` (lines 71-80). -/
def userHandler (user password : Name) (s : S) : S × Reply String :=
  if user = [] ∨ password = [] then (s, .error "Please specify username and password")
  else match sv.checkUser user password s with
    | (s, .ok true) => (s, .ok "Login successful")
    | (s, _) => (s, .error "Invalid Credentials")

/-- `ReservationHandler` (lines 82-113). -/
def reservationHandler (inDate outDate hotel customer user password : Name) (rooms : Int) (s : S) : S × Reply String :=
  if inDate = [] ∨ outDate = [] then (s, .error "Please specify inDate/outDate params")
  else if !goodFormat inDate || !goodFormat outDate then (s, .error "Please check inDate/outDate format (YYYY-MM-DD)")
  else if hotel = [] then (s, .error "Please specify hotelId params")
  else if customer = [] then (s, .error "Please specify customer name")
  else if user = [] ∨ password = [] then (s, .error "Please specify username or password")
  else match sv.checkUser user password s with
    | (s, .error e) => (s, .error e)
    | (s, .ok false) => (s, .error "Invalid credentials")
    | (s, .ok true) =>
      match sv.reserve customer [hotel] inDate outDate rooms s with
      | (s, .error e) => (s, .error e)
      | (s, .ok []) => (s, .error "Failed to make reservation")
      | (s, .ok (_ :: _)) => (s, .ok "Reservation successful")

/-- `ReviewHandler` (FrontEndV2Service.go lines 62-73). -/
def reviewHandler (user password hotel : Name) (s : S) : S × Reply (List R) :=
  match userHandler sv user password s with
  | (s, .error e) => (s, .error e)
  | (s, .ok _) => if hotel = [] then (s, .error "Please specify hotelId params") else sv.reviews hotel s

/-- `RestaurantHandler`, `MuseumHandler` and `CinemaHandler` (lines 75-144), which differ in the service they ask.  `idOf`, `latOf` and
`lonOf` are fields of the profile. -/
def attractionsHandler (idOf : P → Name) (latOf lonOf : P → F) (user password hotel : Name) (s : S) : S × Reply (List A) :=
  match userHandler sv user password s with
  | (s, .error e) => (s, .error e)
  | (s, .ok _) =>
    if hotel = [] then (s, .error "Please specify hotelId params")
    else match sv.profiles [hotel] ['e', 'n'] s with
      | (s, .error e) => (s, .error e)
      | (s, .ok []) => (s, .error "hotel not found")
      | (s, .ok (p :: _)) => if idOf p = [] then (s, .error "hotel not found") else sv.attractions (latOf p) (lonOf p) s

end

/-! ### The application: the front ends over the services of `Model.lean` -/

/-- All databases, caches and in-memory maps. -/
structure World (F P : Type) where
  res : State
  plans : List RatePlan
  rateCache : List (Name × List RatePlan)
  profs : List (Name × P)
  profCache : List (Name × P)
  reviews : List Review
  reviewCache : List (Name × List Review)
  users : Name → Option Name
  offers : List (Offer F)

/-- The services as they are wired (no call fails).  `near` is the geo index, `spots` the index of attractions, `zero` the profile with empty
fields. -/
def services {F P A : Type} [Number F] [DecidableEq F] (cal : Calendar) (hash : Name → Name) (near : F → F → List Name)
    (distance : F → F → Offer F → F) (zero : P) (spots : F → F → List A) : Services (World F P) F P Review A where
  nearby lat lon i o w := let r := nearby w.plans w.rateCache (near lat lon) i o; ({ w with rateCache := r.1 }, .ok r.2)
  available hotels i o n w := let r := check cal i o n w.res hotels; ({ w with res := r.1 }, .ok r.2)
  profiles hotels _ w := let r := getProfiles w.profs zero w.profCache hotels; ({ w with profCache := r.1 }, .ok r.2)
  recommendations require lat lon w := (w, .ok (recommend distance w.offers w.offers require lat lon))
  checkUser user password w := (w, .ok (checkUser hash w.users user password))
  reserve customer hotels i o n w :=
    match make cal w.res customer hotels i o n with
    | (s, some r) => ({ w with res := s }, .ok r)
    | (s, none) => ({ w with res := s }, .error "panic")
  reviews hotel w := let r := getReviews w.reviews w.reviewCache hotel; ({ w with reviewCache := r.1 }, .ok r.2)
  attractions lat lon w := (w, .ok (spots lat lon))

end Verif.Hotel
