import Verif.Hotel.Web
/-
The hotel example's search for places: GeoService.go and AttractionsService.go (examples/dsb_hotel/workflow/hotelreservation), with database
calls that may fail.

Simplifications: `ok i` says whether the database's i-th call succeeds; a call that fails changes nothing.  `P` are the documents (Point,
Restaurant, Museum and Cinema, DataModels.go), `pid` their identifiers.  Collections are named by a type `K`.  The index of points (package
geoindex) is a list with at most one point for each identifier, and its `KNearest` with 5 results and 10 km is a function `near`.
-/
namespace Verif.Hotel.Geo

structure Db (K P : Type) where
  docs : K → List P
  calls : Nat

section
variable {K P F : Type} [DecidableEq K] (pid : P → Name) (ok : Nat → Bool)

/-- One more call. -/
def Db.tick (db : Db K P) : Db K P := { db with calls := db.calls + 1 }

def Db.insert (db : Db K P) (k : K) (p : P) : Db K P := ⟨fun k' => if k' = k then db.docs k ++ [p] else db.docs k', db.calls + 1⟩

/-- `InsertOne` of one document after the other, up to the first error: GeoService.go lines 29-68, AttractionsService.go lines 37-48 and
54-65. -/
def insertAll (k : K) : List P → Db K P → Db K P × Bool
  | [], db => (db, true)
  | p :: ps, db => if ok db.calls then insertAll k ps (db.insert k p) else (db.tick, false)

/-- `initGeoDB` (GeoService.go lines 24-71). -/
def initGeo (k : K) (seeds : List P) (db : Db K P) : Db K P × Bool :=
  if ok db.calls then insertAll ok k seeds db.tick else (db.tick, false)

/-- `ClusteringIndex.Add`: a point with the same identifier is replaced. -/
def put (p : P) : List P → List P
  | [] => [p]
  | q :: m => if pid q = pid p then p :: m else q :: put p m

/-- The loops that add points: GeoService.go lines 101-103, AttractionsService.go lines 113-115, 121-123 and 129-131. -/
def index (docs : List P) : List P := docs.foldl (fun m p => put pid p m) []

/-- `newGeoIndex` (GeoService.go lines 88-105): `GetCollection`, `FindMany`, and `All`, whose error is ignored; it may have decoded the first
`cut` documents.  `none`: `g.index` stays nil. -/
def newGeoIndex (cut : Nat) (k : K) (db : Db K P) : Db K P × Option (List P) :=
  if ok db.calls then
    if ok (db.calls + 1) then
      ({ db with calls := db.calls + 3 }, some (index pid (if ok (db.calls + 2) then db.docs k else (db.docs k).take cut)))
    else ({ db with calls := db.calls + 2 }, none)
  else (db.tick, none)

/-- `NewGeoServiceImpl` (lines 74-82), which ignores the error of `newGeoIndex`.  The result is `none` for an error, otherwise the service's
index. -/
def newGeo (cut : Nat) (k : K) (seeds : List P) (db : Db K P) : Db K P × Option (Option (List P)) :=
  match initGeo ok k seeds db with
  | (db, false) => (db, none)
  | (db, true) => let r := newGeoIndex pid ok cut k db; (r.1, some r.2)

/-- `Nearby` (lines 107-121).  `none`: `KNearest` on a nil index panics. -/
def nearbyHotels (near : List P → F → F → List P) (service : Option (List P)) (lat lon : F) : Option (List Name) :=
  match service with
  | none => none
  | some pts => some ((near pts lat lon).map pid)

/-! ### Attractions -/

inductive Spot where
  | restaurants | museums | cinemas
deriving DecidableEq

/-- `initAttractionsDB` (AttractionsService.go lines 32-71). -/
def initAttractions (rs ms : List P) (db : Db Spot P) : Db Spot P × Bool :=
  match initGeo ok .restaurants rs db with
  | (db, false) => (db, false)
  | (db, true) =>
    match initGeo ok .museums ms db with
    | (db, false) => (db, false)
    | (db, true) => (db.tick, ok db.calls)

/-- `newGeoIndex` (AttractionsService.go lines 96-134).  The three cases of the type switch differ in the type of documents only. -/
def newSpotIndex (k : Spot) (db : Db Spot P) : Db Spot P × Option (List P) :=
  if ok db.calls then
    if ok (db.calls + 1) then
      if ok (db.calls + 2) then ({ db with calls := db.calls + 3 }, some (index pid (db.docs k)))
      else ({ db with calls := db.calls + 3 }, none)
    else ({ db with calls := db.calls + 2 }, none)
  else (db.tick, none)

/-- The service's three indexes. -/
structure Spots (P : Type) where
  restaurants : List P
  museums : List P
  cinemas : List P

/-- `NewAttractionsServiceImpl` (lines 74-94). -/
def newAttractions (rs ms : List P) (db : Db Spot P) : Db Spot P × Option (Spots P) :=
  match initAttractions ok rs ms db with
  | (db, false) => (db, none)
  | (db, true) =>
    match newSpotIndex pid ok .restaurants db with
    | (db, none) => (db, none)
    | (db, some r) =>
      match newSpotIndex pid ok .museums db with
      | (db, none) => (db, none)
      | (db, some m) =>
        match newSpotIndex pid ok .cinemas db with
        | (db, none) => (db, none)
        | (db, some c) => (db, some ⟨r, m, c⟩)

/-- `NearbyRest`, `NearbyMus` and `NearbyCinema` (lines 136-177): the points of an index have the type of its documents. -/
def nearbySpots (near : List P → F → F → List P) (service : Spots P) (k : Spot) (lat lon : F) : List P :=
  match k with
  | .restaurants => near service.restaurants lat lon
  | .museums => near service.museums lat lon
  | .cinemas => near service.cinemas lat lon

/-! ### Starts -/

/-- The database after the service was started `n` times on it, with whatever result. -/
def geoStarts (cut : Nat) (k : K) (seeds : List P) : Nat → Db K P → Db K P
  | 0, db => db
  | n + 1, db => geoStarts cut k seeds n (newGeo pid ok cut k seeds db).1

def spotStarts (rs ms : List P) : Nat → Db Spot P → Db Spot P
  | 0, db => db
  | n + 1, db => spotStarts rs ms n (newAttractions pid ok rs ms db).1

end

/-! ### The documents that a start inserts -/

/-- The identifiers of the hotels that `initGeoDB` inserts, in this order (lines 29-68). -/
def hotelIds : List Name := (List.range 80).map fun i => Nat.toDigits 10 (i + 1)

/-- The restaurants' and the museums' (AttractionsService.go lines 37-44 and 54-61). -/
def spotIds : List Name := (List.range 6).map fun i => Nat.toDigits 10 (i + 1)

end Verif.Hotel.Geo
