import Verif.Trains.Data
/-
Model of the services of the train ticket example, examples/train_ticket/workflow, on the in-memory database (`Verif.NoSQL`).
A service's state is the list of documents of its collection; `newId` is the identifier that `InsertOne` would add to a new document,
and `uuid` what `uuid.New().String()` gives.

Simplifications: `GetCollection` does not fail and each service has the collection for itself; calls are one at a time; the texts of
errors are left out.
-/
namespace Verif.Trains
open Verif.NoSQL (Name Doc Value IntKind Host Codec Ret Outcome field findOne findMany insertOne deleteOne deleteMany upsert kAnd kIn
  atoi)
variable {F : Type} [Host F] {T : Type}

/-- `coll.FindOne(ctx, query)` and `res.One(ctx, &t)`: the value that was found, if there is one. -/
def one (c : Codec F T) (docs : List (Doc F)) (q : Doc F) : Ret (Option T) :=
  match findOne docs q with
  | .ok d => .ok (d.map c.dec)
  | .error => .error
  | .panic => .panic

/-- `coll.FindMany(ctx, query)` and `res.All(ctx, &ts)`. -/
def many (c : Codec F T) (docs : List (Doc F)) (q : Doc F) : Ret (List T) :=
  match findMany docs q with
  | .ok ds => .ok (ds.map c.dec)
  | .error => .error
  | .panic => .panic

/-- `if !exists { return …, errors.New(…) }` -/
def found : Ret (Option T) → Ret T
  | .ok (some t) => .ok t
  | .ok none => .error
  | .error => .error
  | .panic => .panic

/-- `if err != nil { return err }` before the rest of a method. -/
def onOk {α β : Type} (docs : List (Doc F)) (r : Ret α) (rest : α → List (Doc F) × Ret β) : List (Doc F) × Ret β :=
  match r with
  | .ok a => rest a
  | .error => (docs, .error)
  | .panic => (docs, .panic)

/-- `coll.InsertOne(ctx, t)` -/
def insert (c : Codec F T) (docs : List (Doc F)) (t : T) (newId : Nat) : List (Doc F) × Ret Unit :=
  insertOne docs (.obj (some (c.enc t))) newId

/-- `coll.Upsert(ctx, query, t)` -/
def upserted (c : Codec F T) (docs : List (Doc F)) (q : Doc F) (t : T) (newId : Nat) : List (Doc F) × Ret Bool :=
  match upsert docs q (.obj (some (c.enc t))) newId with
  | (docs', b, .ok) => (docs', .ok b)
  | (docs', _, .error) => (docs', .error)
  | (docs', _, .panic) => (docs', .panic)

/-- `coll.InsertOne` in the last line of a method that also returns `a`. -/
def andReturn {α : Type} (a : α) : List (Doc F) × Ret Unit → List (Doc F) × Ret α
  | (docs, .ok ()) => (docs, .ok a)
  | (docs, .error) => (docs, .error)
  | (docs, .panic) => (docs, .panic)

/-- `if !ok { return errors.New(…) }` after an `Upsert`, and what the method returns otherwise. -/
def mustReplace {α : Type} (a : α) : List (Doc F) × Ret Bool → List (Doc F) × Ret α
  | (docs, .ok true) => (docs, .ok a)
  | (docs, .ok false) => (docs, .error)
  | (docs, .error) => (docs, .error)
  | (docs, .panic) => (docs, .panic)

/-! ### config/configService.go -/
namespace Configs

/-- `Create` (lines 36-55). -/
def create (docs : List (Doc F)) (conf : Config) (newId : Nat) : List (Doc F) × Ret Unit :=
  onOk docs (one configs docs [(fName, .str conf.name)]) fun
    | some _ => (docs, .error)
    | none => insert configs docs conf newId

/-- `Update` (lines 57-64). -/
def update (docs : List (Doc F)) (conf : Config) (newId : Nat) : List (Doc F) × Ret Bool :=
  upserted configs docs [(fName, .str conf.name)] conf newId

/-- `Find` (lines 66-85). -/
def find (docs : List (Doc F)) (name : Name) : Ret Config := found (one configs docs [(fName, .str name)])

/-- `Delete` (lines 87-94). -/
def delete (docs : List (Doc F)) (name : Name) : List (Doc F) × Ret Unit := deleteOne docs [(fName, .str name)]

/-- `FindAll` (lines 96-111). -/
def findAll (docs : List (Doc F)) : Ret (List Config) := many configs docs []

end Configs

/-! ### station/stationService.go -/
namespace Stations

/-- `CreateStation` (lines 42-62). -/
def create (docs : List (Doc F)) (st : Station) (newId : Nat) : List (Doc F) × Ret Unit :=
  onOk docs (one stations docs [(fId, .str st.id)]) fun
    | some _ => (docs, .error)
    | none => insert stations docs st newId

/-- `Exists` (lines 64-77). -/
def exist (docs : List (Doc F)) (name : Name) : Ret Bool :=
  match one stations docs [(fName, .str name)] with
  | .ok st => .ok st.isSome
  | .error => .error
  | .panic => .panic

/-- `UpdateStation` (lines 79-86). -/
def update (docs : List (Doc F)) (st : Station) (newId : Nat) : List (Doc F) × Ret Bool :=
  upserted stations docs [(fId, .str st.id)] st newId

/-- `DeleteStation` (lines 88-95). -/
def delete (docs : List (Doc F)) (id : Name) : List (Doc F) × Ret Unit := deleteOne docs [(fId, .str id)]

/-- `FindID` (lines 97-116). -/
def findID (docs : List (Doc F)) (name : Name) : Ret Name :=
  match found (one stations docs [(fName, .str name)]) with
  | .ok st => .ok st.id
  | .error => .error
  | .panic => .panic

/-- `FindIDs` (lines 118-129): the result of `FindID` is appended also after an error, when it is the empty string. -/
def findIDs (docs : List (Doc F)) : List Name → Ret (List Name)
  | [] => .ok []
  | name :: names =>
    match findID docs name, findIDs docs names with
    | .panic, _ => .panic
    | _, .panic => .panic
    | _, .error => .error
    | .ok id, .ok ids => .ok (id :: ids)
    | .error, .ok ids => .ok ([] :: [] :: ids)

/-- `FindByID` (lines 131-150). -/
def findByID (docs : List (Doc F)) (id : Name) : Ret Station := found (one stations docs [(fId, .str id)])

/-- `Station{}` -/
def zero : Station := ⟨[], [], 0⟩

/-- `FindByIDs` (lines 152-163): the same. -/
def findByIDs (docs : List (Doc F)) : List Name → Ret (List Station)
  | [] => .ok []
  | id :: ids =>
    match findByID docs id, findByIDs docs ids with
    | .panic, _ => .panic
    | _, .panic => .panic
    | _, .error => .error
    | .ok st, .ok sts => .ok (st :: sts)
    | .error, .ok sts => .ok (zero :: zero :: sts)

end Stations

/-! ### train/trainService.go -/
namespace Trains

/-- `Create` (lines 39-63). -/
def create (docs : List (Doc F)) (tt : TrainType) (newId : Nat) : List (Doc F) × Ret Bool :=
  onOk docs (one trainTypes docs [(fName, .str tt.name)]) fun
    | some _ => (docs, .error)
    | none => andReturn true (insert trainTypes docs tt newId)

/-- `Retrieve` (lines 65-84). -/
def retrieve (docs : List (Doc F)) (id : Name) : Ret TrainType := found (one trainTypes docs [(fId, .str id)])

/-- `RetrieveByName` (lines 86-105). -/
def retrieveByName (docs : List (Doc F)) (name : Name) : Ret TrainType := found (one trainTypes docs [(fName, .str name)])

/-- `TrainType{}` -/
def zero : TrainType := ⟨[], [], 0, 0, 0⟩

/-- `RetrieveByNames` (lines 107-118). -/
def retrieveByNames (docs : List (Doc F)) : List Name → Ret (List TrainType)
  | [] => .ok []
  | name :: names =>
    match retrieveByName docs name, retrieveByNames docs names with
    | .panic, _ => .panic
    | _, .panic => .panic
    | _, .error => .error
    | .ok tt, .ok tts => .ok (tt :: tts)
    | .error, .ok tts => .ok (zero :: tts)

/-- `Update` (lines 120-127). -/
def update (docs : List (Doc F)) (tt : TrainType) (newId : Nat) : List (Doc F) × Ret Bool :=
  upserted trainTypes docs [(fId, .str tt.id)] tt newId

/-- `Delete` (lines 129-139). -/
def delete (docs : List (Doc F)) (id : Name) : List (Doc F) × Ret Bool := andReturn true (deleteOne docs [(fId, .str id)])

/-- `AllTrains` (lines 141-156). -/
def allTrains (docs : List (Doc F)) : Ret (List TrainType) :=
  match many trainTypes docs [] with
  | .ok [] => .error
  | r => r

end Trains

/-! ### price/priceService.go -/
namespace Prices

/-- `FindByID` (lines 32-51). -/
def findByID (docs : List (Doc F)) (id : Name) : Ret (PriceConfig F) := found (one priceConfigs docs [(fId, .str id)])

/-- `GetAllPriceConfig` (lines 53-68). -/
def getAll (docs : List (Doc F)) : Ret (List (PriceConfig F)) := many priceConfigs docs []

/-- `DeletePriceConfig` (lines 70-77). -/
def delete (docs : List (Doc F)) (id : Name) : List (Doc F) × Ret Unit := deleteOne docs [(fId, .str id)]

/-- `UpdatePriceConfig` (lines 79-86). -/
def update (docs : List (Doc F)) (pc : PriceConfig F) (newId : Nat) : List (Doc F) × Ret Bool :=
  upserted priceConfigs docs [(fId, .str pc.id)] pc newId

/-- `CreateNewPriceConfig` (lines 88-108): any error of `FindByID` means that there is none. -/
def create (docs : List (Doc F)) (pc : PriceConfig F) (newId : Nat) : List (Doc F) × Ret Unit :=
  match findByID docs pc.id with
  | .error => insert priceConfigs docs pc newId
  | .ok _ => mustReplace () (upserted priceConfigs docs [(fId, .str pc.id)] pc newId)
  | .panic => (docs, .panic)

/-- `FindByRouteIDAndTrainType` (lines 110-133). -/
def findByRouteAndType (docs : List (Doc F)) (route type : Name) : Ret (PriceConfig F) :=
  found (one priceConfigs docs [(kAnd, .arr [.doc [(fRouteid, .str route)], .doc [(fTraintype, .str type)]] [])])

/-- `strings.Split(s, string(sep))` for a character. -/
def split (sep : Char) : Name → List Name
  | [] => [[]]
  | c :: cs => if c = sep then [] :: split sep cs else
    match split sep cs with
    | [] => [[c]]
    | p :: ps => (c :: p) :: ps

/-- `res[k] = v`. -/
def put {V : Type} (k : Name) (v : V) (m : List (Name × V)) : List (Name × V) := (k, v) :: m.filter fun e => !(e.1 == k)

/-- The loop of `FindByRouteIDsAndTrainTypes` (lines 138-147): `pieces[1]` panics if there is no colon. -/
def pricesLoop (docs : List (Doc F)) (res : List (Name × PriceConfig F)) : List Name → Ret (List (Name × PriceConfig F))
  | [] => .ok res
  | rt :: rts =>
    match split ':' rt with
    | route :: type :: _ => match findByRouteAndType docs route type with
      | .ok pc => pricesLoop docs (put rt pc res) rts
      | .error => pricesLoop docs res rts
      | .panic => .panic
    | _ => .panic

/-- `FindByRouteIDsAndTrainTypes` (lines 135-149). -/
def findByRoutesAndTypes (docs : List (Doc F)) (rts : List Name) : Ret (List (Name × PriceConfig F)) := pricesLoop docs [] rts

end Prices

/-! ### trainfood/trainFoodService.go -/
namespace TrainFoods

/-- `ListTrainFood` (lines 35-50). -/
def list (docs : List (Doc F)) : Ret (List (TrainFood F)) := many trainFoods docs []

/-- `ListTrainFoodByTripID` (lines 52-70). -/
def listByTrip (docs : List (Doc F)) (trip : Name) : Ret (List (Food F)) :=
  match found (one trainFoods docs [(fTripid, .str trip)]) with
  | .ok tf => .ok tf.foods
  | .error => .error
  | .panic => .panic

/-- `CreateTrainFood` (lines 72-98). -/
def create (docs : List (Doc F)) (tf : TrainFood F) (newId : Nat) : List (Doc F) × Ret (TrainFood F) :=
  onOk docs (one trainFoods docs [(fTripid, .str tf.tripID)]) fun
    | none => andReturn tf (insert trainFoods docs tf newId)
    | some _ => mustReplace tf (upserted trainFoods docs [(fTripid, .str tf.tripID)] tf newId)

/-- `Cleanup` (lines 100-106). -/
def cleanup (docs : List (Doc F)) : List (Doc F) × Ret Unit := deleteMany docs []

end TrainFoods

/-! ### stationfood/stationFoodService.go -/
namespace FoodStores

/-- `CreateFoodStore` (lines 38-54). -/
def create (docs : List (Doc F)) (store : FoodStore F) (newId : Nat) : List (Doc F) × Ret Unit :=
  onOk docs (one foodStores docs [(fId, .str store.id)]) fun
    | some _ => (docs, .error)
    | none => insert foodStores docs store newId

/-- `ListFoodStores` (lines 56-71). -/
def list (docs : List (Doc F)) : Ret (List (FoodStore F)) := many foodStores docs []

/-- `ListFoodStoresByStationName` (lines 73-89). -/
def listByStation (docs : List (Doc F)) (station : Name) : Ret (List (FoodStore F)) :=
  many foodStores docs [(fStationname, .str station)]

/-- `GetFoodStoresByStationNames` (lines 91-111). -/
def listByStations (docs : List (Doc F)) (names : List Name) : Ret (List (FoodStore F)) :=
  many foodStores docs [(fStationname, .doc [(kIn, .arr (names.map .str) [])])]

/-- `GetFoodStoreByID` (lines 113-134). -/
def getByID (docs : List (Doc F)) (id : Name) : Ret (FoodStore F) := found (one foodStores docs [(fId, .str id)])

/-- `Cleanup` (lines 136-142). -/
def cleanup (docs : List (Doc F)) : List (Doc F) × Ret Unit := deleteMany docs []

end FoodStores

/-! ### route/routeService.go -/
namespace Routes

/-- route/data.go lines 11-17: `RouteInfo`. -/
structure Info where
  id : Name
  startStation : Name
  endStation : Name
  stationList : Name
  distanceList : Name

/-- `DeleteRoute` (lines 39-45). -/
def delete (docs : List (Doc F)) (id : Name) : List (Doc F) × Ret Unit := deleteOne docs [(fId, .str id)]

/-- `GetAllRoutes` (lines 47-63). -/
def getAll (docs : List (Doc F)) : Ret (List Route) :=
  match many routes docs [] with
  | .ok [] => .error
  | r => r

/-- `GetRouteById` (lines 65-83). -/
def getById (docs : List (Doc F)) (id : Name) : Ret Route := found (one routes docs [(fId, .str id)])

/-- `Route{}` -/
def zero : Route := ⟨[], [], [], [], []⟩

/-- `GetRouteByIds` (lines 85-96). -/
def getByIds (docs : List (Doc F)) : List Name → Ret (List Route)
  | [] => .ok []
  | id :: ids =>
    match getById docs id, getByIds docs ids with
    | .panic, _ => .panic
    | _, .panic => .panic
    | _, .error => .error
    | .ok r, .ok rs => .ok (r :: rs)
    | .error, .ok rs => .ok (zero :: rs)

/-- `GetRouteByStartAndEnd` (lines 98-120). -/
def getByStartAndEnd (docs : List (Doc F)) (start stop : Name) : Ret Route :=
  found (one routes docs [(kAnd, .arr [.doc [(fStartstation, .str start)], .doc [(fEndstation, .str stop)]] [])])

/-- The loop over `dist_pieces` (lines 130-136): `strconv.ParseInt(piece, 10, 64)` accepts what `strconv.Atoi` does.
`none` is the error. -/
def distances : List Name → Option (List Int)
  | [] => some []
  | p :: ps => match atoi p with
    | none => none
    | some n => (distances ps).map (n :: ·)

/-- `CreateAndModify` (lines 122-179).  Simplification: `len(info.ID)` counts characters. -/
def createAndModify (docs : List (Doc F)) (info : Info) (uuid : Name) (newId : Nat) : List (Doc F) × Ret Route :=
  match distances (Prices.split ',' info.distanceList) with
  | none => (docs, .error)
  | some ds =>
    if (Prices.split ',' info.stationList).length ≠ ds.length then (docs, .error)
    else if info.id = [] ∨ info.id.length < 32 then
      let route := ⟨uuid, Prices.split ',' info.stationList, ds, info.startStation, info.endStation⟩
      andReturn route (insert routes docs route newId)
    else onOk docs (one routes docs [(fId, .str info.id)]) fun
      | some old =>
        let route := ⟨old.id, Prices.split ',' info.stationList, ds, info.startStation, info.endStation⟩
        mustReplace route (upserted routes docs [(fId, .str info.id)] route newId)
      | none =>
        let route := ⟨info.id, Prices.split ',' info.stationList, ds, info.startStation, info.endStation⟩
        andReturn route (insert routes docs route newId)

end Routes

/-! ### payment/paymentService.go -/
namespace Payments

/-- The collections `payment` and `money` of one database server. -/
structure Db (F : Type) where
  payment : List (Doc F)
  money : List (Doc F)

/-- The two databases that the service was given, `paymentDB` and `moneyDB`, by their numbers: they may be the same. -/
structure Service where
  paymentDB : Nat
  moneyDB : Nat

/-- All databases. -/
abbrev State (F : Type) := Nat → Db F

def State.set (s : State F) (i : Nat) (db : Db F) : State F := fun j => if j = i then db else s j

/-- `InitPayment` (lines 38-56). -/
def initPayment (v : Service) (s : State F) (p : Payment) (newId : Nat) : State F × Ret Unit :=
  let db := s v.paymentDB
  let r := onOk db.payment (one payments db.payment [(fId, .str p.id)]) fun
    | some _ => (db.payment, .ok ())
    | none => insert payments db.payment p newId
  (s.set v.paymentDB { db with payment := r.1 }, r.2)

/-- `Query` (lines 58-70). -/
def query (v : Service) (s : State F) : Ret (List Payment) := many payments (s v.paymentDB).payment []

/-- `Pay` (lines 72-85). -/
def pay (v : Service) (s : State F) (p : Payment) (newId : Nat) : State F × Ret Unit :=
  let db := s v.paymentDB
  let r := mustReplace () (upserted payments db.payment [(fOrderid, .str p.orderID)] p newId)
  (s.set v.paymentDB { db with payment := r.1 }, r.2)

/-- `AddMoney` (lines 87-98). -/
def addMoney (v : Service) (s : State F) (p : Payment) (uuid : Name) (newId : Nat) : State F × Ret Unit :=
  let db := s v.moneyDB
  let r := insert moneys db.money ⟨uuid, p.userID, p.price⟩ newId
  (s.set v.moneyDB { db with money := r.1 }, r.2)

/-- `Cleanup` (lines 100-114): both collections are taken from `moneyDB`. -/
def cleanup (v : Service) (s : State F) : State F × Ret Unit :=
  let db := s v.moneyDB
  let r := deleteMany db.payment []
  let s := s.set v.moneyDB { db with payment := r.1 }
  match r.2 with
  | .ok () =>
    let db := s v.moneyDB
    let r := deleteMany db.money []
    (s.set v.moneyDB { db with money := r.1 }, r.2)
  | e => (s, e)

end Payments

/-! ### consignprice/consignPriceService.go -/
namespace Consign

/-- Go's `float64` subtraction and multiplication. -/
class Arith (F : Type) where
  sub : F → F → F
  mul : F → F → F

/-- `GetPriceConfig` (lines 72-91). -/
def getConfig (docs : List (Doc F)) : Ret (ConsignPrice F) := found (one consignPrices docs [(fIndex, .int .int 0)])

/-- `GetPriceByWeightAndRegion` (lines 33-48). -/
def price [Arith F] (docs : List (Doc F)) (weight : F) (within : Bool) : Ret F :=
  match getConfig docs with
  | .ok cp =>
    if Host.fle weight cp.initialWeight then .ok cp.initialPrice
    else if within then .ok (Host.fadd cp.initialPrice (Arith.mul (Arith.sub weight cp.initialWeight) cp.withinPrice))
    else .ok (Host.fadd cp.initialPrice (Arith.mul (Arith.sub weight cp.initialWeight) cp.beyondPrice))
  | .error => .error
  | .panic => .panic

/-- `CreateAndModifyPriceConfig` (lines 93-119): after a replacement it goes on to `InsertOne`. -/
def set (docs : List (Doc F)) (pc : ConsignPrice F) (newId : Nat) : List (Doc F) × Ret (ConsignPrice F) :=
  onOk docs (one consignPrices docs [(fIndex, .int .int 0)]) fun old =>
    let pc := { pc with index := 0 }
    match old with
    | some _ => match upserted consignPrices docs [(fIndex, .int .int 0)] pc newId with
      | (docs, .ok true) => andReturn pc (insert consignPrices docs pc newId)
      | (docs, .ok false) => (docs, .error)
      | (docs, .error) => (docs, .error)
      | (docs, .panic) => (docs, .panic)
    | none => andReturn pc (insert consignPrices docs pc newId)

end Consign

/-! ### assurance/assuranceService.go -/
namespace Assurances

/-- assurance/data.go line 15, with the name `Traffic Accident Assurance` and the price 3.0 as Go computes them. -/
structure Kinds (F : Type) where
  name : Name
  price : F

def Kinds.traffic (k : Kinds F) : AssuranceType F := ⟨1, k.name, k.price⟩

/-- `getAssuranceType` (data.go lines 18-23). -/
def getType (k : Kinds F) (index : Int) : Option (AssuranceType F) := if index = k.traffic.index then some k.traffic else none

/-- `GetAllAssurances` (lines 47-59). -/
def getAll (docs : List (Doc F)) : Ret (List (Assurance F)) := many assurances docs []

/-- `FindAssuranceById` (lines 61-80). -/
def findById (docs : List (Doc F)) (id : Name) : Ret (Assurance F) := found (one assurances docs [(fId, .str id)])

/-- `FindAssuranceByOrderId` (lines 82-101). -/
def findByOrder (docs : List (Doc F)) (order : Name) : Ret (Assurance F) := found (one assurances docs [(fOrderid, .str order)])

/-- `DeleteById` (lines 103-110). -/
def deleteById (docs : List (Doc F)) (id : Name) : List (Doc F) × Ret Unit := deleteOne docs [(fId, .str id)]

/-- `DeleteByOrderId` (lines 112-119). -/
def deleteByOrder (docs : List (Doc F)) (order : Name) : List (Doc F) × Ret Unit := deleteOne docs [(fOrderid, .str order)]

/-- `Modify` (lines 121-139). -/
def modify (docs : List (Doc F)) (a : Assurance F) (newId : Nat) : List (Doc F) × Ret (Assurance F) :=
  onOk docs (findById docs a.id) fun _ => mustReplace a (upserted assurances docs [(fId, .str a.id)] a newId)

/-- `Create` (lines 141-156). -/
def create (k : Kinds F) (docs : List (Doc F)) (typeindex : Int) (order uuid : Name) (newId : Nat) :
    List (Doc F) × Ret (Assurance F) :=
  match getType k typeindex with
  | none => (docs, .error)
  | some at_ => andReturn ⟨uuid, order, at_⟩ (insert assurances docs ⟨uuid, order, at_⟩ newId)

end Assurances

/-! ### user/userService.go -/
namespace Users

/-- `FindByUserID` (lines 39-58). -/
def findByID (docs : List (Doc F)) (id : Name) : Ret User := found (one users docs [(fUserid, .str id)])

/-- `FindByUsername` (lines 60-79). -/
def findByUsername (docs : List (Doc F)) (name : Name) : Ret User := found (one users docs [(fUsername, .str name)])

/-- `DeleteUser` (lines 81-92). -/
def delete (docs : List (Doc F)) (id : Name) : List (Doc F) × Ret Unit := deleteOne docs [(fUserid, .str id)]

/-- `GetAllUsers` (lines 94-109). -/
def getAll (docs : List (Doc F)) : Ret (List User) := many users docs []

/-- `SaveUser` (lines 111-117). -/
def save (docs : List (Doc F)) (u : User) (newId : Nat) : List (Doc F) × Ret Unit := insert users docs u newId

/-- `UpdateUser` (lines 119-126). -/
def update (docs : List (Doc F)) (u : User) (newId : Nat) : List (Doc F) × Ret Bool :=
  upserted users docs [(fUserid, .str u.userID)] u newId

end Users

/-! ### contacts/contactsService.go -/
namespace Contacts

/-- `FindContactsById` (lines 35-54). -/
def findById (docs : List (Doc F)) (id : Name) : Ret Contact := found (one contacts docs [(fId, .str id)])

/-- `FindContactsByAccountId` (lines 56-72). -/
def findByAccount (docs : List (Doc F)) (account : Name) : Ret (List Contact) := many contacts docs [(fAccountid, .str account)]

/-- `CreateContacts` (lines 74-93).  `One` is called with a struct in place of a pointer: with a result it then returns true and an
error, and the former is looked at first. -/
def create (docs : List (Doc F)) (c : Contact) (newId : Nat) : List (Doc F) × Ret Unit :=
  onOk docs (one contacts docs [(fAccountid, .str c.accountID), (fDocumentnumber, .str c.documentNumber),
      (fDocumenttype, .int .int c.documentType)]) fun
    | some _ => (docs, .error)
    | none => insert contacts docs c newId

/-- `Delete` (lines 95-102). -/
def delete (docs : List (Doc F)) (c : Contact) : List (Doc F) × Ret Unit := deleteOne docs [(fId, .str c.id)]

/-- `GetAllContacts` (lines 104-119). -/
def getAll (docs : List (Doc F)) : Ret (List Contact) := many contacts docs []

/-- `Modify` (lines 121-128). -/
def modify (docs : List (Doc F)) (c : Contact) (newId : Nat) : List (Doc F) × Ret Bool :=
  upserted contacts docs [(fId, .str c.id)] c newId

end Contacts

/-! ### delivery/deliveryService.go -/
namespace Deliver

/-- What becomes of a delivery that was taken from the queue (lines 41-48). -/
inductive Fate where
  | stored (newId : Nat)
  /-- `InsertOne` returns an error, which is logged -/
  | insertFails
  /-- `GetCollection` returns an error, which is logged, and no collection: `InsertOne` on it panics -/
  | noCollection

inductive Event where
  /-- another service puts a delivery into the queue -/
  | push (d : Delivery)
  /-- an iteration of the loop of `Run` with what happens to the delivery, if there is one -/
  | iterate (f : Fate)
  /-- an iteration in which `Pop` returns an error or nothing -/
  | idle
  /-- the context ends: `Run` returns in the next iteration -/
  | cancel

structure State (F : Type) where
  queue : List Delivery
  docs : List (Doc F)
  /-- `Run` has not returned or panicked -/
  running : Bool

/-- `Run` (lines 29-52).  Simplification: the queue is an unbounded FIFO (C03). -/
def step (s : State F) : Event → State F
  | .push d => { s with queue := s.queue ++ [d] }
  | .idle => s
  | .cancel => { s with running := false }
  | .iterate f =>
    if s.running then
      match s.queue with
      | [] => s
      | d :: queue => match f with
        | .stored newId => { s with queue, docs := (insert deliveries s.docs d newId).1 }
        | .insertFails => { s with queue }
        | .noCollection => { s with queue, running := false }
    else s

end Deliver

end Verif.Trains
