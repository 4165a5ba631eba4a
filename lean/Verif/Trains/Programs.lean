import Verif.Trains.Model
/-
Model of the same services of examples/train_ticket/workflow as `Trains/Model.lean`, call by call: a method is a program that calls the
database and looks at what the call returns, and any of these calls may fail.  Methods that other methods call are programs too.

Simplifications: a find and the reading of its cursor are one call; the texts of errors are left out, and so are the values that are returned
next to an error.
-/
namespace Verif.Trains
open Verif.NoSQL (Name Doc Value IntKind Host Codec Ret deleteOne deleteMany kAnd kIn)
variable {F : Type} [Host F] {T : Type}

/-- What becomes of a call of the database: it works; it fails and has no effect; or it has its effect but an error is returned, for
instance because the connection is lost. -/
inductive Reply where
  | works
  | fails
  | lost
  deriving DecidableEq

/-- A method on the databases `S`: it returns, or calls a database and goes on with what the call returns. -/
inductive Prog (S α : Type) : Type 1 where
  | ret (r : Ret α)
  | call {β : Type} (f : S → S × Ret β) (k : Ret β → Prog S α)

namespace Prog
variable {S α β : Type}

/-- The method when its calls of the database have the given replies, the `i`-th one `o i`. -/
def run : Prog S α → (Nat → Reply) → S → S × Ret α
  | .ret r, _, s => (s, r)
  | .call f k, o, s => match o 0 with
    | .works => (k (f s).2).run (fun i => o (i + 1)) (f s).1
    | .fails => (k .error).run (fun i => o (i + 1)) s
    | .lost => (k .error).run (fun i => o (i + 1)) (f s).1

/-- One of the calls that the method makes does not work. -/
def hit : Prog S α → (Nat → Reply) → S → Bool
  | .ret _, _, _ => false
  | .call f k, o, s => match o 0 with
    | .works => (k (f s).2).hit (fun i => o (i + 1)) (f s).1
    | .fails => true
    | .lost => true

/-- A call of another method, and what is done with its result. -/
def bind : Prog S α → (Ret α → Prog S β) → Prog S β
  | .ret r, k => k r
  | .call f j, k => .call f fun r => (j r).bind k

end Prog

section
variable {S α β : Type}

/-- `if err != nil { return …, err }` and the rest. -/
def orErr (k : β → Prog S α) : Ret β → Prog S α
  | .ok b => k b
  | .error => .ret .error
  | .panic => .ret .panic

/-- `coll, err := db.GetCollection(ctx, …)`, `if err != nil { return …, err }` and the rest. -/
def coll (k : Prog S α) : Prog S α := .call (fun s => (s, .ok ())) (orErr fun () => k)

/-- A call that only reads, `if err != nil { return …, err }` and the rest. -/
def reading (f : S → Ret β) (k : β → Prog S α) : Prog S α := .call (fun s => (s, f s)) (orErr k)

/-- A call whose result is returned. -/
def last (f : S → S × Ret α) : Prog S α := .call f .ret

/-- A write, whose error is returned, or else `a`. -/
def writing (f : S → S × Ret Unit) (a : α) : Prog S α := .call f (orErr fun () => .ret (.ok a))

/-- `ok, err := coll.Upsert(…)`, `if err != nil { return …, err }`, `if !ok { return …, errors.New(…) }` and the rest. -/
def replacing (f : S → S × Ret Bool) (k : Prog S α) : Prog S α :=
  .call f (orErr fun
    | true => k
    | false => .ret .error)

/-- `if !exists { return …, errors.New(…) }`, or else what is returned. -/
def orAbsent (g : T → α) : Option T → Prog S α
  | some t => .ret (.ok (g t))
  | none => .ret .error

end

/-- A method that finds a document or returns an error. -/
def finding {α : Type} (c : Codec F T) (q : Doc F) (g : T → α) : Prog (List (Doc F)) α :=
  coll (reading (one c · q) (orAbsent g))

/-- A method that lists documents. -/
def listing (c : Codec F T) (q : Doc F) : Prog (List (Doc F)) (List T) := coll (reading (many c · q) fun ts => .ret (.ok ts))

/-! ### config/configService.go -/
namespace Configs

/-- `Create` (lines 36-55). -/
def createP (conf : Config) (newId : Nat) : Prog (List (Doc F)) Unit :=
  coll (reading (one configs · [(fName, .str conf.name)]) fun
    | some _ => .ret .error
    | none => last (insert configs · conf newId))

/-- `Update` (lines 57-64). -/
def updateP (conf : Config) (newId : Nat) : Prog (List (Doc F)) Bool :=
  coll (last (upserted configs · [(fName, .str conf.name)] conf newId))

/-- `Find` (lines 66-85). -/
def findP (name : Name) : Prog (List (Doc F)) Config := finding configs [(fName, .str name)] id

/-- `Delete` (lines 87-94). -/
def deleteP (name : Name) : Prog (List (Doc F)) Unit := coll (last (deleteOne · [(fName, .str name)]))

/-- `FindAll` (lines 96-111). -/
def findAllP : Prog (List (Doc F)) (List Config) := listing configs []

end Configs

/-! ### station/stationService.go -/
namespace Stations

/-- `CreateStation` (lines 42-62). -/
def createP (st : Station) (newId : Nat) : Prog (List (Doc F)) Unit :=
  coll (reading (one stations · [(fId, .str st.id)]) fun
    | some _ => .ret .error
    | none => last (insert stations · st newId))

/-- `Exists` (lines 64-77). -/
def existP (name : Name) : Prog (List (Doc F)) Bool :=
  coll (reading (one stations · [(fName, .str name)]) fun st => .ret (.ok st.isSome))

/-- `UpdateStation` (lines 79-86). -/
def updateP (st : Station) (newId : Nat) : Prog (List (Doc F)) Bool :=
  coll (last (upserted stations · [(fId, .str st.id)] st newId))

/-- `DeleteStation` (lines 88-95). -/
def deleteP (id : Name) : Prog (List (Doc F)) Unit := coll (last (deleteOne · [(fId, .str id)]))

/-- `FindID` (lines 97-116). -/
def findIDP (name : Name) : Prog (List (Doc F)) Name := finding stations [(fName, .str name)] Station.id

/-- `FindIDs` (lines 118-129). -/
def findIDsP (ids : List Name) : List Name → Prog (List (Doc F)) (List Name)
  | [] => .ret (.ok ids)
  | name :: names => (findIDP name).bind fun
    | .ok id => findIDsP (ids ++ [id]) names
    | .error => findIDsP (ids ++ [[]] ++ [[]]) names
    | .panic => .ret .panic

/-- `FindByID` (lines 131-150). -/
def findByIDP (id : Name) : Prog (List (Doc F)) Station := finding stations [(fId, .str id)] _root_.id

/-- `FindByIDs` (lines 152-163). -/
def findByIDsP (sts : List Station) : List Name → Prog (List (Doc F)) (List Station)
  | [] => .ret (.ok sts)
  | id :: ids => (findByIDP id).bind fun
    | .ok st => findByIDsP (sts ++ [st]) ids
    | .error => findByIDsP (sts ++ [zero] ++ [zero]) ids
    | .panic => .ret .panic

end Stations

/-! ### train/trainService.go -/
namespace Trains

/-- `Create` (lines 39-63). -/
def createP (tt : TrainType) (newId : Nat) : Prog (List (Doc F)) Bool :=
  coll (reading (one trainTypes · [(fName, .str tt.name)]) fun
    | some _ => .ret .error
    | none => writing (insert trainTypes · tt newId) true)

/-- `Retrieve` (lines 65-84). -/
def retrieveP (id : Name) : Prog (List (Doc F)) TrainType := finding trainTypes [(fId, .str id)] _root_.id

/-- `RetrieveByName` (lines 86-105). -/
def retrieveByNameP (name : Name) : Prog (List (Doc F)) TrainType := finding trainTypes [(fName, .str name)] id

/-- `RetrieveByNames` (lines 107-118). -/
def retrieveByNamesP (tts : List TrainType) : List Name → Prog (List (Doc F)) (List TrainType)
  | [] => .ret (.ok tts)
  | name :: names => (retrieveByNameP name).bind fun
    | .ok tt => retrieveByNamesP (tts ++ [tt]) names
    | .error => retrieveByNamesP (tts ++ [zero]) names
    | .panic => .ret .panic

/-- `Update` (lines 120-127). -/
def updateP (tt : TrainType) (newId : Nat) : Prog (List (Doc F)) Bool :=
  coll (last (upserted trainTypes · [(fId, .str tt.id)] tt newId))

/-- `Delete` (lines 129-139). -/
def deleteP (id : Name) : Prog (List (Doc F)) Bool := coll (writing (deleteOne · [(fId, .str id)]) true)

/-- `AllTrains` (lines 141-156). -/
def allTrainsP : Prog (List (Doc F)) (List TrainType) :=
  coll (reading (many trainTypes · []) fun
    | [] => .ret .error
    | t :: ts => .ret (.ok (t :: ts)))

end Trains

/-! ### price/priceService.go -/
namespace Prices

/-- `FindByID` (lines 32-51). -/
def findByIDP (id : Name) : Prog (List (Doc F)) (PriceConfig F) := finding priceConfigs [(fId, .str id)] _root_.id

/-- `GetAllPriceConfig` (lines 53-68). -/
def getAllP : Prog (List (Doc F)) (List (PriceConfig F)) := listing priceConfigs []

/-- `DeletePriceConfig` (lines 70-77). -/
def deleteP (id : Name) : Prog (List (Doc F)) Unit := coll (last (deleteOne · [(fId, .str id)]))

/-- `UpdatePriceConfig` (lines 79-86). -/
def updateP (pc : PriceConfig F) (newId : Nat) : Prog (List (Doc F)) Bool :=
  coll (last (upserted priceConfigs · [(fId, .str pc.id)] pc newId))

/-- `CreateNewPriceConfig` (lines 88-108): any error of `FindByID` means that there is none. -/
def createP (pc : PriceConfig F) (newId : Nat) : Prog (List (Doc F)) Unit :=
  coll ((findByIDP pc.id).bind fun
    | .error => last (insert priceConfigs · pc newId)
    | .ok _ => replacing (upserted priceConfigs · [(fId, .str pc.id)] pc newId) (.ret (.ok ()))
    | .panic => .ret .panic)

/-- `FindByRouteIDAndTrainType` (lines 110-133). -/
def findByRouteAndTypeP (route type : Name) : Prog (List (Doc F)) (PriceConfig F) :=
  finding priceConfigs [(kAnd, .arr [.doc [(fRouteid, .str route)], .doc [(fTraintype, .str type)]] [])] id

/-- `FindByRouteIDsAndTrainTypes` (lines 135-149), from a pass of its loop on. -/
def findByRoutesAndTypesP (res : List (Name × PriceConfig F)) : List Name → Prog (List (Doc F)) (List (Name × PriceConfig F))
  | [] => .ret (.ok res)
  | rt :: rts =>
    match split ':' rt with
    | route :: type :: _ => (findByRouteAndTypeP route type).bind fun
      | .ok pc => findByRoutesAndTypesP (put rt pc res) rts
      | .error => findByRoutesAndTypesP res rts
      | .panic => .ret .panic
    | _ => .ret .panic

end Prices

/-! ### trainfood/trainFoodService.go -/
namespace TrainFoods

/-- `ListTrainFood` (lines 35-50). -/
def listP : Prog (List (Doc F)) (List (TrainFood F)) := listing trainFoods []

/-- `ListTrainFoodByTripID` (lines 52-70). -/
def listByTripP (trip : Name) : Prog (List (Doc F)) (List (Food F)) := finding trainFoods [(fTripid, .str trip)] TrainFood.foods

/-- `CreateTrainFood` (lines 72-98). -/
def createP (tf : TrainFood F) (newId : Nat) : Prog (List (Doc F)) (TrainFood F) :=
  coll (reading (one trainFoods · [(fTripid, .str tf.tripID)]) fun
    | none => writing (insert trainFoods · tf newId) tf
    | some _ => replacing (upserted trainFoods · [(fTripid, .str tf.tripID)] tf newId) (.ret (.ok tf)))

/-- `Cleanup` (lines 100-106). -/
def cleanupP : Prog (List (Doc F)) Unit := coll (last (deleteMany · []))

end TrainFoods

/-! ### stationfood/stationFoodService.go -/
namespace FoodStores

/-- `CreateFoodStore` (lines 38-54).  The error of `One` is not looked at; without a result it returns none. -/
def createP (store : FoodStore F) (newId : Nat) : Prog (List (Doc F)) Unit :=
  coll (reading (one foodStores · [(fId, .str store.id)]) fun
    | some _ => .ret .error
    | none => last (insert foodStores · store newId))

/-- `ListFoodStores` (lines 56-71). -/
def listP : Prog (List (Doc F)) (List (FoodStore F)) := listing foodStores []

/-- `ListFoodStoresByStationName` (lines 73-89). -/
def listByStationP (station : Name) : Prog (List (Doc F)) (List (FoodStore F)) :=
  listing foodStores [(fStationname, .str station)]

/-- `GetFoodStoresByStationNames` (lines 91-111). -/
def listByStationsP (names : List Name) : Prog (List (Doc F)) (List (FoodStore F)) :=
  listing foodStores [(fStationname, .doc [(kIn, .arr (names.map .str) [])])]

/-- `GetFoodStoreByID` (lines 113-134). -/
def getByIDP (id : Name) : Prog (List (Doc F)) (FoodStore F) := finding foodStores [(fId, .str id)] _root_.id

/-- `Cleanup` (lines 136-142). -/
def cleanupP : Prog (List (Doc F)) Unit := coll (last (deleteMany · []))

end FoodStores

/-! ### route/routeService.go -/
namespace Routes

/-- `DeleteRoute` (lines 39-45). -/
def deleteP (id : Name) : Prog (List (Doc F)) Unit := coll (last (deleteOne · [(fId, .str id)]))

/-- `GetAllRoutes` (lines 47-63). -/
def getAllP : Prog (List (Doc F)) (List Route) :=
  coll (reading (many routes · []) fun
    | [] => .ret .error
    | r :: rs => .ret (.ok (r :: rs)))

/-- `GetRouteById` (lines 65-83). -/
def getByIdP (id : Name) : Prog (List (Doc F)) Route := finding routes [(fId, .str id)] _root_.id

/-- `GetRouteByIds` (lines 85-96). -/
def getByIdsP (rs : List Route) : List Name → Prog (List (Doc F)) (List Route)
  | [] => .ret (.ok rs)
  | id :: ids => (getByIdP id).bind fun
    | .ok r => getByIdsP (rs ++ [r]) ids
    | .error => getByIdsP (rs ++ [zero]) ids
    | .panic => .ret .panic

/-- `GetRouteByStartAndEnd` (lines 98-120). -/
def getByStartAndEndP (start stop : Name) : Prog (List (Doc F)) Route :=
  finding routes [(kAnd, .arr [.doc [(fStartstation, .str start)], .doc [(fEndstation, .str stop)]] [])] id

/-- `CreateAndModify` (lines 122-179). -/
def createAndModifyP (info : Info) (uuid : Name) (newId : Nat) : Prog (List (Doc F)) Route :=
  coll (match distances (Prices.split ',' info.distanceList) with
    | none => .ret .error
    | some ds =>
      if (Prices.split ',' info.stationList).length ≠ ds.length then .ret .error
      else if info.id = [] ∨ info.id.length < 32 then
        let route := ⟨uuid, Prices.split ',' info.stationList, ds, info.startStation, info.endStation⟩
        writing (insert routes · route newId) route
      else reading (one routes · [(fId, .str info.id)]) fun
        | some old =>
          let route := ⟨old.id, Prices.split ',' info.stationList, ds, info.startStation, info.endStation⟩
          replacing (upserted routes · [(fId, .str info.id)] route newId) (.ret (.ok route))
        | none =>
          let route := ⟨info.id, Prices.split ',' info.stationList, ds, info.startStation, info.endStation⟩
          writing (insert routes · route newId) route)

end Routes

/-! ### payment/paymentService.go -/
namespace Payments

/-- A call of a collection `payment`. -/
def onPayment {α : Type} (i : Nat) (f : List (Doc F) → List (Doc F) × Ret α) (s : State F) : State F × Ret α :=
  (s.set i { s i with payment := (f (s i).payment).1 }, (f (s i).payment).2)

/-- A call of a collection `money`. -/
def onMoney {α : Type} (i : Nat) (f : List (Doc F) → List (Doc F) × Ret α) (s : State F) : State F × Ret α :=
  (s.set i { s i with money := (f (s i).money).1 }, (f (s i).money).2)

/-- `InitPayment` (lines 38-56). -/
def initPaymentP (v : Service) (p : Payment) (newId : Nat) : Prog (State F) Unit :=
  coll (reading (fun s => one payments (s v.paymentDB).payment [(fId, .str p.id)]) fun
    | some _ => .ret (.ok ())
    | none => last (onPayment v.paymentDB (insert payments · p newId)))

/-- `Query` (lines 58-70). -/
def queryP (v : Service) : Prog (State F) (List Payment) :=
  coll (reading (fun s => many payments (s v.paymentDB).payment []) fun ps => .ret (.ok ps))

/-- `Pay` (lines 72-85). -/
def payP (v : Service) (p : Payment) (newId : Nat) : Prog (State F) Unit :=
  coll (replacing (onPayment v.paymentDB (upserted payments · [(fOrderid, .str p.orderID)] p newId)) (.ret (.ok ())))

/-- `AddMoney` (lines 87-98). -/
def addMoneyP (v : Service) (p : Payment) (uuid : Name) (newId : Nat) : Prog (State F) Unit :=
  coll (last (onMoney v.moneyDB (insert moneys · ⟨uuid, p.userID, p.price⟩ newId)))

/-- `Cleanup` (lines 100-114). -/
def cleanupP (v : Service) : Prog (State F) Unit :=
  coll (.call (onPayment v.moneyDB (deleteMany · [])) (orErr fun () =>
    coll (last (onMoney v.moneyDB (deleteMany · [])))))

end Payments

/-! ### consignprice/consignPriceService.go -/
namespace Consign

/-- `GetPriceConfig` (lines 72-91). -/
def getConfigP : Prog (List (Doc F)) (ConsignPrice F) := finding consignPrices [(fIndex, .int .int 0)] id

/-- `GetPriceByWeightAndRegion` (lines 33-48). -/
def priceP [Arith F] (weight : F) (within : Bool) : Prog (List (Doc F)) F :=
  getConfigP.bind (orErr fun cp =>
    if Host.fle weight cp.initialWeight then .ret (.ok cp.initialPrice)
    else if within then .ret (.ok (Host.fadd cp.initialPrice (Arith.mul (Arith.sub weight cp.initialWeight) cp.withinPrice)))
    else .ret (.ok (Host.fadd cp.initialPrice (Arith.mul (Arith.sub weight cp.initialWeight) cp.beyondPrice))))

/-- `CreateAndModifyPriceConfig` (lines 93-119). -/
def setP (pc : ConsignPrice F) (newId : Nat) : Prog (List (Doc F)) (ConsignPrice F) :=
  coll (reading (one consignPrices · [(fIndex, .int .int 0)]) fun
    | some _ => replacing (upserted consignPrices · [(fIndex, .int .int 0)] { pc with index := 0 } newId)
      (writing (insert consignPrices · { pc with index := 0 } newId) { pc with index := 0 })
    | none => writing (insert consignPrices · { pc with index := 0 } newId) { pc with index := 0 })

end Consign

/-! ### assurance/assuranceService.go -/
namespace Assurances

/-- `GetAllAssurances` (lines 47-59). -/
def getAllP : Prog (List (Doc F)) (List (Assurance F)) := listing assurances []

/-- `FindAssuranceById` (lines 61-80). -/
def findByIdP (id : Name) : Prog (List (Doc F)) (Assurance F) := finding assurances [(fId, .str id)] _root_.id

/-- `FindAssuranceByOrderId` (lines 82-101). -/
def findByOrderP (order : Name) : Prog (List (Doc F)) (Assurance F) := finding assurances [(fOrderid, .str order)] id

/-- `DeleteById` (lines 103-110). -/
def deleteByIdP (id : Name) : Prog (List (Doc F)) Unit := coll (last (deleteOne · [(fId, .str id)]))

/-- `DeleteByOrderId` (lines 112-119). -/
def deleteByOrderP (order : Name) : Prog (List (Doc F)) Unit := coll (last (deleteOne · [(fOrderid, .str order)]))

/-- `Modify` (lines 121-139). -/
def modifyP (a : Assurance F) (newId : Nat) : Prog (List (Doc F)) (Assurance F) :=
  (findByIdP a.id).bind (orErr fun _ =>
    coll (replacing (upserted assurances · [(fId, .str a.id)] a newId) (.ret (.ok a))))

/-- `Create` (lines 141-156). -/
def createP (k : Kinds F) (typeindex : Int) (order uuid : Name) (newId : Nat) : Prog (List (Doc F)) (Assurance F) :=
  match getType k typeindex with
  | none => .ret .error
  | some at_ => coll (writing (insert assurances · ⟨uuid, order, at_⟩ newId) ⟨uuid, order, at_⟩)

end Assurances

/-! ### user/userService.go -/
namespace Users

/-- `FindByUserID` (lines 39-58). -/
def findByIDP (id : Name) : Prog (List (Doc F)) User := finding users [(fUserid, .str id)] _root_.id

/-- `FindByUsername` (lines 60-79). -/
def findByUsernameP (name : Name) : Prog (List (Doc F)) User := finding users [(fUsername, .str name)] id

/-- `DeleteUser` (lines 81-92). -/
def deleteP (id : Name) : Prog (List (Doc F)) Unit := coll (writing (deleteOne · [(fUserid, .str id)]) ())

/-- `GetAllUsers` (lines 94-109). -/
def getAllP : Prog (List (Doc F)) (List User) := listing users []

/-- `SaveUser` (lines 111-117). -/
def saveP (u : User) (newId : Nat) : Prog (List (Doc F)) Unit := coll (last (insert users · u newId))

/-- `UpdateUser` (lines 119-126). -/
def updateP (u : User) (newId : Nat) : Prog (List (Doc F)) Bool :=
  coll (last (upserted users · [(fUserid, .str u.userID)] u newId))

end Users

/-! ### contacts/contactsService.go -/
namespace Contacts

/-- `FindContactsById` (lines 35-54). -/
def findByIdP (id : Name) : Prog (List (Doc F)) Contact := finding contacts [(fId, .str id)] _root_.id

/-- `FindContactsByAccountId` (lines 56-72). -/
def findByAccountP (account : Name) : Prog (List (Doc F)) (List Contact) := listing contacts [(fAccountid, .str account)]

/-- `CreateContacts` (lines 74-93). -/
def createP (c : Contact) (newId : Nat) : Prog (List (Doc F)) Unit :=
  coll (reading (one contacts · [(fAccountid, .str c.accountID), (fDocumentnumber, .str c.documentNumber),
      (fDocumenttype, .int .int c.documentType)]) fun
    | some _ => .ret .error
    | none => last (insert contacts · c newId))

/-- `Delete` (lines 95-102). -/
def deleteP (c : Contact) : Prog (List (Doc F)) Unit := coll (last (deleteOne · [(fId, .str c.id)]))

/-- `GetAllContacts` (lines 104-119). -/
def getAllP : Prog (List (Doc F)) (List Contact) := listing contacts []

/-- `Modify` (lines 121-128). -/
def modifyP (c : Contact) (newId : Nat) : Prog (List (Doc F)) Bool :=
  coll (last (upserted contacts · [(fId, .str c.id)] c newId))

end Contacts

end Verif.Trains
