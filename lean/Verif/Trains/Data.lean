import Verif.NoSQL.Typed
/-
The data of the train ticket example (examples/train_ticket/workflow/*/data.go) and how it is stored: the fields of a struct under
their names in lower case, in order (the bson library's default).

Simplifications: nil and empty slices are not distinguished; a document always comes from the same struct, so the decoders need not
report a field of another type (they give the zero value).
-/
namespace Verif.Trains
open Verif.NoSQL (Name Doc Value IntKind Host Codec field)
variable {F : Type}

def fId : Name := ['i', 'd']
def fName : Name := ['n', 'a', 'm', 'e']
def fValue : Name := ['v', 'a', 'l', 'u', 'e']
def fDescription : Name := ['d', 'e', 's', 'c', 'r', 'i', 'p', 't', 'i', 'o', 'n']
def fStaytime : Name := ['s', 't', 'a', 'y', 't', 'i', 'm', 'e']
def fEconomyclass : Name := ['e', 'c', 'o', 'n', 'o', 'm', 'y', 'c', 'l', 'a', 's', 's']
def fComfortclass : Name := ['c', 'o', 'm', 'f', 'o', 'r', 't', 'c', 'l', 'a', 's', 's']
def fAvgspeed : Name := ['a', 'v', 'g', 's', 'p', 'e', 'e', 'd']
def fTraintype : Name := ['t', 'r', 'a', 'i', 'n', 't', 'y', 'p', 'e']
def fRouteid : Name := ['r', 'o', 'u', 't', 'e', 'i', 'd']
def fBasicpricerate : Name := ['b', 'a', 's', 'i', 'c', 'p', 'r', 'i', 'c', 'e', 'r', 'a', 't', 'e']
def fFirstclasspricerate : Name := ['f', 'i', 'r', 's', 't', 'c', 'l', 'a', 's', 's', 'p', 'r', 'i', 'c', 'e', 'r', 'a', 't', 'e']
def fTripid : Name := ['t', 'r', 'i', 'p', 'i', 'd']
def fFoods : Name := ['f', 'o', 'o', 'd', 's']
def fPrice : Name := ['p', 'r', 'i', 'c', 'e']
def fStationname : Name := ['s', 't', 'a', 't', 'i', 'o', 'n', 'n', 'a', 'm', 'e']
def fStorename : Name := ['s', 't', 'o', 'r', 'e', 'n', 'a', 'm', 'e']
def fTelephone : Name := ['t', 'e', 'l', 'e', 'p', 'h', 'o', 'n', 'e']
def fBusinesstime : Name := ['b', 'u', 's', 'i', 'n', 'e', 's', 's', 't', 'i', 'm', 'e']
def fDeliveryfee : Name := ['d', 'e', 'l', 'i', 'v', 'e', 'r', 'y', 'f', 'e', 'e']
def fStations : Name := ['s', 't', 'a', 't', 'i', 'o', 'n', 's']
def fDistances : Name := ['d', 'i', 's', 't', 'a', 'n', 'c', 'e', 's']
def fStartstation : Name := ['s', 't', 'a', 'r', 't', 's', 't', 'a', 't', 'i', 'o', 'n']
def fEndstation : Name := ['e', 'n', 'd', 's', 't', 'a', 't', 'i', 'o', 'n']
def fOrderid : Name := ['o', 'r', 'd', 'e', 'r', 'i', 'd']
def fUserid : Name := ['u', 's', 'e', 'r', 'i', 'd']
def fIndex : Name := ['i', 'n', 'd', 'e', 'x']
def fInitialweight : Name := ['i', 'n', 'i', 't', 'i', 'a', 'l', 'w', 'e', 'i', 'g', 'h', 't']
def fInitialprice : Name := ['i', 'n', 'i', 't', 'i', 'a', 'l', 'p', 'r', 'i', 'c', 'e']
def fWithinprice : Name := ['w', 'i', 't', 'h', 'i', 'n', 'p', 'r', 'i', 'c', 'e']
def fBeyondprice : Name := ['b', 'e', 'y', 'o', 'n', 'd', 'p', 'r', 'i', 'c', 'e']
def fAt : Name := ['a', 't']
def fUsername : Name := ['u', 's', 'e', 'r', 'n', 'a', 'm', 'e']
def fPassword : Name := ['p', 'a', 's', 's', 'w', 'o', 'r', 'd']
def fGender : Name := ['g', 'e', 'n', 'd', 'e', 'r']
def fDocumenttype : Name := ['d', 'o', 'c', 'u', 'm', 'e', 'n', 't', 't', 'y', 'p', 'e']
def fDocumentnum : Name := ['d', 'o', 'c', 'u', 'm', 'e', 'n', 't', 'n', 'u', 'm']
def fEmail : Name := ['e', 'm', 'a', 'i', 'l']
def fAccountid : Name := ['a', 'c', 'c', 'o', 'u', 'n', 't', 'i', 'd']
def fDocumentnumber : Name := ['d', 'o', 'c', 'u', 'm', 'e', 'n', 't', 'n', 'u', 'm', 'b', 'e', 'r']
def fPhonenumber : Name := ['p', 'h', 'o', 'n', 'e', 'n', 'u', 'm', 'b', 'e', 'r']
def fFoodname : Name := ['f', 'o', 'o', 'd', 'n', 'a', 'm', 'e']

/-- A string field. -/
def str (k : Name) (d : Doc F) : Name := match field k d with
  | some (.str s) => s
  | _ => []

/-- An integer field. -/
def int (k : Name) (d : Doc F) : Int := match field k d with
  | some (.int _ n) => n
  | _ => 0

/-- A floating point field. -/
def flt [Host F] (k : Name) (d : Doc F) : F := match field k d with
  | some (.float f) => f
  | _ => Host.ofInt 0

/-- A struct in a field. -/
def sub (k : Name) (d : Doc F) : Doc F := match field k d with
  | some (.doc e) => e
  | _ => []

/-- A slice in a field. -/
def elems (k : Name) (d : Doc F) : List (Value F) := match field k d with
  | some (.arr es _) => es
  | _ => []

/-- A slice as it is stored. -/
def slice [Host F] (vs : List (Value F)) : Value F := .arr vs (List.replicate (Host.decodeRoom F vs.length) .null)

def strOf : Value F → Name
  | .str s => s
  | _ => []

def intOf : Value F → Int
  | .int _ n => n
  | _ => 0

def docOf : Value F → Doc F
  | .doc d => d
  | _ => []

/-- How the bson library stores a Go `int`: in 32 bits if it fits. -/
def kindOf (n : Int) : IntKind := if -2147483648 ≤ n ∧ n ≤ 2147483647 then .int32 else .int64

/-- config/data.go. -/
structure Config where
  name : Name
  value : Name
  description : Name
deriving DecidableEq

/-- `Config` in the database. -/
def configs [Host F] : Codec F Config where
  enc t := [(fName, .str t.name), (fValue, .str t.value), (fDescription, .str t.description)]
  dec d := ⟨str fName d, str fValue d, str fDescription d⟩

/-- station/data.go. -/
structure Station where
  id : Name
  name : Name
  stayTime : Int
deriving DecidableEq

/-- `Station` in the database. -/
def stations [Host F] : Codec F Station where
  enc t := [(fId, .str t.id), (fName, .str t.name), (fStaytime, .int .int64 t.stayTime)]
  dec d := ⟨str fId d, str fName d, int fStaytime d⟩

/-- train/data.go lines 4-10. -/
structure TrainType where
  id : Name
  name : Name
  economyClass : Int
  comfortClass : Int
  avgSpeed : Int
deriving DecidableEq

/-- `TrainType` in the database. -/
def trainTypes [Host F] : Codec F TrainType where
  enc t := [(fId, .str t.id), (fName, .str t.name), (fEconomyclass, .int .int64 t.economyClass), (fComfortclass,
    .int .int64 t.comfortClass), (fAvgspeed, .int .int64 t.avgSpeed)]
  dec d := ⟨str fId d, str fName d, int fEconomyclass d, int fComfortclass d, int fAvgspeed d⟩

/-- price/data.go. -/
structure PriceConfig (F : Type) where
  id : Name
  trainType : Name
  routeID : Name
  basicPriceRate : F
  firstClassPriceRate : F

/-- `PriceConfig` in the database. -/
def priceConfigs [Host F] : Codec F (PriceConfig F) where
  enc t := [(fId, .str t.id), (fTraintype, .str t.trainType), (fRouteid, .str t.routeID), (fBasicpricerate, .float t.basicPriceRate),
    (fFirstclasspricerate, .float t.firstClassPriceRate)]
  dec d := ⟨str fId d, str fTraintype d, str fRouteid d, flt fBasicpricerate d, flt fFirstclasspricerate d⟩

/-- food/data.go lines 3-6. -/
structure Food (F : Type) where
  name : Name
  price : F

/-- `Food` in the database. -/
def foods [Host F] : Codec F (Food F) where
  enc t := [(fName, .str t.name), (fPrice, .float t.price)]
  dec d := ⟨str fName d, flt fPrice d⟩

/-- trainfood/data.go. -/
structure TrainFood (F : Type) where
  id : Name
  tripID : Name
  foods : List (Food F)

/-- `TrainFood` in the database. -/
def trainFoods [Host F] : Codec F (TrainFood F) where
  enc t := [(fId, .str t.id), (fTripid, .str t.tripID), (fFoods, slice (t.foods.map fun f => .doc (foods.enc f)))]
  dec d := ⟨str fId d, str fTripid d, (elems fFoods d).map fun v => foods.dec (docOf v)⟩

/-- stationfood/data.go: `StationFoodStore`. -/
structure FoodStore (F : Type) where
  id : Name
  stationName : Name
  storeName : Name
  telephone : Name
  businessTime : Name
  deliveryFee : F
  foods : List (Food F)

/-- `FoodStore` in the database. -/
def foodStores [Host F] : Codec F (FoodStore F) where
  enc t := [(fId, .str t.id), (fStationname, .str t.stationName), (fStorename, .str t.storeName), (fTelephone, .str t.telephone),
    (fBusinesstime, .str t.businessTime), (fDeliveryfee, .float t.deliveryFee), (fFoods,
    slice (t.foods.map fun f => .doc (foods.enc f)))]
  dec d := ⟨str fId d, str fStationname d, str fStorename d, str fTelephone d, str fBusinesstime d, flt fDeliveryfee d,
    (elems fFoods d).map fun v => foods.dec (docOf v)⟩

/-- route/data.go lines 3-9. -/
structure Route where
  id : Name
  stations : List Name
  distances : List Int
  startStation : Name
  endStation : Name
deriving DecidableEq

/-- `Route` in the database. -/
def routes [Host F] : Codec F Route where
  enc t := [(fId, .str t.id), (fStations, slice (t.stations.map .str)), (fDistances, slice (t.distances.map (.int .int64))),
    (fStartstation, .str t.startStation), (fEndstation, .str t.endStation)]
  dec d := ⟨str fId d, (elems fStations d).map strOf, (elems fDistances d).map intOf, str fStartstation d, str fEndstation d⟩

/-- payment/data.go lines 3-8. -/
structure Payment where
  id : Name
  orderID : Name
  userID : Name
  price : Name
deriving DecidableEq

/-- `Payment` in the database. -/
def payments [Host F] : Codec F Payment where
  enc t := [(fId, .str t.id), (fOrderid, .str t.orderID), (fUserid, .str t.userID), (fPrice, .str t.price)]
  dec d := ⟨str fId d, str fOrderid d, str fUserid d, str fPrice d⟩

/-- payment/data.go lines 10-14. -/
structure Money where
  id : Name
  userID : Name
  price : Name
deriving DecidableEq

/-- `Money` in the database. -/
def moneys [Host F] : Codec F Money where
  enc t := [(fId, .str t.id), (fUserid, .str t.userID), (fPrice, .str t.price)]
  dec d := ⟨str fId d, str fUserid d, str fPrice d⟩

/-- consignprice/data.go. -/
structure ConsignPrice (F : Type) where
  id : Name
  index : Int
  initialWeight : F
  initialPrice : F
  withinPrice : F
  beyondPrice : F

/-- `ConsignPrice` in the database. -/
def consignPrices [Host F] : Codec F (ConsignPrice F) where
  enc t := [(fId, .str t.id), (fIndex, .int .int64 t.index), (fInitialweight, .float t.initialWeight), (fInitialprice,
    .float t.initialPrice), (fWithinprice, .float t.withinPrice), (fBeyondprice, .float t.beyondPrice)]
  dec d := ⟨str fId d, int fIndex d, flt fInitialweight d, flt fInitialprice d, flt fWithinprice d, flt fBeyondprice d⟩

/-- assurance/data.go lines 9-13. -/
structure AssuranceType (F : Type) where
  index : Int
  name : Name
  price : F

/-- `AssuranceType` in the database. -/
def assuranceTypes [Host F] : Codec F (AssuranceType F) where
  enc t := [(fIndex, .int .int64 t.index), (fName, .str t.name), (fPrice, .float t.price)]
  dec d := ⟨int fIndex d, str fName d, flt fPrice d⟩

/-- assurance/data.go lines 25-29. -/
structure Assurance (F : Type) where
  id : Name
  orderID : Name
  kind : AssuranceType F

/-- `Assurance` in the database. -/
def assurances [Host F] : Codec F (Assurance F) where
  enc t := [(fId, .str t.id), (fOrderid, .str t.orderID), (fAt, .doc (assuranceTypes.enc t.kind))]
  dec d := ⟨str fId d, str fOrderid d, assuranceTypes.dec (sub fAt d)⟩

/-- user/data.go. -/
structure User where
  userID : Name
  username : Name
  password : Name
  gender : Int
  documentType : Int
  documentNum : Name
  email : Name
deriving DecidableEq

/-- `User` in the database. -/
def users [Host F] : Codec F User where
  enc t := [(fUserid, .str t.userID), (fUsername, .str t.username), (fPassword, .str t.password), (fGender, .int .int64 t.gender),
    (fDocumenttype, .int .int64 t.documentType), (fDocumentnum, .str t.documentNum), (fEmail, .str t.email)]
  dec d := ⟨str fUserid d, str fUsername d, str fPassword d, int fGender d, int fDocumenttype d, str fDocumentnum d, str fEmail d⟩

/-- contacts/data.go lines 11-18. -/
structure Contact where
  id : Name
  accountID : Name
  name : Name
  documentType : Int
  documentNumber : Name
  phoneNumber : Name
deriving DecidableEq

/-- `Contact` in the database. -/
def contacts [Host F] : Codec F Contact where
  enc t := [(fId, .str t.id), (fAccountid, .str t.accountID), (fName, .str t.name), (fDocumenttype,
    .int (kindOf t.documentType) t.documentType), (fDocumentnumber, .str t.documentNumber), (fPhonenumber, .str t.phoneNumber)]
  dec d := ⟨str fId d, str fAccountid d, str fName d, int fDocumenttype d, str fDocumentnumber d, str fPhonenumber d⟩

/-- delivery/data.go. -/
structure Delivery where
  id : Name
  orderID : Name
  foodName : Name
  storeName : Name
  stationName : Name
deriving DecidableEq

/-- `Delivery` in the database. -/
def deliveries [Host F] : Codec F Delivery where
  enc t := [(fId, .str t.id), (fOrderid, .str t.orderID), (fFoodname, .str t.foodName), (fStorename, .str t.storeName),
    (fStationname, .str t.stationName)]
  dec d := ⟨str fId d, str fOrderid d, str fFoodname d, str fStorename d, str fStationname d⟩

end Verif.Trains
