import Verif.Trains.Model
/-
What the services of the train ticket example are to do, in terms of tables and lists of values and without documents or queries, and
the histories of calls that the theorems are about.
-/
namespace Verif.Trains
open Verif.NoSQL (Name Doc Host Ret)
variable {F : Type} [Host F] {T : Type}

/-- A table: what each key stands for. -/
abbrev Table (T : Type) := Name → Option T

def Table.empty : Table T := fun _ => none

def Table.put (m : Table T) (k : Name) (t : T) : Table T := fun j => if j = k then some t else m j

def Table.drop (m : Table T) (k : Name) : Table T := fun j => if j = k then none else m j

/-- The list has the values of the table that meet a condition, each of them once. -/
structure Lists (key : T → Name) (m : Table T) (cond : T → Prop) (l : List T) : Prop where
  distinct : (l.map key).Nodup
  mem : ∀ t, t ∈ l ↔ m (key t) = some t ∧ cond t

/-- A value of the table that meets a condition, or an error if it has none. -/
def Finds (key : T → Name) (m : Table T) (cond : T → Prop) (r : Ret T) : Prop :=
  (∃ t, r = .ok t ∧ m (key t) = some t ∧ cond t) ∨ (r = .error ∧ ∀ t, m (key t) = some t → ¬ cond t)

/-- The value, or an error if there is none. -/
def answer : Option T → Ret T
  | some t => .ok t
  | none => .error

/-! ### Histories and tables, service by service.  `newId`s are the identifiers that the database gives to new documents. -/

namespace Configs

inductive Op where
  | create (c : Config) (newId : Nat)
  | update (c : Config) (newId : Nat)
  | delete (name : Name)

/-- The calls. -/
def step (docs : List (Doc F)) : Op → List (Doc F)
  | .create c newId => (create docs c newId).1
  | .update c newId => (update docs c newId).1
  | .delete name => (delete docs name).1

/-- What they are to do. -/
def effect (m : Table Config) : Op → Table Config
  | .create c _ => if (m c.name).isSome then m else m.put c.name c
  | .update c _ => m.put c.name c
  | .delete name => m.drop name

/-- The database after a history of calls. -/
def after (ops : List Op) : List (Doc F) := ops.foldl step []

/-- The table after it. -/
def table (ops : List Op) : Table Config := ops.foldl effect Table.empty

end Configs

namespace Stations

inductive Op where
  | create (st : Station) (newId : Nat)
  | update (st : Station) (newId : Nat)
  | delete (id : Name)

def step (docs : List (Doc F)) : Op → List (Doc F)
  | .create st newId => (create docs st newId).1
  | .update st newId => (update docs st newId).1
  | .delete id => (delete docs id).1

def effect (m : Table Station) : Op → Table Station
  | .create st _ => if (m st.id).isSome then m else m.put st.id st
  | .update st _ => m.put st.id st
  | .delete id => m.drop id

def after (ops : List Op) : List (Doc F) := ops.foldl step []
def table (ops : List Op) : Table Station := ops.foldl effect Table.empty

end Stations

namespace Prices

inductive Op (F : Type) where
  | create (pc : PriceConfig F) (newId : Nat)
  | update (pc : PriceConfig F) (newId : Nat)
  | delete (id : Name)

def step (docs : List (Doc F)) : Op F → List (Doc F)
  | .create pc newId => (create docs pc newId).1
  | .update pc newId => (update docs pc newId).1
  | .delete id => (delete docs id).1

def effect (m : Table (PriceConfig F)) : Op F → Table (PriceConfig F)
  | .create pc _ => m.put pc.id pc
  | .update pc _ => m.put pc.id pc
  | .delete id => m.drop id

def after (ops : List (Op F)) : List (Doc F) := ops.foldl step []
def table (ops : List (Op F)) : Table (PriceConfig F) := ops.foldl effect Table.empty

/-- The entry names the route and the train type: what is before the first colon, and what is between it and the next one or the
end. -/
def Names (rt route type : Name) : Prop :=
  ∃ rest, rt = route ++ ':' :: (type ++ rest) ∧ ':' ∉ route ∧ ':' ∉ type ∧ (rest = [] ∨ rest.head? = some ':')

end Prices

namespace TrainFoods

inductive Op (F : Type) where
  | create (tf : TrainFood F) (newId : Nat)
  | cleanup

def step (docs : List (Doc F)) : Op F → List (Doc F)
  | .create tf newId => (create docs tf newId).1
  | .cleanup => (cleanup docs).1

def effect (m : Table (TrainFood F)) : Op F → Table (TrainFood F)
  | .create tf _ => m.put tf.tripID tf
  | .cleanup => Table.empty

def after (ops : List (Op F)) : List (Doc F) := ops.foldl step []
def table (ops : List (Op F)) : Table (TrainFood F) := ops.foldl effect Table.empty

end TrainFoods

namespace FoodStores

inductive Op (F : Type) where
  | create (store : FoodStore F) (newId : Nat)
  | cleanup

def step (docs : List (Doc F)) : Op F → List (Doc F)
  | .create store newId => (create docs store newId).1
  | .cleanup => (cleanup docs).1

def effect (m : Table (FoodStore F)) : Op F → Table (FoodStore F)
  | .create store _ => if (m store.id).isSome then m else m.put store.id store
  | .cleanup => Table.empty

def after (ops : List (Op F)) : List (Doc F) := ops.foldl step []
def table (ops : List (Op F)) : Table (FoodStore F) := ops.foldl effect Table.empty

end FoodStores

namespace Routes

inductive Op where
  | createAndModify (info : Info) (uuid : Name) (newId : Nat)
  | delete (id : Name)

/-- The database, and the table of the routes that `CreateAndModify` returned: the last one with an id, unless it was deleted since. -/
def step : List (Doc F) × Table Route → Op → List (Doc F) × Table Route
  | (docs, m), .createAndModify info uuid newId =>
    ((createAndModify docs info uuid newId).1, match (createAndModify docs info uuid newId).2 with
      | .ok route => m.put route.id route
      | _ => m)
  | (docs, m), .delete id => ((delete docs id).1, m.drop id)

def run (ops : List Op) : List (Doc F) × Table Route := ops.foldl step ([], Table.empty)
def after (ops : List Op) : List (Doc F) := (run ops).1
def table (F : Type) [Host F] (ops : List Op) : Table Route := (run (F := F) ops).2

/-- A generated identifier has at least 32 characters and has not been seen before. -/
def FreshFrom : List Name → List Op → Prop
  | _, [] => True
  | seen, .createAndModify info uuid _ :: ops => uuid ∉ seen ∧ 32 ≤ uuid.length ∧ FreshFrom (info.id :: uuid :: seen) ops
  | seen, .delete _ :: ops => FreshFrom seen ops

abbrev Fresh (ops : List Op) : Prop := FreshFrom [] ops

/-- A decimal number. -/
def render : Int → Name
  | .ofNat n => Nat.toDigits 10 n
  | .negSucc n => '-' :: Nat.toDigits 10 (n + 1)

/-- The pieces of a text between commas. -/
def IsPieces (text : Name) (pieces : List Name) : Prop :=
  pieces ≠ [] ∧ (∀ p ∈ pieces, ',' ∉ p) ∧ text = List.intercalate [','] pieces

/-- The text is a list of numbers of 64 bits with commas between them. -/
def IsNumbers (text : Name) (ns : List Int) : Prop :=
  IsPieces text (ns.map render) ∧ ∀ n ∈ ns, -2 ^ 63 ≤ n ∧ n < 2 ^ 63

end Routes

/-! ### Services whose entries need not have different keys: the list of entries, in the order in which they were first stored. -/

/-- The first value that passes the test is replaced. -/
def replaceFirst (p : T → Bool) (new : T) : List T → List T
  | [] => []
  | t :: l => if p t then new :: l else t :: replaceFirst p new l

/-- The first value that passes the test is removed. -/
def removeFirst (p : T → Bool) : List T → List T
  | [] => []
  | t :: l => if p t then l else t :: removeFirst p l

/-- The first value that passes the test is replaced; if none does, the new one is added. -/
def replaceOrAdd (p : T → Bool) (new : T) (l : List T) : List T := if l.any p then replaceFirst p new l else l ++ [new]

namespace Trains

inductive Op where
  | create (tt : TrainType) (newId : Nat)
  | update (tt : TrainType) (newId : Nat)
  | delete (id : Name)

def step (docs : List (Doc F)) : Op → List (Doc F)
  | .create tt newId => (create docs tt newId).1
  | .update tt newId => (update docs tt newId).1
  | .delete id => (delete docs id).1

def effect (l : List TrainType) : Op → List TrainType
  | .create tt _ => if l.any (fun u => u.name = tt.name) then l else l ++ [tt]
  | .update tt _ => replaceOrAdd (fun u => u.id = tt.id) tt l
  | .delete id => removeFirst (fun u => u.id = id) l

def after (ops : List Op) : List (Doc F) := ops.foldl step []
def stored (ops : List Op) : List TrainType := ops.foldl effect []

end Trains

namespace Payments

inductive Op where
  | initPayment (p : Payment) (newId : Nat)
  | pay (p : Payment) (newId : Nat)
  | addMoney (p : Payment) (uuid : Name) (newId : Nat)
  | cleanup

def step (v : Service) (s : State F) : Op → State F
  | .initPayment p newId => (initPayment v s p newId).1
  | .pay p newId => (pay v s p newId).1
  | .addMoney p uuid newId => (addMoney v s p uuid newId).1
  | .cleanup => (cleanup v s).1

/-- The payments and the money. -/
def effect (v : Service) (l : List Payment × List Money) : Op → List Payment × List Money
  | .initPayment p _ => (if l.1.any (fun u => u.id = p.id) then l.1 else l.1 ++ [p], l.2)
  | .pay p _ => (replaceOrAdd (fun u => u.orderID = p.orderID) p l.1, l.2)
  | .addMoney p uuid _ => (l.1, l.2 ++ [⟨uuid, p.userID, p.price⟩])
  | .cleanup => (if v.paymentDB = v.moneyDB then [] else l.1, [])

def after (v : Service) (ops : List Op) : State F := ops.foldl (step v) fun _ => ⟨[], []⟩
def stored (v : Service) (ops : List Op) : List Payment × List Money := ops.foldl (effect v) ([], [])

end Payments

namespace Consign

/-- The database after the calls of `CreateAndModifyPriceConfig`. -/
def after (calls : List (ConsignPrice F × Nat)) : List (Doc F) := calls.foldl (fun docs pc => (set docs pc.1 pc.2).1) []

end Consign

namespace Assurances

inductive Op (F : Type) where
  | create (type : Int) (order uuid : Name) (newId : Nat)
  | modify (a : Assurance F) (newId : Nat)
  | deleteById (id : Name)
  | deleteByOrder (order : Name)

def step (k : Kinds F) (docs : List (Doc F)) : Op F → List (Doc F)
  | .create type order uuid newId => (create k docs type order uuid newId).1
  | .modify a newId => (modify docs a newId).1
  | .deleteById id => (deleteById docs id).1
  | .deleteByOrder order => (deleteByOrder docs order).1

def effect (k : Kinds F) (l : List (Assurance F)) : Op F → List (Assurance F)
  | .create type order uuid _ => if type = 1 then l ++ [⟨uuid, order, 1, k.name, k.price⟩] else l
  | .modify a _ => replaceFirst (fun u => u.id = a.id) a l
  | .deleteById id => removeFirst (fun u => u.id = id) l
  | .deleteByOrder order => removeFirst (fun u => u.orderID = order) l

def after (k : Kinds F) (ops : List (Op F)) : List (Doc F) := ops.foldl (step k) []
def stored (k : Kinds F) (ops : List (Op F)) : List (Assurance F) := ops.foldl (effect k) []

end Assurances

namespace Users

inductive Op where
  | save (u : User) (newId : Nat)
  | update (u : User) (newId : Nat)
  | delete (id : Name)

def step (docs : List (Doc F)) : Op → List (Doc F)
  | .save u newId => (save docs u newId).1
  | .update u newId => (update docs u newId).1
  | .delete id => (delete docs id).1

def effect (l : List User) : Op → List User
  | .save u _ => l ++ [u]
  | .update u _ => replaceOrAdd (fun v => v.userID = u.userID) u l
  | .delete id => removeFirst (fun v => v.userID = id) l

def after (ops : List Op) : List (Doc F) := ops.foldl step []
def stored (ops : List Op) : List User := ops.foldl effect []

end Users

namespace Contacts

/-- The contacts are the same document of the same account. -/
def Same (c d : Contact) : Prop :=
  c.accountID = d.accountID ∧ c.documentNumber = d.documentNumber ∧ c.documentType = d.documentType

instance (c d : Contact) : Decidable (Same c d) := by unfold Same; infer_instance

inductive Op where
  | create (c : Contact) (newId : Nat)
  | modify (c : Contact) (newId : Nat)
  | delete (c : Contact)

def step (docs : List (Doc F)) : Op → List (Doc F)
  | .create c newId => (create docs c newId).1
  | .modify c newId => (modify docs c newId).1
  | .delete c => (delete docs c).1

def effect (l : List Contact) : Op → List Contact
  | .create c _ => if l.any (fun d => Same c d) then l else l ++ [c]
  | .modify c _ => replaceOrAdd (fun d => d.id = c.id) c l
  | .delete c => removeFirst (fun d => d.id = c.id) l

def after (ops : List Op) : List (Doc F) := ops.foldl step []
def stored (ops : List Op) : List Contact := ops.foldl effect []

end Contacts

namespace Deliver

def after (es : List Event) : State F := es.foldl step ⟨[], [], true⟩

/-- The deliveries in the database. -/
def delivered (s : State F) : List Delivery := s.docs.map deliveries.dec

/-- The deliveries that were put into the queue. -/
def pushed : List Event → List Delivery
  | [] => []
  | .push d :: es => d :: pushed es
  | _ :: es => pushed es

/-- Nothing goes wrong. -/
def Smooth (es : List Event) : Prop := ∀ f, Event.iterate f ∈ es → ∃ newId, f = .stored newId

end Deliver

end Verif.Trains
