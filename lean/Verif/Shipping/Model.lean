/-
Model of the SockShop shipping service and queue master as a transition system:
/repo/examples/sockshop/workflow/shipping/shippingservice.go and queuemaster/queuemaster.go.

Any number of `PostShipping` calls run concurrently with one queue master.  Each step is one operation on the queue or the
database, which are atomic.

Simplifications:
* The shipments collection is a list of typed records, oldest first; `UpdateOne` with `$set` changes the first record with
  the identifier (C40, C43 for the in-memory database).
* The queue is an unbounded FIFO (a push that is refused or fails has no effect and is left out).
* A failing `Pop` is left out (the master tries again, lines 60-67); a failing `UpdateStatus` is a step.
* The sleep between attempts is left out.
-/
namespace Verif.Shipping

abbrev Str := List Char

/-- `Shipment` (shippingservice.go lines 32-36). -/
structure Shipment where
  id : Str
  name : Str
  status : Str
deriving DecidableEq

structure State where
  queue : List Shipment
  /-- pushed by a `PostShipping` call that has not yet inserted it into the database -/
  inserting : List Shipment
  db : List Shipment
  /-- the shipment whose status the queue master tries to update -/
  master : Option Shipment

def State.init : State := ⟨[], [], [], none⟩

def shipped : Str := ['s', 'h', 'i', 'p', 'p', 'e', 'd']

/-- `UpdateStatus` (lines 83-91): `none` is "unknown shipment". -/
def updateStatus (id status : Str) : List Shipment → Option (List Shipment)
  | [] => none
  | s :: ss => if s.id = id then some ({ s with status } :: ss) else (updateStatus id status ss).map (s :: ·)

inductive Step where
  /-- `service.q.Push` (line 55) -/
  | push (s : Shipment)
  /-- `service.db.InsertOne` (line 63) of one of the running calls -/
  | insert (i : Nat)
  /-- the same, failing: `PostShipping` returns an error -/
  | insertFails (i : Nat)
  /-- `q.q.Pop` (queuemaster.go line 59) -/
  | pop
  /-- `q.shipping.UpdateStatus` (line 74); on an error it is tried again -/
  | update
  /-- the same, failing because of the database -/
  | updateFails
deriving DecidableEq

/-- One step; a step that is not possible changes nothing. -/
def step (σ : State) : Step → State
  | .push s => { σ with queue := σ.queue ++ [s], inserting := σ.inserting ++ [s] }
  | .insert i => match σ.inserting[i]? with
    | none => σ
    | some s => { σ with inserting := σ.inserting.eraseIdx i, db := σ.db ++ [s] }
  | .insertFails i => { σ with inserting := σ.inserting.eraseIdx i }
  | .pop => match σ.master, σ.queue with
    | none, s :: queue => { σ with queue, master := some s }
    | _, _ => σ
  | .update => match σ.master with
    | none => σ
    | some s => match updateStatus s.id shipped σ.db with
      | none => σ
      | some db => { σ with db, master := none }
  | .updateFails => σ

def exec (σ : State) (l : List Step) : State := l.foldl step σ

/-- `GetShipment` (lines 67-80). -/
def getShipment (σ : State) (id : Str) : Option Shipment := σ.db.find? fun s => s.id = id

end Verif.Shipping
