import Verif.Trains.Programs
import Verif.Trains.Spec
/-
What is expected of a method when calls of the database fail (C136).
-/
namespace Verif.Trains
open Verif.NoSQL (Name Doc Host Ret)
variable {F : Type} [Host F] {S α Op : Type}

/-- The method, made of calls that may fail, is to be the operation `f`, in which nothing fails: if all of its calls work it does what `f`
does.  Otherwise it returns an error, and either nothing has changed or, if a call had its effect without the method being told, everything
has that `f` changes. -/
structure Faithful (p : Prog S α) (f : S → S × Ret α) : Prop where
  fine : ∀ o s, p.hit o s = false → p.run o s = f s
  all_or_nothing : ∀ o s, p.hit o s = true →
    (p.run o s).2 = .error ∧ ((p.run o s).1 = s ∨ (p.run o s).1 = (f s).1 ∧ ∃ i, o i = .lost)

/-- The database after a call, and whether the call returned without an error. -/
def done (r : S × Ret α) : S × Bool := (r.1, match r.2 with
  | .ok _ => true
  | _ => false)

/-- The database after a history of calls, each with the replies that it gets from the database, and the operations that returned without an
error, in order. -/
def withFailures (step : S → Op → (Nat → Reply) → S × Bool) (s : S) : List (Op × (Nat → Reply)) → S × List Op
  | [] => (s, [])
  | (op, o) :: rest =>
    let r := step s op o
    let after := withFailures step r.1 rest
    (after.1, if r.2 then op :: after.2 else after.2)

/-- The database is as after a history without failures in which only calls are left out that had returned an error. -/
def AsIf (after : List Op → S) (history : List (Op × (Nat → Reply))) (result : S × List Op) : Prop :=
  ∃ ops, result.1 = after ops ∧ ops.Sublist (history.map Prod.fst) ∧ result.2.Sublist ops

/-! ### The calls that write, as in `Trains/Spec.lean`, with what the database replies -/

def Configs.stepF (docs : List (Doc F)) : Configs.Op → (Nat → Reply) → List (Doc F) × Bool
  | .create c i, o => done ((Configs.createP c i).run o docs)
  | .update c i, o => done ((Configs.updateP c i).run o docs)
  | .delete name, o => done ((Configs.deleteP name).run o docs)

def Stations.stepF (docs : List (Doc F)) : Stations.Op → (Nat → Reply) → List (Doc F) × Bool
  | .create st i, o => done ((Stations.createP st i).run o docs)
  | .update st i, o => done ((Stations.updateP st i).run o docs)
  | .delete id, o => done ((Stations.deleteP id).run o docs)

def Trains.stepF (docs : List (Doc F)) : Trains.Op → (Nat → Reply) → List (Doc F) × Bool
  | .create tt i, o => done ((Trains.createP tt i).run o docs)
  | .update tt i, o => done ((Trains.updateP tt i).run o docs)
  | .delete id, o => done ((Trains.deleteP id).run o docs)

def Prices.stepF (docs : List (Doc F)) : Prices.Op F → (Nat → Reply) → List (Doc F) × Bool
  | .create pc i, o => done ((Prices.createP pc i).run o docs)
  | .update pc i, o => done ((Prices.updateP pc i).run o docs)
  | .delete id, o => done ((Prices.deleteP id).run o docs)

def TrainFoods.stepF (docs : List (Doc F)) : TrainFoods.Op F → (Nat → Reply) → List (Doc F) × Bool
  | .create tf i, o => done ((TrainFoods.createP tf i).run o docs)
  | .cleanup, o => done (TrainFoods.cleanupP.run o docs)

def FoodStores.stepF (docs : List (Doc F)) : FoodStores.Op F → (Nat → Reply) → List (Doc F) × Bool
  | .create store i, o => done ((FoodStores.createP store i).run o docs)
  | .cleanup, o => done (FoodStores.cleanupP.run o docs)

def Payments.stepF (v : Payments.Service) (s : Payments.State F) : Payments.Op → (Nat → Reply) → Payments.State F × Bool
  | .initPayment p i, o => done ((Payments.initPaymentP v p i).run o s)
  | .pay p i, o => done ((Payments.payP v p i).run o s)
  | .addMoney p uuid i, o => done ((Payments.addMoneyP v p uuid i).run o s)
  | .cleanup, o => done ((Payments.cleanupP v).run o s)

def Assurances.stepF (k : Assurances.Kinds F) (docs : List (Doc F)) : Assurances.Op F → (Nat → Reply) → List (Doc F) × Bool
  | .create type order uuid i, o => done ((Assurances.createP k type order uuid i).run o docs)
  | .modify a i, o => done ((Assurances.modifyP a i).run o docs)
  | .deleteById id, o => done ((Assurances.deleteByIdP id).run o docs)
  | .deleteByOrder order, o => done ((Assurances.deleteByOrderP order).run o docs)

def Users.stepF (docs : List (Doc F)) : Users.Op → (Nat → Reply) → List (Doc F) × Bool
  | .save u i, o => done ((Users.saveP u i).run o docs)
  | .update u i, o => done ((Users.updateP u i).run o docs)
  | .delete id, o => done ((Users.deleteP id).run o docs)

def Contacts.stepF (docs : List (Doc F)) : Contacts.Op → (Nat → Reply) → List (Doc F) × Bool
  | .create c i, o => done ((Contacts.createP c i).run o docs)
  | .modify c i, o => done ((Contacts.modifyP c i).run o docs)
  | .delete c, o => done ((Contacts.deleteP c).run o docs)

end Verif.Trains
