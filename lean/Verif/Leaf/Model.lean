import Verif.NoSQL.Model
import Verif.Trains.Programs
/-
Model of `HelloInt` of the leaf example, /repo/examples/leaf/workflow/leaf/leafservice.go, on the in-memory database
of `NoSQL/Model.lean`.

Simplifications:
* A find and the reading of its cursor are one call of the database.
* The cache, into which `HelloInt` puts a number that it does not use (lines 68-70), the metric and the log are left out: their errors are
  ignored, and nothing depends on them.
* The other methods, which return their arguments, and the service that calls this one are left out.
-/
namespace Verif.Leaf
open Verif.NoSQL (Name Doc Value Host Ret findMany insertOne updateOne kInc)
open Verif.Trains (Prog orErr)
variable {F : Type} [Host F]

def fId : Name := ['i', 'd']
def fName : Name := ['n', 'a', 'm', 'e']
def fCount : Name := ['c', 'o', 'u', 'n', 't']
def fProps : Name := ['p', 'r', 'o', 'p', 's']

/-- `LeafObject{ID: 7, Name: "MyObject"}` (lines 84) as `bson.Marshal` writes it: the `int64` as 64 bits, the `int` as 32 bits since it fits,
the nil map as null. -/
def myObject : Doc F := [(fId, .int .int64 7), (fName, .str ['M', 'y', 'O', 'b', 'j', 'e', 'c', 't']), (fCount, .int .int32 0), (fProps, .null)]

/-- `filter` (line 72). -/
def filter : Doc F := [(fId, .int .int 7)]

/-- `update` (line 93). -/
def update : Doc F := [(kInc, .doc [(fCount, .int .int 1)])]

/-- `objs[0].Count` after `cursor.All` (line 79). -/
def countOf (d : Doc F) : Int := match d.find? (fun e => e.1 = fCount) with
  | some (_, .int _ n) => n
  | _ => 0

/-- The last statements of `HelloInt` (lines 93-96): the error of `UpdateOne` is ignored. -/
def updateP (n : Int) : Prog (List (Doc F)) Int :=
  .call (fun s => ((updateOne s filter update).1, .ok ())) fun _ => .ret (.ok n)

/-- `HelloInt` (lines 65-97).  The document gets the identifier `newId` if it is inserted. -/
def helloIntP (newId : Nat) : Prog (List (Doc F)) Int :=
  .call (fun s => (s, findMany s filter)) (orErr fun objs => match objs with
    | [] => .call (fun s => insertOne s (.obj (some myObject)) newId) (orErr fun () => updateP (countOf (F := F) myObject))
    | d :: _ => updateP (countOf d))

end Verif.Leaf
