import Verif.Mongo.Props
import Verif.NoSQL.Props
/-
A server that treats single documents like the in-memory database, and programs.
-/
namespace Verif.Mongo
open Verif.NoSQL

open Classical in
/-- Projections keep the fields that are named in them; an upsert starts from the fields of the filter. -/
noncomputable def exServer : Server Int where
  accepts q := match findMany ([] : List (Doc Int)) q with
    | .ok _ => true
    | _ => false
  hit := hit
  update u d := if (updateDoc u d).2 = .ok then some (updateDoc u d).1 else none
  unchanged d d' := decide (d' = d)
  project p d := d.filter fun e => p.any fun f => f.1 == e.1
  seed q := q.filter fun e => !isOp e.1
  sameId v w := decide (v = w)

theorem ex_lawful : exServer.Lawful := ⟨fun v => by simp [exServer], fun d d' => by simp [exServer]⟩

def kName : NoSQL.Name := ['n', 'a', 'm', 'e']
def kAge : NoSQL.Name := ['a', 'g', 'e']
def exOld : Doc Int := [(kId, .oid 1), (kName, .str ['a']), (kAge, .int .int32 5)]
def exNew : Doc Int := [(kId, .oid 1), (kName, .str ['b'])]
def exFilter : Doc Int := [(kName, .str ['a'])]
def exInc : Doc Int := [(['$', 'i', 'n', 'c'], .doc [(kAge, .int .int32 1)])]
def exSame : Doc Int := [(kSet, .doc [(kAge, .int .int32 5)])]

theorem ex_agreed : Agreed exServer [exOld] exFilter := by
  refine ⟨⟨rfl, ?_⟩, rfl, fun d _ => rfl⟩
  intro d hd
  simp only [List.mem_singleton] at hd
  subst hd
  rfl

/-- A program that is portable: insert, increment, find, delete. -/
example : run (mongo exServer) [] [(1, .insertOne exOld), (2, .updateOne exFilter exInc), (3, .find false exFilter [] false)] =
    ([[(kId, .oid 1), (kName, .str ['a']), (kAge, .int .int32 6)]], [.done, .count 1,
      .one (some [(kId, .oid 1), (kName, .str ['a']), (kAge, .int .int32 6)])]) := by
  rw [C114_portable_partial ex_lawful]
  · rfl
  · refine ⟨rfl, ⟨ex_agreed, rfl, ?_⟩, ⟨⟨⟨rfl, ?_⟩, rfl, fun d _ => rfl⟩, rfl, rfl⟩, trivial⟩
    · intro d hd
      have : d = exOld := by
        have h : List.find? (hit exFilter) [exOld] = some exOld := rfl
        exact Option.some.inj (hd.symm.trans h)
      subst this
      refine ⟨rfl, rfl, ?_⟩
      intro h
      have h : [(kId, .oid 1), (kName, .str ['a']), (kAge, .int .int32 6)] = exOld := h
      simp [exOld] at h
    · intro d hd
      have hd : d ∈ [[(kId, .oid 1), (kName, .str ['a']), (kAge, .int .int32 6)]] := hd
      simp only [List.mem_singleton] at hd
      subst hd
      rfl

/-- The age survives an upsert on MongoDB only. -/
example : simple [exOld] 7 (.upsert exFilter exNew) = ([exNew], .replaced true) ∧
    mongo exServer [exOld] 7 (.upsert exFilter exNew) = ([[(kId, .oid 1), (kName, .str ['b']), (kAge, .int .int32 5)]], .replaced true) := by
  obtain ⟨h1, h2, -⟩ := C114_upsert_merges_refuted (pre := []) (post := []) (newId := 7) (d := exNew) (k := kAge)
    (d' := [(kId, .oid 1), (kName, .str ['b']), (kAge, .int .int32 5)]) (v := .int .int32 5) ex_agreed (by simp) rfl rfl rfl rfl rfl
  exact ⟨h1, h2⟩

example : simple [exOld] 7 (.updateOne exFilter exSame) = ([exOld], .count 1) ∧
    mongo exServer [exOld] 7 (.updateOne exFilter exSame) = ([exOld], .count 0) :=
  C114_count_refuted ex_lawful ex_agreed rfl (d := exOld) rfl rfl rfl

end Verif.Mongo
