import Verif.Catalogue.Together
import Verif.Catalogue.Examples
/-
Concrete cases for C144.
-/
namespace Verif.Catalogue.Examples
open Verif.Trains (Together)

def green : Str := ['g']
def warm : Sock Nat := ⟨['5'], ['W'], [], [], ['a'], ['b'], 12, 3, [green, red], []⟩
def cold : Sock Nat := ⟨[], ['C'], [], [], [], [], 2, 4, [green], []⟩

/-- Two socks and a list of tags are added, a sock is replaced and one is deleted. -/
def todo : List (Op Nat) := [.addSock warm [], .addSock cold ['6'], .addTags [green], .addSock { holy with tags := [sport] } [], .deleteSock ['2']]

-- C144_together_partial: the hypotheses hold
example : (todo.filterMap about).Nodup := by decide
example : ∀ r ∈ db.socks, r.id ≠ ['6'] := by decide +kernel
example : Tagged warm ∧ Tagged cold := ⟨⟨by decide, by decide⟩, ⟨by decide, by decide⟩⟩

/-- The `i`-th call makes its next statement. -/
def turn (x : DB Nat × List (Trains.Prog (DB Nat) Str)) (i : Nat) : DB Nat × List (Trains.Prog (DB Nat) Str) :=
  match x.2[i]? with
  | some (.call f k) => ((f x.1).1, x.2.set i (k (f x.1).2))
  | _ => x

theorem turns (is : List Nat) : ∀ x : DB Nat × List (Trains.Prog (DB Nat) Str), Together x.1 x.2 (is.foldl turn x).1 (is.foldl turn x).2 := by
  induction is with
  | nil => exact fun x => .none _ _
  | cons i is ih =>
    intro x
    rw [List.foldl_cons]
    have h := ih (turn x i)
    generalize is.foldl turn (turn x i) = y at h
    unfold turn at h
    split at h
    · next f k e =>
      obtain ⟨hi, e⟩ := List.getElem?_eq_some_iff.1 e
      rw [List.set_eq_take_append_cons_drop, if_pos hi] at h
      have := Together.call (x.2.take i) (x.2.drop (i + 1)) f k x.1 y.1 y.2 h
      rwa [← e, List.getElem_cons_drop, List.take_append_drop] at this
    · exact h

/-- All read the tags before one of them adds any, then they go on in turn. -/
def schedule : List Nat := [0, 0, 0, 0, 1, 1, 2, 3, 3, 3, 3, 4] ++ (List.range 5).flatMap fun _ => [4, 3, 2, 1, 0]

def after : DB Nat := (schedule.foldl turn (db, todo.map callP)).1

-- the new tag is there three times; each sock has its own
example : tags after = [red, blue, sport, green, green, green] := by decide +kernel
example : get after ['5'] = .ok ⟨['5'], ['W'], [], [['a'], ['b']], ['a'], ['b'], 12, 3, [green, red], ['g', ',', 'r']⟩ ∧
    get after ['6'] = .ok ⟨['6'], ['C'], [], [[], []], [], [], 2, 4, [green], ['g']⟩ ∧ get after ['2'] = .error := by decide +kernel
set_option maxRecDepth 20000 in
example : (schedule.foldl turn (db, todo.map callP)).2 = ([.ok ['5'], .ok ['6'], .ok [], .ok ['1'], .ok []] : List (NoSQL.Ret Str)).map .ret := rfl
set_option maxRecDepth 20000 in
example : Together db (todo.map callP) after (([.ok ['5'], .ok ['6'], .ok [], .ok ['1'], .ok []] : List (NoSQL.Ret Str)).map .ret) :=
  turns schedule (db, todo.map callP)
-- C144_same_refuted
example : holy.id ≠ [] ∧ Tagged { holy with tags := [sport] } := ⟨by decide, by decide, by decide⟩

end Verif.Catalogue.Examples
