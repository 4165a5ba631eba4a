/-
Concrete cases for C137.
-/
import Verif.Trains.ConcurrentKeys
import Verif.Trains.FailExamples
namespace Verif.Trains.Examples
open Verif.NoSQL Verif.Trains Verif.Cart.Examples

section
open Configs
-- `Update` and `Find` at the same time: `Find` has the collection, then `Update` runs, then `Find` reads the new value
example : Together (after (F := Int) [.create ⟨['a'], ['1'], []⟩ 1])
    [(updateP ⟨['a'], ['2'], []⟩ 2).map fun _ => .ok [], (findP ['a']).map fun | .ok c => .ok c.value | _ => .error]
    (after [.create ⟨['a'], ['1'], []⟩ 1, .update ⟨['a'], ['2'], []⟩ 2]) ([.ok [], .ok ['2']].map .ret) := by
  refine .call [_] [] _ _ _ _ _ ?_
  refine .call [] [_] _ _ _ _ _ ?_
  refine .call [] [_] _ _ _ _ _ ?_
  refine .call [_] [] _ _ _ _ _ ?_
  exact .none _ _
-- both calls are of methods that use the database once
example : ∀ p ∈ [(updateP (F := Int) ⟨['a'], ['2'], []⟩ 2).map fun _ => .ok [], (findP ['a']).map fun | .ok c => .ok c.value | _ => .error],
    Single p := by
  intro p hp
  simp only [List.mem_cons, List.not_mem_nil, or_false] at hp
  rcases hp with rfl | rfl
  · exact .configUpdate _ _ _
  · exact .configFind _ _
-- two new names at the same time
example : Together (after (F := Int) []) [createP ⟨['a'], ['1'], []⟩ 1, createP ⟨['b'], ['2'], []⟩ 2]
    (after [.create ⟨['b'], ['2'], []⟩ 2, .create ⟨['a'], ['1'], []⟩ 1]) ([.ok (), .ok ()].map .ret) := by
  refine .call [] [_] _ _ _ _ _ ?_
  refine .call [] [_] _ _ _ _ _ ?_
  refine .call [_] [] _ _ _ _ _ ?_
  refine .call [_] [] _ _ _ _ _ ?_
  refine .call [_] [] _ _ _ _ _ ?_
  refine .call [] [_] _ _ _ _ _ ?_
  exact .none _ _
example : table [] ['a'] = none ∧ table [] ['b'] = none := by decide
end

section
open Trains
example : ∀ t ∈ stored [.create ⟨['1'], ['G'], 1, 2, 3⟩ 1], t.name ≠ ['D'] := by decide
end

section
open Contacts
example : ∀ t ∈ stored [], ¬ Same ⟨['1'], ['u'], ['n'], 1, ['9'], ['5']⟩ t := by simp [stored]
end

section
open Stations
/-- C137_lookup_refuted: a station that was created, and a new name for it. -/
example : table [.create ⟨['1'], ['A'], 5⟩ 0] ['1'] = some ⟨['1'], ['A'], 5⟩ ∧ (⟨['1'], ['B'], 5⟩ : Station) ≠ ⟨['1'], ['A'], 5⟩ := by decide
/-- C137_lookup_alone: the hypothesis holds for that station. -/
example : ((findByIDsP [] [['1'], ['1']]).run works (after (F := Int) [.create ⟨['1'], ['A'], 5⟩ 0])).2 =
    .ok [⟨['1'], ['A'], 5⟩, ⟨['1'], ['A'], 5⟩] := by rfl
end

section
open Payments
/-- C137_init_refuted: a payment of another id is stored. -/
example : ∀ u ∈ (stored ⟨0, 1⟩ [.initPayment ⟨['1'], ['o'], ['u'], ['5']⟩ 0]).1, u.id ≠ ['2'] := by decide
end

section
open Assurances
/-- C137_modify_refuted, C137_modify_alone: two assurances are stored, one with this id. -/
example : (stored (F := Int) ⟨['K'], 5⟩ [.create 1 ['o'] ['1'] 1, .create 1 ['p'] ['2'] 2]).countP (fun u => u.id = ['2']) = 1 := by decide
end

section
open Routes
/-- Routes.C137_create_refuted: a route with a new long id. -/
example : Fresh [.createAndModify ⟨[], ['S'], ['T'], ['S', ',', 'T'], ['0', ',', '7']⟩ (List.replicate 36 'a') 1] ∧
    IsPieces ['S', ',', 'T'] [['S'], ['T']] ∧ IsNumbers ['0', ',', '7'] [0, 7] ∧ 32 ≤ (List.replicate 36 'c').length ∧
    table Int [.createAndModify ⟨[], ['S'], ['T'], ['S', ',', 'T'], ['0', ',', '7']⟩ (List.replicate 36 'a') 1] (List.replicate 36 'c') = none :=
  ⟨by simp only [Fresh, FreshFrom]; decide, ⟨by decide, by decide, by decide⟩, ⟨⟨by decide, by decide +kernel, by decide +kernel⟩, by decide⟩,
    by decide, by decide +kernel⟩
end

end Verif.Trains.Examples
