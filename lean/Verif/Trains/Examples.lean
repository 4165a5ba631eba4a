/-
Concrete cases for C100 to C110.  Prices are integers.
-/
import Verif.Trains.More
import Verif.Cart.Examples
namespace Verif.Trains.Examples
open Verif.NoSQL Verif.Trains Verif.Cart.Examples

/-! C100: three configurations, one of them changed, one removed -/
section
open Configs
def configOps : List Configs.Op :=
  [.create ⟨['a'], ['1'], []⟩ 1, .create ⟨['a'], ['2'], []⟩ 2, .update ⟨['b'], ['3'], []⟩ 3, .create ⟨['c'], ['4'], []⟩ 4,
   .update ⟨['c'], ['5'], []⟩ 5, .delete ['b']]
example : find (F := Int) (after configOps) ['a'] = .ok ⟨['a'], ['1'], []⟩ ∧ find (F := Int) (after configOps) ['b'] = .error ∧
    find (F := Int) (after configOps) ['c'] = .ok ⟨['c'], ['5'], []⟩ := by decide +kernel
example : Configs.table configOps ['c'] = some ⟨['c'], ['5'], []⟩ := by decide
end

/-! C101 -/
section
open Stations
def stationOps : List Stations.Op := [.create ⟨['1'], ['S'], 5⟩ 1, .update ⟨['2'], ['T'], 3⟩ 2, .create ⟨['1'], ['U'], 9⟩ 3]
-- the names are those of stations
example : ∀ name ∈ ([['T'], ['S']] : List Name), ∃ st, Stations.table stationOps st.id = some st ∧ st.name = name := by
  simp only [List.mem_cons, List.not_mem_nil, or_false, forall_eq_or_imp, forall_eq]
  exact ⟨⟨⟨['2'], ['T'], 3⟩, by decide, rfl⟩, ⟨['1'], ['S'], 5⟩, by decide, rfl⟩
example : findIDs (F := Int) (after stationOps) [['T'], ['S']] = .ok [['2'], ['1']] := by decide +kernel
-- one is not
example : findIDs (F := Int) (after stationOps) [['T'], ['U'], ['S']] = .ok [['2'], [], [], ['1']] := by decide +kernel
example : ∀ id ∈ ([['2'], ['1']] : List Name), (Stations.table stationOps id).isSome := by decide
example : findByIDs (F := Int) (after stationOps) [['3'], ['1']] = .ok [zero, zero, ⟨['1'], ['S'], 5⟩] := by decide +kernel
end

/-! C102 -/
section
open Verif.Trains.Trains
def trainOps : List Trains.Op := [.create ⟨['1'], ['A'], 1, 2, 3⟩ 1, .create ⟨['1'], ['B'], 4, 5, 6⟩ 2, .update ⟨['2'], ['A'], 7, 8, 9⟩ 3]
example : (stored trainOps).countP (fun t => t.id = ['2']) ≤ 1 ∧ 2 ≤ (stored trainOps).countP (fun t => t.id = ['1']) := by decide
example : retrieve (F := Int) (after (trainOps ++ [.delete ['1']])) ['1'] = .ok ⟨['1'], ['B'], 4, 5, 6⟩ := by decide +kernel
end

/-! C103 -/
section
open Prices
def priceOps : List (Prices.Op Int) := [.create ⟨['1'], ['G'], ['r'], 2, 4⟩ 1, .create ⟨['2'], ['D'], ['r'], 1, 3⟩ 2]
example : ∀ rt ∈ ([['r', ':', 'G'], ['r', ':', 'X', ':']] : List Name), ':' ∈ rt := by decide
example : Names ['r', ':', 'G', ':', 'z'] ['r'] ['G'] := ⟨[':', 'z'], rfl, by decide, by decide, Or.inr rfl⟩
example : findByID (after priceOps) ['2'] = .ok ⟨['2'], ['D'], ['r'], 1, 3⟩ := by rw [C103_find]; rfl
example : ∃ rt ∈ ([['r', ':', 'G'], ['r']] : List Name), ':' ∉ rt := ⟨['r'], by decide, by decide⟩
end

/-! C105 -/
section
open Routes
def uuidA : Name := List.replicate 36 'a'
def uuidB : Name := List.replicate 36 'b'
def infoA : Info := ⟨[], ['S'], ['T'], ['S', ',', 'M', ',', 'T'], ['0', ',', '1', '2', ',', '-', '3']⟩
def infoB : Info := ⟨uuidA, ['S'], ['U'], ['S', ',', 'U'], ['0', ',', '7']⟩
def routeOps : List Routes.Op := [.createAndModify infoA uuidA 1, .createAndModify infoB uuidB 2]

example : Fresh routeOps := by simp only [Fresh, routeOps, FreshFrom]; decide
example : IsPieces infoA.stationList [['S'], ['M'], ['T']] := ⟨by decide, by decide, by decide⟩
example : IsNumbers infoA.distanceList [0, 12, -3] := ⟨⟨by decide, by decide +kernel, by decide +kernel⟩, by decide⟩
example : IsPieces ['1', ',', 'x'] [['1'], ['x']] ∧ ∀ n, ¬ Verif.NoSQL.IsNumber ['x'] n :=
  ⟨⟨by decide, by decide, by decide⟩, fun n h => by
    have := (Verif.NoSQL.C58_number _ _).2 h
    rw [show Verif.NoSQL.atoi ['x'] = none by decide +kernel] at this; cases this⟩
-- the route is made, and then changed
example : getById (F := Int) (after [.createAndModify infoA uuidA 1]) uuidA =
    .ok ⟨uuidA, [['S'], ['M'], ['T']], [0, 12, -3], ['S'], ['T']⟩ := by decide +kernel
example : getById (F := Int) (after routeOps) uuidA = .ok ⟨uuidA, [['S'], ['U']], [0, 7], ['S'], ['U']⟩ := by decide +kernel
end

/-! C106 -/
section
open Payments
def payOps : List Payments.Op :=
  [.initPayment ⟨['1'], ['o'], ['u'], ['9']⟩ 1, .addMoney ⟨['1'], ['o'], ['u'], ['9']⟩ ['m'] 2, .pay ⟨['2'], ['o'], ['u'], ['9']⟩ 3]
example (v : Service) : ∃ u ∈ (stored v payOps).1, u.orderID = ['o'] := ⟨⟨['2'], ['o'], ['u'], ['9']⟩, by simp [stored, payOps, effect, replaceOrAdd, replaceFirst], rfl⟩
example (v : Service) : ∀ u ∈ (stored v payOps).1, u.orderID ≠ ['p'] := by simp [stored, payOps, effect, replaceOrAdd, replaceFirst]
end

/-! C108, C109 -/
section
def kinds : Assurances.Kinds Int := ⟨['K'], 5⟩
def assuranceOps : List (Assurances.Op Int) := [.create 1 ['o'] ['1'] 1, .create 1 ['o'] ['2'] 2, .create 2 ['p'] ['3'] 3, .create 1 ['q'] ['4'] 4]
example : 2 ≤ (Assurances.stored kinds assuranceOps).countP (fun a => a.orderID = ['o']) ∧
    (Assurances.stored kinds assuranceOps).countP (fun a => a.orderID = ['q']) ≤ 1 := by decide
def ann : User := ⟨['1'], ['n'], [], 0, 0, [], []⟩
example : (Users.stored [.save ann 1, .update { ann with username := ['m'] } 2]).countP (fun u => u.userID = ['1']) ≤ 1 := by decide
def card : Contact := ⟨['1'], ['a'], ['N'], 1, ['x'], []⟩
example : ¬ Contacts.Same { card with documentType := 2 } card := by decide
example : (Contacts.stored [.create card 1, .create { card with id := ['2'] } 2]).countP (fun d => d.id = card.id) ≤ 1 := by decide
end

/-! C110: two deliveries, the insertion of the second one fails -/
section
open Deliver
def d1 : Delivery := ⟨['1'], ['o'], ['F'], ['S'], []⟩
def d2 : Delivery := ⟨['2'], ['p'], ['G'], ['T'], []⟩
def events : List Event := [.push d1, .idle, .push d2, .iterate (.stored 1)]
example : Smooth events := by
  intro f hf
  simp [events] at hf
  exact ⟨1, hf⟩
example : (after (F := Int) events).running = true ∧ (after (F := Int) events).queue = [d2] ∧
    (pushed (events ++ [.push d1])).count d2 = 1 := by decide +kernel
example : delivered (after (F := Int) (events ++ [.iterate .insertFails])) = [d1] ∧
    (after (F := Int) (events ++ [.iterate .insertFails])).queue = [] := by decide +kernel
end

end Verif.Trains.Examples
