/-
Concrete cases for C136.
-/
import Verif.Trains.FailRefuted
import Verif.Trains.Examples
namespace Verif.Trains.Examples
open Verif.NoSQL Verif.Trains Verif.Cart.Examples

/-- The calls with these numbers do not work. -/
def except (r : Reply) (ns : List Nat) : Nat → Reply := fun i => if i ∈ ns then r else .works

section
open Configs
/-- The second `Create` loses the reply to its write, the third cannot look the name up, the fourth finds the configuration of the second,
and `Delete` has no collection. -/
def failing : List (Configs.Op × (Nat → Reply)) :=
  [(.create ⟨['a'], ['1'], []⟩ 1, except .fails []), (.create ⟨['b'], ['2'], []⟩ 2, except .lost [2]),
   (.create ⟨['c'], ['3'], []⟩ 3, except .fails [1]), (.create ⟨['b'], ['4'], []⟩ 4, except .fails []),
   (.delete ['a'], except .fails [0])]
-- one call returned without an error, and the configurations are those of the first two
example : (withFailures (stepF (F := Int)) [] failing).2.length = 1 := by decide +kernel
example : find (F := Int) (withFailures stepF [] failing).1 ['a'] = .ok ⟨['a'], ['1'], []⟩ ∧
    find (F := Int) (withFailures stepF [] failing).1 ['b'] = .ok ⟨['b'], ['2'], []⟩ ∧
    find (F := Int) (withFailures stepF [] failing).1 ['c'] = .error := by decide +kernel
-- calls that are met by a failure and calls that are not
example : (createP (F := Int) ⟨['a'], ['1'], []⟩ 1).hit (except .fails [2]) [] = true ∧
    (createP (F := Int) ⟨['a'], ['1'], []⟩ 1).hit (except .fails [3]) [] = false := by decide +kernel
end

section
open Prices
def priceOps1 : List (Prices.Op Int) := [.create ⟨['1'], ['G'], ['r'], 5, 9⟩ 1]
example : (table priceOps1 ['1']).isSome := by decide
-- the lookup fails: the new price is not found though the call succeeds
example : ((createP ⟨['1'], ['G'], ['r'], 7, 9⟩ 2).run (except .fails [2]) (after priceOps1)).2 = .ok () ∧
    (match findByID ((createP ⟨['1'], ['G'], ['r'], 7, 9⟩ 2).run (except .fails [2]) (after priceOps1)).1 ['1'] with
      | .ok pc => pc.basicPriceRate == 5
      | _ => false) = true := by decide +kernel
example : (createP (F := Int) ⟨['1'], ['G'], ['r'], 7, 9⟩ 2).hit (except .lost [3]) (after priceOps1) = true := by decide +kernel
end

section
open Payments
def payOps1 : List Payments.Op := [.initPayment ⟨['1'], ['o'], ['u'], ['9']⟩ 1, .addMoney ⟨['1'], ['o'], ['u'], ['9']⟩ ['x'] 2]
example : ((cleanupP ⟨0, 0⟩).run (except .fails [3]) (after (F := Int) ⟨0, 0⟩ payOps1)).2 = .error ∧
    ((((cleanupP ⟨0, 0⟩).run (except .fails [3]) (after (F := Int) ⟨0, 0⟩ payOps1)).1 0).money).length = 1 ∧
    ((((cleanupP ⟨0, 0⟩).run (except .fails [3]) (after (F := Int) ⟨0, 0⟩ payOps1)).1 0).payment).length = 0 := by decide +kernel
end

section
open Stations
example : (match ((findIDsP [] [['T'], ['S']]).run (except .fails [1]) (after (F := Int) stationOps)).2 with
    | .ok ids => ids == [[], [], ['1']]
    | _ => false) = true := by decide +kernel
end

end Verif.Trains.Examples
