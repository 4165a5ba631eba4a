import Verif.Cart.Together
import Verif.Cart.Examples
/-
Concrete cases for C139 and C140.
-/
namespace Verif.Cart.Examples
open Verif.NoSQL Verif.Cart
open Verif.Trains (Together)

/-- The call with this number does not work. -/
def but (r : Trains.Reply) (n : Nat) : Nat → Trains.Reply := fun i => if i = n then r else .works

/-- Ann has socks, and a session has socks and shoes. -/
def three : List (Nat × Op Int) := [(1, .addItem ann socks), (2, .addItem ses socks), (3, .addItem ses shoes)]

-- the hypotheses of `C139_merge_refuted`
example : getCartItems (calls ([] : List (Doc Int)) three).1 ann = Reply.items [socks] := by decide +kernel
example : getCartItems (calls ([] : List (Doc Int)) three).1 ses = Reply.items [socks, shoes] := by decide +kernel
example : (∀ i, i < 3 → but .fails 3 i = .works) ∧ but .fails 3 3 = .fails := by decide
-- the merge and its repetition: the customer has six socks, not four
example : getCartItems (P := Int) (mergeCarts (P := Int) ((mergeCartsP (P := Int) ann ses 4).run (but .fails 3) (calls ([] : List (Doc Int)) three).1).1
    ann ses 5).1 ann = Reply.items [⟨['x'], 6, 5⟩, ⟨['y'], 2, 70⟩] := by decide +kernel

/-- The first `AddItem` loses its reply, the second cannot read, and `DeleteCart` fails. -/
def some_fail : List ((Nat × Op Int) × (Nat → Trains.Reply)) :=
  [((1, .addItem ann socks), but .lost 1), ((2, .addItem ann shoes), but .fails 0), ((3, .addItem ann shoes), but .fails 9),
   ((4, .deleteCart ann), but .fails 0)]
example : ∀ e ∈ some_fail, ∀ c t, e.1.2 ≠ .mergeCarts c t := by
  intro e he c t h
  simp only [some_fail, List.mem_cons, List.not_mem_nil, or_false] at he
  rcases he with rfl | rfl | rfl | rfl <;> cases h
example : getCartItems (Trains.withFailures (stepF (F := Int)) [] some_fail).1 ann = Reply.items [socks, shoes] ∧
    (Trains.withFailures (stepF (F := Int)) [] some_fail).2.length = 1 := by decide +kernel

/-- Ann adds shoes while the session removes its socks. -/
def both : List (Nat × Op Int) := [(4, .addItem ann shoes), (5, .removeItem ses ['x'])]
example : (∀ e ∈ both, ∀ c t, e.2 ≠ .mergeCarts c t) ∧ (both.map fun e => customer e.2).Nodup := by
  refine ⟨fun e he c t h => ?_, by decide⟩
  simp only [both, List.mem_cons, List.not_mem_nil, or_false] at he
  rcases he with rfl | rfl <;> cases h
-- both read before either writes
set_option maxRecDepth 20000 in
example : Together (calls ([] : List (Doc Int)) three).1 (both.map fun e => callP e.1 e.2)
    (calls ([] : List (Doc Int)) (three ++ [(5, .removeItem ses ['x']), (4, .addItem ann shoes)])).1 ([.ok (.item shoes), .ok .done].map .ret) := by
  refine .call [] [_] _ _ _ _ _ ?_
  refine .call [_] [] _ _ _ _ _ ?_
  refine .call [_] [] _ _ _ _ _ ?_
  refine .call [] [_] _ _ _ _ _ ?_
  exact .none _ _

-- the hypotheses of `C140_merge_refuted`: hats are in neither cart
def hats : Item Int := ⟨['h'], 1, 9⟩
example : (∀ y ∈ [socks], y.id ≠ hats.id) ∧ ∀ y ∈ [socks, shoes], y.id ≠ hats.id := by decide
example : InOrder (Host.decodeRoom (F := Int) [socks].length) [socks] [socks, shoes] := by
  intro pre y post h hs
  cases pre with
  | nil => exact Nat.zero_le _
  | cons a pre =>
    simp only [List.cons_append, List.cons.injEq] at h
    obtain ⟨rfl, h⟩ := h
    cases pre with
    | nil => exact Nat.zero_le _
    | cons b pre => simp at h

end Verif.Cart.Examples
