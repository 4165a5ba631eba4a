import Verif.Cart.Props
import Verif.NoSQL.Props
/-
Concrete cases for C76 and C77.  Prices are integers here.
-/
namespace Verif.Cart.Examples
open Verif.NoSQL Verif.Cart

instance : Single Int Int := ⟨0, id, id, fun _ => rfl⟩

def ann : Name := ['a']
def ses : Name := ['s']
def socks : Item Int := ⟨['x'], 2, 5⟩
def shoes : Item Int := ⟨['y'], 1, 70⟩

/-- Ann has socks; the session has socks and then shoes. -/
def good : List (Nat × Op Int) :=
  [(1, .addItem ann socks), (2, .addItem ses socks), (3, .addItem ses shoes), (4, .mergeCarts ann ses), (5, .getCart ann),
   (6, .getItem ann ['y']), (7, .removeItem ann ['x']), (8, .updateItem ann ⟨['y'], 3, 60⟩), (9, .getCart ann),
   (10, .deleteCart ann), (11, .getCart ann)]

-- C76_cart_partial, C77_merge_partial: the hypotheses hold of this history and the merge in it
private theorem good_order : InOrder 0 [socks] [socks, shoes] := by
  intro pre y post h hy
  match pre, h with
  | [], _ => simp
  | [a], h =>
    simp only [List.cons_append, List.nil_append, List.cons.injEq] at h
    obtain ⟨rfl, rfl, -⟩ := h
    exact absurd hy (by decide)
  | a :: b :: c, h => simp at h

example : MergesOk (Host.decodeRoom (F := Int)) Carts.empty (good.map (·.2)) := by
  refine ⟨trivial, trivial, trivial, ⟨by decide, ?_⟩, trivial, trivial, trivial, trivial, trivial, trivial, trivial, trivial⟩
  exact good_order

example : replies zeroItem Carts.empty (good.map (·.2)) =
    [.item socks, .item socks, .item shoes, .done, .items [⟨['x'], 4, 5⟩, shoes], .item shoes, .done, .done,
     .items [⟨['y'], 3, 60⟩], .done, .items []] := by decide +kernel

/-- Ann has socks; the session has shoes and then socks. -/
def bad : List (Nat × Op Int) := [(1, .addItem ann socks), (2, .addItem ses shoes), (3, .addItem ses socks)]

-- C77_stale_refuted: a reached state
example : Reached (calls ([] : List (Doc Int)) bad).1 Int := ⟨bad, rfl⟩
example : getCartItems (calls ([] : List (Doc Int)) bad).1 ann = .items [socks] ∧
    getCartItems (calls ([] : List (Doc Int)) bad).1 ses = .items ([shoes] ++ socks :: []) ∧
    (inCart socks.id [socks]).isSome ∧
    Host.decodeRoom (F := Int) [socks].length < ([shoes].filter fun z => (inCart z.id [socks]).isNone).length := by
  decide +kernel
-- after the merge Ann still has two pairs of socks, and the session's two pairs are gone
example : getCartItems (calls (calls ([] : List (Doc Int)) bad).1 [(4, (.mergeCarts ann ses : Op Int))]).1 ann =
    .items [socks, shoes] := by decide +kernel

-- C76_concurrent_partial
example : (([(ann, socks, 1), (ses, shoes, 2)] : List (Name × Item Int × Nat)).map (·.1)).Nodup := by decide

end Verif.Cart.Examples
