import Verif.Catalogue.Props
/-
Concrete cases for C98.  Prices are numbers; the database gives rows in the order of the table.
-/
namespace Verif.Catalogue.Examples

instance : Sql Nat := ⟨id, fun _ => .refl _, id, fun _ => .refl _⟩

def red : Str := ['r']
def blue : Str := ['b']
def sport : Str := ['s']
def holy : Sock Nat := ⟨['1'], ['H'], [], [], ['u'], ['v'], 99, 1, [red, blue, red], []⟩
def nerd : Sock Nat := ⟨[], ['N'], [], [], [], [], 7, 115, [blue, sport], []⟩
def bare : Sock Nat := ⟨['3'], ['B'], [], [], [], [], 7, 2, [], []⟩

/-- Two socks, one of them added twice, and a sock without tags; one update failed half-way. -/
def hist : List (Fails × Op Nat) :=
  [(noFails, .addTags [red, red]), (noFails, .addSock holy []), (fun k => k == 2, .addSock holy []),
   (noFails, .addSock holy []), (noFails, .addSock nerd ['2']), (noFails, .addSock bare [])]

def db : DB Nat := calls DB.init hist

example : Reached db := ⟨hist, rfl⟩
example : Tagged holy ∧ Tagged nerd := ⟨⟨by decide, by decide⟩, ⟨by decide, by decide⟩⟩
example : PlainTags db := by unfold PlainTags; decide +kernel
-- C98_added_partial: the number drawn for a sock without one is new
example : ∀ r ∈ db.socks, r.id ≠ ['4'] := by decide +kernel
example : tags db = [red, blue, sport] := by decide +kernel
example : get db ['1'] = .ok ⟨['1'], ['H'], [], [['u'], ['v']], ['u'], ['v'], 99, 1, [red, blue], ['r', ',', 'b']⟩ := by
  decide +kernel
-- C98_no_tags_refuted: the third sock is in the table but not in the catalogue
example : db.socks.length = 3 ∧ get db ['3'] = .error ∧ count db [] = 2 ∧ count db [red] = 1 ∧ count db [blue, red] = 2 := by
  decide +kernel
-- C98_list_partial, C98_order_refuted: sorted by price, the second sock would come first
example : (match list db [] "price".toList 1 10 with | .ok l => l.map (·.price) | _ => []) = [99, 7] := by decide +kernel
example : (match list db [blue] [] 2 1 with | .ok l => l.map (·.price) | _ => []) = [7] := by decide +kernel
example : list db [] [] (-1) 1 = .panic := by decide +kernel
-- C98_half_added_refuted
example : red ∈ tags db ∧ blue ∈ tags db := by decide +kernel
-- C98_comma_refuted
example : ',' ∉ red ∧ ',' ∉ blue := by decide

end Verif.Catalogue.Examples
