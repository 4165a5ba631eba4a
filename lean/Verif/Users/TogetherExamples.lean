import Verif.Users.Together
import Verif.Users.Examples
/-
Concrete cases for C142.
-/
namespace Verif.Users
open Verif.Trains (Together)

private def ann : Person := ⟨['A'], ['N'], ['@'], ['a', 'n', 'n']⟩
private def visa : Card := ⟨['1', '2', '3', '4', '5', '6'], [], []⟩
private def gold : Card := ⟨['9', '9', '9', '9'], [], []⟩
private def street : Address := ⟨['S'], [], [], [], []⟩

/-- Ann has an account and a card. -/
private def before : List Op := [.register ann ['p'] ['s'], .postCard (Lib.hex 1) visa]

/-- Two cards and an address for Ann at the same time, and an address for nobody. -/
private def posts : List Post :=
  [⟨5, Lib.hex 1, .inl gold⟩, ⟨4, Lib.hex 1, .inl visa⟩, ⟨3, Lib.hex 1, .inr street⟩, ⟨7, [], .inr street⟩]

-- the hypotheses of `C142_posts_partial`
example : (posts.map (·.n)).Nodup ∧ (∀ p ∈ posts, (calls State.init before).1.next ≤ p.n) := by decide +kernel
example : ∀ p ∈ posts, p.userid = [] ∨ ∃ id, Lib.fromHex p.userid = some id := by
  intro p hp
  simp only [posts, List.mem_cons, List.not_mem_nil, or_false] at hp
  rcases hp with rfl | rfl | rfl | rfl
  · exact .inr ⟨1, Lib.from_hex 1⟩
  · exact .inr ⟨1, Lib.from_hex 1⟩
  · exact .inr ⟨1, Lib.from_hex 1⟩
  · exact .inl rfl
-- what it says of them
example : postedCards posts = [(5, gold), (4, visa)] ∧ (postedCards (postedFor 1 posts)).map (·.1) = [5, 4] ∧
    (postedAddresses (postedFor 1 posts)).map (·.1) = [3] ∧ postedAddresses posts = [(3, street), (7, street)] := by decide +kernel
-- one schedule: both cards are written before either is linked
set_option maxRecDepth 20000 in
example : ∃ s', Together (calls State.init before).1 ((posts.take 2).map fun p => callP p.n p.op) s'
    ([.ok (.id (Lib.hex 5)), .ok (.id (Lib.hex 4))].map .ret) ∧ s'.users.map (·.cards) = [[2, 4, 5]] ∧ s'.cards = [(2, visa), (5, gold), (4, visa)] := by
  refine ⟨_, .call [] _ _ _ _ _ _ (.call [_] [] _ _ _ _ _ (.call [_] [] _ _ _ _ _ (.call [] _ _ _ _ _ _ (.none _ _)))), ?_, ?_⟩
  · decide +kernel
  · decide +kernel
-- the hypothesis of `C142_login_refuted`
example : Lib.hex 1 ≠ [] := by decide

end Verif.Users
