import Verif.Users.FailProps
import Verif.Users.Examples
/-
Concrete cases for C141.
-/
namespace Verif.Users
open Verif.Trains (works withFailures)

private def ann : Person := ⟨['A'], ['N'], ['@'], ['a', 'n', 'n']⟩
private def bob : Person := ⟨['B'], ['O'], ['@'], ['b', 'o', 'b']⟩
private def visa : Card := ⟨['1', '2', '3', '4', '5', '6'], [], []⟩
private def street : Address := ⟨['S'], [], [], [], []⟩

/-- The call with this number does not work. -/
private def but (r : Trains.Reply) (n : Nat) : Nat → Trains.Reply := fun i => if i = n then r else .works

/-- Ann has a card. -/
private def before : List Op := [.register ann ['p'] ['s'], .postCard (Lib.hex 1) visa]

-- the hypotheses of `C141_login_refuted`, and what happens
example : (Book.empty.history before).accounts.find? (fun x => x.person.username = ann.username) = some ⟨1, ann, ['p'], ['s']⟩ ∧
    (∃ e ∈ (Book.empty.history before).cards, e.owner = some 1) ∧ (⟨1, ann, ['p'], ['s']⟩ : Account).accepts ['p'] := by decide +kernel
example : but .fails 1 0 = .works ∧ but .fails 1 1 ≠ .works := by decide
example : (callF (calls State.init before).1 (.login ann.username ['p']) (but .fails 1)).2 = .panic := by decide +kernel
-- without a card it is an error
example : (callP 2 (.login ann.username ['p'])).hit (but .fails 0) (calls State.init (before.take 1)).1 = true ∧
    (callF (calls State.init (before.take 1)).1 (.login ann.username ['p']) (but .fails 0)).2 = .error := by decide +kernel

-- a history of simple calls: the first registration loses its reply, the card cannot be written
private def simple : List (Op × (Nat → Trains.Reply)) :=
  [(.register ann ['p'] ['s'], but .lost 0), (.postCard [] visa, but .fails 0), (.register bob ['q'] ['t'], works)]
example : ∀ c ∈ simple, Simple c.1 := by
  intro c hc
  simp only [simple, List.mem_cons, List.not_mem_nil, or_false] at hc
  rcases hc with rfl | rfl | rfl <;> simp [Simple]
example : (withFailures stepF State.init simple).1.users.length = 2 ∧ (withFailures stepF State.init simple).1.cards.length = 0 ∧
    (withFailures stepF State.init simple).2.length = 1 := by decide +kernel
-- the one whose registration returned an error can log in, as `C141_login_sound` allows
example : (callF (withFailures stepF State.init simple).1 (.login ann.username ['p']) works).2 = .ok (.user ⟨Lib.hex 1, ann, [], []⟩) := by
  decide +kernel

-- the hypotheses of `C141_post_refuted` and of `C141_leftover_refuted`
example : Lib.hex 1 ≠ [] ∧ Lib.fromHex (Lib.hex 1) = some 1 ∧ but .fails 1 0 = .works ∧ but .fails 1 1 = .fails := by decide
example : (callF (calls State.init before).1 (.postUser bob ['q'] ['t'] [street] [visa]) (but .fails 1)).2 = .error := by decide +kernel

-- the account is written and the reply is lost, after one card and one address
example : (∀ a ∈ (Book.empty.history before).accounts, a.person.username ≠ bob.username) ∧ but .lost 0 0 = .lost ∧ but .lost 0 1 = .works ∧
    but .lost 0 2 = .works := by decide +kernel
example : login (callF (calls State.init before).1 (.postUser bob ['q'] ['t'] [street] [visa]) (afterWorking 2 (but .lost 0))).1 bob.username ['q'] =
    .user ⟨Lib.hex 3, bob, [], []⟩ := by decide +kernel
example : (callF (calls State.init before).1 (.postUser bob ['q'] ['t'] [street] [visa]) (afterWorking 2 (but .fails 0))).1.cards =
    [(2, visa)] := by decide +kernel

-- a user is deleted at the third attempt
example : (callP 3 (.deleteUser (Lib.hex 1))).hit (but .fails 3) (calls State.init before).1 = true ∧
    (callF (calls State.init before).1 (.deleteUser (Lib.hex 1)) (but .fails 3)).1.users.length = 1 ∧
    (callF (calls State.init before).1 (.deleteUser (Lib.hex 1)) (but .fails 3)).1.cards.length = 0 ∧
    (callF ([but .fails 3, but .lost 2].foldl (fun s o => (callF s (.deleteUser (Lib.hex 1)) o).1) (calls State.init before).1)
      (.deleteUser (Lib.hex 1)) works).1.users.length = 0 := by decide +kernel

end Verif.Users
