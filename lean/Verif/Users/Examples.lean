/-
Concrete histories that meet the hypotheses of the theorems.
-/
import Verif.Users.Props
namespace Verif.Users

/-- A library with unary identifiers and a transparent hash. -/
instance exampleLib : Lib where
  hex n := 'x' :: List.replicate n '1'
  fromHex
    | 'x' :: l => some l.length
    | _ => none
  from_hex n := by simp
  hash p s := '#' :: (s ++ '/' :: p)
  hash_ne p s := by simp

private def ann : Person := ⟨['A'], ['N'], ['@'], ['a', 'n', 'n']⟩
private def bob : Person := ⟨['B'], ['O'], ['@'], ['b', 'o', 'b']⟩
private def visa : Card := ⟨['1', '2', '3', '4', '5', '6'], [], []⟩
private def street : Address := ⟨['S'], [], [], [], []⟩

/-- Two users; cards and addresses for one of them, for a visitor, and deletions. -/
private def story : List Op :=
  [.register ann ['p'] ['s'], .postUser bob ['q'] ['t'] [street] [visa],
   .postCard (Lib.hex 1) visa, .postAddress (Lib.hex 1) street, .postCard [] visa,
   .postCard ['z'] visa, .getUsers [], .getCards (Lib.hex 5), .login ['a', 'n', 'n'] ['p'], .login ['a', 'n', 'n'] ['q'],
   .deleteCard (Lib.hex 5), .deleteUser (Lib.hex 2), .getCards [], .getAddresses [], .login ['b', 'o', 'b'] ['q']]

instance (b : Book) (o : Op) : Decidable (b.fine o) := by
  cases o <;> simp only [Book.fine] <;> try infer_instance
  · next h =>
    cases hh : Lib.fromHex h with
    | none => exact isTrue (fun n _ e => by simp at e)
    | some m => exact decidable_of_iff (h ≠ [] → b.has m) ⟨fun f n h0 e => by cases e; exact f h0, fun f h0 => f m h0 rfl⟩
  · next h =>
    cases hh : Lib.fromHex h with
    | none => exact isTrue (fun n _ e => by simp at e)
    | some m =>
      exact decidable_of_iff (h ≠ [] → ∃ e ∈ b.addresses, e.id = m)
        ⟨fun f n h0 e => by cases e; exact f h0, fun f h0 => f m h0 rfl⟩
  · next h =>
    cases hh : Lib.fromHex h with
    | none => exact isTrue (fun n _ e => by simp at e)
    | some m =>
      exact decidable_of_iff (h ≠ [] → ∃ e ∈ b.cards, e.id = m)
        ⟨fun f n h0 e => by cases e; exact f h0, fun f h0 => f m h0 rfl⟩

private def decFine : (os : List Op) → (b : Book) → Decidable (b.allFine os)
  | [], _ => isTrue trivial
  | o :: os, b => @instDecidableAnd _ _ _ (decFine os (b.after o))

instance (b : Book) (os : List Op) : Decidable (b.allFine os) := decFine os b

example : Book.empty.allFine story := by decide +kernel

/-- The replies to the story. -/
example : (calls State.init story).2 =
    [.id (Lib.hex 1), .id (Lib.hex 2), .id (Lib.hex 5), .id (Lib.hex 6), .id (Lib.hex 7), .error,
     .users [⟨Lib.hex 1, ann, [(Lib.hex 6, zeroAddress)], [(Lib.hex 5, zeroCard)]⟩,
       ⟨Lib.hex 2, bob, [(Lib.hex 4, zeroAddress)], [(Lib.hex 3, zeroCard)]⟩],
     .cards [(Lib.hex 5, visa)],
     .user ⟨Lib.hex 1, ann, [(Lib.hex 6, street)], [(Lib.hex 5, ⟨['*', '*', '3', '4', '5', '6'], [], []⟩)]⟩,
     .error, .done, .done, .cards [(Lib.hex 7, visa)], .addresses [(Lib.hex 6, street)], .error] := by decide +kernel

/-- C79: what comes after the registration of `ann` does not delete the account. -/
example : Book.empty.allFine ([] ++ .register ann ['p'] ['s'] :: story.tail) ∧
    ∀ o ∈ story.tail, ∀ x, o = .deleteUser x → Lib.fromHex x ≠ some 1 := by
  refine ⟨by decide +kernel, ?_⟩
  simp only [story, List.tail_cons, List.mem_cons, List.not_mem_nil, or_false]
  rintro o (h | h | h | h | h | h | h | h | h | h | h | h | h | h) x rfl <;> simp_all
  decide

/-- C79 duplicate: `ann` again with another password. -/
example : ∃ a, (Book.empty.history story).accounts.find? (fun a => a.person.username = ann.username) = some a ∧
    ¬ a.accepts ['q'] := ⟨⟨1, ann, ['p'], ['s']⟩, by decide +kernel, by decide⟩

/-- C79 short card: hypotheses. -/
example : ∃ a : Account, (Book.empty.history story).accounts.find? (fun x => x.person.username = a.person.username) = some a ∧
    a.accepts ['p'] ∧ Lib.hex a.id ≠ [] := ⟨⟨1, ann, ['p'], ['s']⟩, by decide +kernel, by decide, by decide⟩

/-- C78 unknown: 9 is nobody's. -/
example : ¬ (Book.empty.history story).has 9 ∧ (∀ e ∈ (Book.empty.history story).addresses, e.id ≠ 9) ∧
    (∀ e ∈ (Book.empty.history story).cards, e.id ≠ 9) := by decide +kernel

end Verif.Users
