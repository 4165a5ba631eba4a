import Verif.Leaf.Props
/-
`HelloInt` of the leaf example when calls of the database fail.
-/
namespace Verif.Leaf
open Verif.NoSQL (Name Doc Value Host Ret findMany insertOne updateOne IntKind)
open Verif.Trains (Prog orErr Reply works)
variable {F : Type} [Host F]

/-- The calls one after the other, each with an identifier for the object and the replies of the database: what they return, and the
collection. -/
def inTurnF (s : List (Doc F)) : List (Nat × (Nat → Reply)) → List (Ret Int) × List (Doc F)
  | [] => ([], s)
  | c :: cs => (((helloIntP c.1).run c.2 s).2 :: (inTurnF ((helloIntP c.1).run c.2 s).1 cs).1, (inTurnF ((helloIntP c.1).run c.2 s).1 cs).2)

/-- The numbers that the calls have returned; those that returned an error are left out. -/
def numbers (rs : List (Ret Int)) : List Int := rs.filterMap fun
  | .ok n => some n
  | _ => none

/-- Nothing is stored and nothing has been counted, or one object is stored, with the count `n`. -/
private def Holds (n : Nat) (s : List (Doc F)) : Prop := (s = [] ∧ n = 0) ∨ ∃ o, s = [stored (o, shown n)]

private theorem find_one (o : Nat) (n : Int) : findMany [stored (F := F) (o, n)] filter = .ok [stored (o, n)] := find_stored [(o, n)]

private theorem update_one (o n : Nat) : (updateOne [stored (F := F) (o, shown n)] filter update).1 = [stored (o, shown (n + 1))] := by
  have := update_stored (F := F) o (shown n) []
  rw [List.map_cons, List.map_nil] at this
  rw [this, shown_succ]
  rfl

/-- The update with any reply. -/
private theorem update_run (n o : Nat) (m : Nat) (r : Nat → Reply) : (updateP (F := F) (shown m)).run r [stored (o, shown n)] =
    (if r 0 = .fails then [stored (o, shown n)] else [stored (o, shown (n + 1))], .ok (shown m)) := by
  unfold updateP
  simp only [Prog.run]
  cases h : r 0 <;> simp [update_one]

private theorem one_call (id : Nat) (r : Nat → Reply) (n : Nat) (s : List (Doc F)) (h : Holds n s) :
    (((helloIntP id).run r s).2 = .error ∧ Holds n ((helloIntP id).run r s).1) ∨
    (((helloIntP id).run r s).2 = .ok (shown n) ∧ (Holds (n + 1) ((helloIntP id).run r s).1 ∨ ((∃ i, r i = .fails) ∧ Holds n ((helloIntP id).run r s).1))) := by
  unfold helloIntP
  rcases h with ⟨rfl, rfl⟩ | ⟨o, rfl⟩
  · have hf : findMany ([] : List (Doc F)) filter = .ok [] := find_stored []
    have hi : insertOne ([] : List (Doc F)) (.obj (some myObject)) id = ([stored (id, shown 0)], .ok ()) := insert_stored [] id
    have h0 : countOf (F := F) myObject = shown 0 := rfl
    simp only [Prog.run, hf, orErr, hi, h0]
    cases h1 : r 0
    · cases h2 : r (0 + 1)
      · simp only [update_run]
        refine .inr ⟨trivial, ?_⟩
        by_cases h3 : r (0 + 1 + 1) = .fails
        · simp only [h3, if_true]
          exact .inr ⟨⟨_, h3⟩, .inr ⟨id, rfl⟩⟩
        · simp only [h3, if_false]
          exact .inl (.inr ⟨id, rfl⟩)
      · exact .inl ⟨rfl, .inl ⟨rfl, rfl⟩⟩
      · exact .inl ⟨rfl, .inr ⟨id, rfl⟩⟩
    · exact .inl ⟨rfl, .inl ⟨rfl, rfl⟩⟩
    · exact .inl ⟨rfl, .inl ⟨rfl, rfl⟩⟩
  · simp only [Prog.run, find_one, orErr, count_stored]
    cases h1 : r 0
    · simp only [update_run]
      refine .inr ⟨trivial, ?_⟩
      by_cases h3 : r (0 + 1) = .fails
      · simp only [h3, if_true]
        exact .inr ⟨⟨_, h3⟩, .inr ⟨o, rfl⟩⟩
      · simp only [h3, if_false]
        exact .inl (.inr ⟨o, rfl⟩)
    · exact .inl ⟨rfl, .inr ⟨o, rfl⟩⟩
    · exact .inl ⟨rfl, .inr ⟨o, rfl⟩⟩

private theorem range_shift {α : Type} (g : Nat → α) (n k : Nat) :
    (List.range (k + 1)).map (fun i => g (n + i)) = g n :: (List.range k).map (fun i => g (n + 1 + i)) := by
  rw [List.range_succ_eq_map, List.map_cons, List.map_map, Nat.add_zero]
  refine congrArg (g n :: ·) (List.map_congr_left fun i _ => ?_)
  simp only [Function.comp, Nat.succ_eq_add_one]
  rw [show n + (i + 1) = n + 1 + i by omega]

private theorem numbers_error (rs : List (Ret Int)) : numbers (.error :: rs) = numbers rs := rfl
private theorem numbers_ok (m : Int) (rs : List (Ret Int)) : numbers (.ok m :: rs) = m :: numbers rs := rfl

private theorem lost_turns (cs : List (Nat × (Nat → Reply))) (hr : ∀ c ∈ cs, ∀ i, c.2 i ≠ .fails) : ∀ (n : Nat) (s : List (Doc F)), Holds n s →
    numbers (inTurnF s cs).1 = (List.range (numbers (inTurnF s cs).1).length).map (fun i => shown (n + i)) ∧
      Holds (n + (numbers (inTurnF s cs).1).length) (inTurnF s cs).2 := by
  induction cs with
  | nil => intro n s h; exact ⟨rfl, h⟩
  | cons c cs ih =>
    intro n s h
    have ih := ih fun d hd => hr d (List.mem_cons_of_mem _ hd)
    simp only [inTurnF]
    rcases one_call c.1 c.2 n s h with ⟨h1, h2⟩ | ⟨h1, h2 | ⟨⟨i, hi⟩, -⟩⟩
    · have e := ih n _ h2
      rw [h1]
      generalize inTurnF ((helloIntP c.1).run c.2 s).1 cs = q at e ⊢
      rw [numbers_error]
      exact e
    · obtain ⟨e1, e2⟩ := ih (n + 1) _ h2
      rw [h1]
      generalize inTurnF ((helloIntP c.1).run c.2 s).1 cs = q at e1 e2 ⊢
      rw [numbers_ok, List.length_cons, range_shift, ← e1]
      refine ⟨rfl, ?_⟩
      rw [show n + ((numbers q.1).length + 1) = n + 1 + (numbers q.1).length by omega]
      exact e2
    · exact absurd hi (hr c (by simp) i)

/-- C146: calls one after the other on an empty collection, when replies of the database are lost: those that return a number return 0, 1, 2
and so on, and if one does, one object is stored and its count is the number of these calls. -/
theorem C146_lost_replies (cs : List (Nat × (Nat → Reply))) (hr : ∀ c ∈ cs, ∀ i, c.2 i ≠ .fails) :
    numbers (inTurnF ([] : List (Doc F)) cs).1 = (List.range (numbers (inTurnF ([] : List (Doc F)) cs).1).length).map shown ∧
    (numbers (inTurnF ([] : List (Doc F)) cs).1 ≠ [] → ∃ d, (inTurnF ([] : List (Doc F)) cs).2 = [d] ∧
      countOf d = shown (numbers (inTurnF ([] : List (Doc F)) cs).1).length) := by
  obtain ⟨h1, h2⟩ := lost_turns cs hr 0 ([] : List (Doc F)) (.inl ⟨rfl, rfl⟩)
  simp only [Nat.zero_add] at h1 h2
  refine ⟨h1, fun hne => ?_⟩
  rcases h2 with ⟨-, h⟩ | ⟨o, h⟩
  · exact absurd (List.length_eq_zero_iff.1 h) hne
  · exact ⟨_, h, count_stored _⟩

/-- C146 refuted: the error of the update is ignored.  After any calls that were counted, a call whose update fails returns without an error and
is not counted, and the next call returns the same number. -/
theorem C146_uncounted_refuted (ids : List Nat) (hne : ids ≠ []) (a b : Nat) : ∃ r : Nat → Reply,
    inTurnF (inTurn ([] : List (Doc F)) ids).2 [(a, r), (b, r)] =
      ([.ok (shown ids.length), .ok (shown ids.length)], (inTurn ([] : List (Doc F)) ids).2) := by
  refine ⟨fun i => if i = 1 then .fails else .works, ?_⟩
  obtain ⟨o, h⟩ := turned ids hne (F := F)
  rw [h]
  have e : ∀ id, (helloIntP (F := F) id).run (fun i => if i = 1 then .fails else .works) [stored (o, shown ids.length)] =
      ([stored (o, shown ids.length)], .ok (shown ids.length)) := by
    intro id
    unfold helloIntP
    simp [Prog.run, find_one, orErr, count_stored, update_run]
  simp only [inTurnF, e]

end Verif.Leaf
