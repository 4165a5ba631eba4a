import Verif.Leaf.Fail
/-
Concrete cases of the theorems about the leaf example.
-/
namespace Verif.Leaf
open Verif.NoSQL (Doc Host Ret)
open Verif.Trains (Prog Together Reply works)
variable {F : Type} [Host F]

/-- Three calls in turn return 0, 1 and 2. -/
example : (inTurn ([] : List (Doc F)) [10, 11, 12]).1 = [.ok 0, .ok 1, .ok 2] := (C146_in_turn [10, 11, 12]).1

/-- As long as there are fewer than 2^31 of them, the numbers returned are those of the calls before. -/
example (ids : List Nat) (h : ids.length ≤ 2 ^ 31) (i : Nat) (hi : i < ids.length) :
    (inTurn ([] : List (Doc F)) ids).1[i]? = some (.ok (i : Int)) := by
  rw [(C146_in_turn ids).1, List.getElem?_map, List.getElem?_range hi, Option.map_some, shown_small i (by omega)]

/-- Three calls at the same time: the second and the third find the collection empty too, the first ends before the second inserts. -/
theorem three : ∃ s : List (Doc F), Together [] ([1, 2, 3].map helloIntP) s ([.ok 0, .ok 0, .ok 0].map .ret) :=
  ⟨_, .call [_] _ _ _ _ _ _ (.call [_, _] _ _ _ _ _ _ (.call [] _ _ _ _ _ _ (.call [] _ _ _ _ _ _ (.call [] _ _ _ _ _ _
    (.call [_] _ _ _ _ _ _ (.call [_] _ _ _ _ _ _ (.call [_, _] _ _ _ _ _ _ (.call [_, _] _ _ _ _ _ _ (.none _ _)))))))))⟩

example : ∃ (s : List (Doc F)) (d : Doc F) (rest : List (Doc F)), Together [] ([1, 2, 3].map helloIntP) s ([.ok 0, .ok 0, .ok 0].map .ret) ∧
    s = d :: rest ∧ countOf d = 3 := by
  obtain ⟨s, h⟩ := three (F := F)
  obtain ⟨⟨d, rest, e, hc⟩, -⟩ := C146_counted_partial [1, 2, 3] (by simp) s _ h
  exact ⟨s, d, rest, h, e, hc⟩

/-- One call that ends before the other starts: they return 0 and 1, and there is one object. -/
example : ∃ s : List (Doc F), Together [] ([1, 2].map helloIntP) s ([.ok 0, .ok 1].map .ret) ∧ s.length = 1 :=
  ⟨_, .call [] _ _ _ _ _ _ (.call [] _ _ _ _ _ _ (.call [] _ _ _ _ _ _ (.call [_] _ _ _ _ _ _ (.call [_] _ _ _ _ _ _ (.none _ _))))), rfl⟩

/-- A call after three calls at the same time returns 3, although none of them has returned more than 0. -/
example (s' : List (Doc F)) (r : Ret Int) : ∃ s : List (Doc F), Together [] ([1, 2, 3].map helloIntP) s ([.ok 0, .ok 0, .ok 0].map .ret) ∧
    (Together s ([4].map helloIntP) s' ([r].map .ret) → r = .ok 3) := by
  obtain ⟨s, h⟩ := three (F := F)
  refine ⟨s, h, fun h' => ?_⟩
  obtain ⟨j, h1, h2, rfl⟩ := (C146_later [1, 2, 3] [4] s s' _ [r] h h').1 r (by simp)
  have : j = 3 := by
    simp only [List.length_cons, List.length_nil] at h1 h2
    omega
  subst this
  rfl

example : ∃ s : List (Doc F), Together [] [helloIntP 1, helloIntP 2] s [.ret (.ok 0), .ret (.ok 0)] ∧ s.length = 2 := C146_twice_refuted 1 2

/-- A call whose insertion is stored while its reply is lost, then one whose update's reply is lost, then one for which all works. -/
def threeLost : List (Nat × (Nat → Reply)) :=
  [(1, fun i => if i = 1 then .lost else .works), (2, fun i => if i = 1 then .lost else .works), (3, works)]

example : (inTurnF ([] : List (Doc F)) threeLost).1 = [.error, .ok 0, .ok 1] := rfl

example : ∃ d, (inTurnF ([] : List (Doc F)) threeLost).2 = [d] ∧ countOf d = 2 := by
  have h : ∀ c ∈ threeLost, ∀ i, c.2 i ≠ .fails := by
    intro c hc i
    simp only [threeLost, List.mem_cons, List.not_mem_nil, or_false] at hc
    rcases hc with rfl | rfl | rfl
    · by_cases h : i = 1 <;> simp [h]
    · by_cases h : i = 1 <;> simp [h]
    · simp [works]
  have hn : numbers (inTurnF ([] : List (Doc F)) threeLost).1 = [0, 1] := rfl
  obtain ⟨d, h1, h2⟩ := (C146_lost_replies (F := F) threeLost h).2 (by rw [hn]; simp)
  rw [hn] at h2
  exact ⟨d, h1, h2⟩

/-- After two calls, a third and a fourth return 2, and neither is counted. -/
example : ∃ r : Nat → Reply, (inTurnF (inTurn ([] : List (Doc F)) [1, 2]).2 [(3, r), (4, r)]).1 = [.ok 2, .ok 2] := by
  obtain ⟨r, h⟩ := C146_uncounted_refuted (F := F) [1, 2] (by simp) 3 4
  exact ⟨r, by rw [h]; rfl⟩

end Verif.Leaf
