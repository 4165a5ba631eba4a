import Verif.NoSQL.Nested
import Verif.NoSQL.Props
/-
Concrete cases for C138.
-/
namespace Verif.NoSQL.Examples

def nb : Name := ['b']
def nc : Name := ['c']
private theorem plain_path : ∀ k ∈ [x, nb, nc], Plain k := by
  intro k hk
  simp only [List.mem_cons, List.not_mem_nil, or_false] at hk
  rcases hk with rfl | rfl | rfl <;> exact ⟨by decide, by decide, by decide⟩

/-- A document in a document. -/
def deep : Doc Int := [(tags, .str ['t']), (x, .doc [(nb, .doc [(tags, .int .int 1), (nc, .int .int32 4)]), (tags, .null)])]

example : dotted [x, nb, nc] = ['x', '.', 'b', '.', 'c'] := by decide
example : Open [x, nb, nc] deep ∧ ((holder [x, nb, nc] deep).map (·.1)).Nodup := ⟨trivial, by decide⟩
-- the paths beside: another field at each level, and a path that leaves on the way
example : ¬ [x, nb, nc] <+: [x, nb, tags] ∧ ¬ [x, nb, tags] <+: [x, nb, nc] ∧ ¬ [x, nb, nc] <+: [x, tags] ∧ ¬ [x, tags] <+: [x, nb, nc] := by decide
-- nothing is in the way in an empty document, and in one with null
example : Open [x, nb, nc] ([] : Doc Int) ∧ Open [x, nb, nc] ([(x, .null)] : Doc Int) := ⟨trivial, trivial⟩
example : ¬ Open [x, nb, nc] ([(x, .str ['s'])] : Doc Int) ∧ ¬ Open [x, nb, nc] ([(x, .doc [(nb, .int .int 1)])] : Doc Int) :=
  ⟨fun h => h, fun h => h⟩
-- `$inc` of x.b.c
example : ∃ d', updateDoc [(kInc, .doc [(dotted [x, nb, nc], .int .int 3)])] deep = (d', .ok) ∧
    getAt [x, nb, nc] d' = some (.int .int32 7) ∧ getAt [x, nb, tags] d' = some (.int .int 1) := by
  obtain ⟨d', h1, h2, h3⟩ := (C138_inc .int 3 [x, nb, nc] (by simp) plain_path deep trivial).2.1 .int32 4 rfl
  exact ⟨d', h1, h2, h3 [x, nb, tags] (by decide) (by decide)⟩
example : updateDoc [(kSet, .doc [(dotted [x, nb, nc], .str ['v'])])] ([] : Doc Int) =
    ([(x, .doc [(nb, .doc [(nc, .str ['v'])])])], .ok) := by rfl
example : updateDoc [(kSet, .doc [(dotted [x, nb, nc], .null)])] deep = (deep, .panic) :=
  C138_set_null_refuted [x, nb, nc] (by simp) plain_path deep trivial

end Verif.NoSQL.Examples
