import Verif.NoSQL.UpdateProps
import Verif.NoSQL.Store
import Verif.NoSQL.Paths
/-
Concrete cases for the hypotheses of C31-C43, C58 and C59.  Floating point numbers are halves here: the integer `n`
stands for `n / 2`.
-/
namespace Verif.NoSQL.Examples

instance : Host Int where
  ofInt n := 2 * n
  feq a b := a == b
  flt a b := decide (a < b)
  fle a b := decide (a ≤ b)
  fadd a b := a + b
  regex _ := none
  room n := n
  decodeRoom _ := 0

def x : Name := ['x']
def tags : Name := ['t', 'a', 'g', 's']

private theorem plain_x : Plain x := ⟨by decide, by decide, by decide⟩
private theorem plain_tags : Plain tags := ⟨by decide, by decide, by decide⟩

/-- Three documents. -/
def d1 : Doc Int := [(kId, .oid 1), (x, .int .int 5), (tags, .arr [.str ['a'], .str ['b']] [])]
def d2 : Doc Int := [(kId, .oid 2), (x, .int .int64 7)]
def d3 : Doc Int := [(kId, .oid 3), (x, .float 11)]

def gt5 : Doc Int := [(x, .doc [(kGt, .int .int 5)])]
def le5 : Doc Int := [(x, .doc [(kLte, .int .int32 5)])]

private theorem gt5_total (d : Doc Int) : (matchesQuery gt5 d).isSome := by
  have := (C32_int_literal_partial x ⟨by decide, by decide⟩ .int 5 d).2.1
  simp only at this
  rw [gt5, this]; rfl

private theorem le5_total (d : Doc Int) : (matchesQuery le5 d).isSome := by
  have := (C32_int_literal_partial x ⟨by decide, by decide⟩ .int32 5 d).2.2.2.2
  simp only at this
  rw [le5, this]; rfl

private theorem gt5_defined (items : List (Doc Int)) : Defined gt5 items := ⟨rfl, fun d _ => gt5_total d⟩

-- C31
example : ∀ p ∈ [gt5, le5], (matchesQuery p d1).isSome := by
  intro p hp
  simp only [List.mem_cons, List.not_mem_nil, or_false] at hp
  rcases hp with rfl | rfl
  · exact gt5_total d1
  · exact le5_total d1
example : matchesQuery [(kAnd, .arr [.doc gt5, .doc le5] [])] d1 = some false := by
  have := C31_and [gt5, le5] [] d1 (by
    intro p hp
    simp only [List.mem_cons, List.not_mem_nil, or_false] at hp
    rcases hp with rfl | rfl
    · exact gt5_total d1
    · exact le5_total d1)
  refine this.trans ?_
  decide +kernel
example : matchesQuery gt5 d1 = some false ∧ matchesQuery le5 d1 = some true ∧ matchesQuery gt5 d2 = some true := by
  decide +kernel

-- C32: the 5.5 of the third document is not greater than the integer 5, according to the code
example : matchesQuery gt5 d3 = some false ∧ matchesQuery [(x, .doc [(kGt, .float 10)])] d3 = some true := by
  decide +kernel
example : field x d1 = some (.int .int 5) := rfl

-- C33
example : isOp x = false := by decide
example : matchesQuery [(x, .doc [(kExists, .bool false)])] d1 = some true := by decide +kernel

-- C34 and C58
example : matchesQuery [(tags, .str ['b'])] d1 = some true := by
  rw [C34_field_partial tags plain_tags _ rfl]; decide +kernel
example : literal (.doc [(x, .int .int 1)] : Value Int) = true := by decide
example : storable (.doc [(x, .int .int 1)] : Value Int) = true := by decide
example : Selector (['x', '.', '1', '.', 'y']) := ⟨by decide, by decide +kernel⟩
example : matchesQuery [(['x', '.', 'y'], .int .int 1)] ([(x, .doc [(['y'], .int .int 1)])] : Doc Int) = some true := by
  decide +kernel
example : atoi ['1', '2'] = some ((12 : Nat) : Int) := by decide

-- C35 and C36
example : findMany [d1, d2, d3] gt5 = .ok [d2] := by
  rw [C35_find_many gt5 _ (gt5_defined _)]
  rfl
example : deleteMany [d1, d2, d3] gt5 = ([d1, d3], .ok ()) := by
  rw [C36_delete_many gt5 _ (gt5_defined _)]
  rfl

-- C38
example : updateOne ([] : List (Doc Int)) [] [(kSet, .doc [(x, .int .int 9)])] = ([], 0, .ok) := by rfl
example : updateMany [d1, d2, d3] gt5 [(kSet, .doc [(x, .int .int 9)])] =
    ([d1, [(kId, .oid 2), (x, .int .int32 9)], d3], 1, .ok) := by rfl

-- C39
example : updateDoc [(kSet, .doc [(tags ++ ['.', '0'], .str ['z'])])] d1 =
    ([(kId, .oid 1), (x, .int .int 5), (tags, .arr [.str ['z']] [.str ['b']])], .ok) := by rfl

-- C40
example : hasModifiers (.str ['c'] : Value Int) = false ∧ Identical (.str ['c'] : Value Int) (.str ['c']) :=
  ⟨rfl, .str _⟩
example : updateDoc [(kPull, .doc [(tags, .str ['a'])])] d1 =
    ([(kId, .oid 1), (x, .int .int 5), (tags, .arr [.str ['b']] [.null])], .ok) := by rfl

-- C41, C127
example : updateDoc [(kUnset, .doc [(x ++ '.' :: tags, .null)])] ([(x, .doc [(tags, .int .int 1), (x, .null)])] : Doc Int) =
    ([(x, .doc [(x, .null)])], .ok) := by rfl
example : updateDoc [(kUnset, .doc [(tags ++ ['.', '0', '.', 'x'], .null)])]
      ([(tags, .arr [.doc [(x, .null)], .str ['b']] [])] : Doc Int) =
    ([(tags, .arr [.doc []] [.str ['b']])], .ok) := by rfl
-- C128
example : findMany [d1] [(x, .doc [(kAll, .arr [.int .int 1, .bad] [])])] = .error := by rfl
example : findMany [d1] [(x, .doc [(kElemMatch, .doc [(kOr, .null)])])] = .error := by rfl
example : (updateDoc [(kInc, .doc [(x, .int .int 3)])] d1).1 = [(kId, .oid 1), (x, .int .int 8), (tags, .arr [.str ['a'], .str ['b']] [])] := by
  rfl
example : (d1.map (·.1)).Nodup := by decide

-- C42
example : (updateOne [d1] [] [(kInc, .doc [(tags, .int .int 3)])]).2.2 ≠ .ok := by decide +kernel

-- C43: a history that upserts two identifiers, one of them twice
example : Identified [d1, d2] ∧ (∀ id, withId id [d1, d2] ≤ 1) := by
  refine ⟨?_, ?_⟩
  · intro d hd
    simp only [List.mem_cons, List.not_mem_nil, or_false] at hd
    rcases hd with rfl | rfl
    · exact ⟨1, rfl⟩
    · exact ⟨2, rfl⟩
  · intro id
    have h1 : hit [(kId, .oid id)] d1 = (id == 1) := by
      unfold hit
      rw [C34_field_partial kId ⟨by decide, by decide, by decide⟩ _ rfl, show field kId d1 = some (.oid 1) from rfl]
      simp only [same]
      by_cases h : id = 1 <;> simp [h]
    have h2 : hit [(kId, .oid id)] d2 = (id == 2) := by
      unfold hit
      rw [C34_field_partial kId ⟨by decide, by decide, by decide⟩ _ rfl, show field kId d2 = some (.oid 2) from rfl]
      simp only [same]
      by_cases h : id = 2 <;> simp [h]
    simp only [withId, List.filter_cons, h1, h2, List.filter_nil]
    by_cases e1 : id = 1
    · subst e1; simp
    · by_cases e2 : id = 2 <;> simp [e1, e2]
example : upsertHistory [d1] [(2, .raw d2, 90), (2, .raw d2, 91)] =
    [d1, [(kId, .oid 2), (x, .int .int64 7)]] := by rfl

-- C61
example : ([.raw d2, .obj (some d1)] : List (Input Int)).map (·.toBson) = [d2, d1].map some := rfl
example : replaceMany [d1, d2, d3, d2] gt5 [.raw d1] = ([d1, [(kId, .oid 1), (x, .int .int32 5), (tags, .arr [.str ['a'], .str ['b']] [])], d3, d2], 1, .ok) := by rfl
example : findMany ([] : List (Doc Int)) [(kGt, .int .int 1)] = .error := by rfl

end Verif.NoSQL.Examples
