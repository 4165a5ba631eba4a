/-
C60: databases and collections (runtime/plugins/simplenosqldb/nosqldb.go lines 23-62).
-/
namespace Verif.NoSQL.Store

/-- A Go map with string keys, as an association list; the first entry of a key counts. -/
def find {α : Type} (k : String) : List (String × α) → Option α
  | [] => none
  | (k', v) :: m => if k' = k then some v else find k m

/-- `SimpleNoSQLDB` (lines 23-30): the maps, and the addresses handed out so far.  A `*SimpleCollection` is a
number. -/
structure State where
  collections : List (String × List (String × Nat)) := []
  next : Nat := 0

/-- `GetCollection` (lines 48-62).  The maps are shared, so storing a collection in the inner map is storing a
changed inner map in the outer one. -/
def getCollection (s : State) (db name : String) : State × Nat :=
  let inner := (find db s.collections).getD []
  match find name inner with
  | some c => (s, c)
  | none => ({ collections := (db, (name, s.next) :: inner) :: s.collections, next := s.next + 1 }, s.next)

/-- A history of calls on a new store, with the collections returned. -/
def history (s : State) : List (String × String) → State × List Nat
  | [] => (s, [])
  | (db, name) :: cs =>
    let (s', c) := getCollection s db name
    let (s'', r) := history s' cs
    (s'', c :: r)

/-- The collection stored under two names. -/
private def stored (s : State) (db name : String) : Option Nat := (find db s.collections).bind (find name)

private def Inv (s : State) : Prop :=
  (∀ db n c, stored s db n = some c → c < s.next) ∧
  (∀ db n db' n' c, stored s db n = some c → stored s db' n' = some c → db = db' ∧ n = n')

private theorem step (s : State) (h : Inv s) (db n : String) :
    Inv (getCollection s db n).1 ∧ stored (getCollection s db n).1 db n = some (getCollection s db n).2 ∧
    ∀ db' n' c, stored s db' n' = some c → stored (getCollection s db n).1 db' n' = some c := by
  cases hf : find n ((find db s.collections).getD []) with
  | some c =>
    rw [show getCollection s db n = (s, c) by simp only [getCollection, hf]]
    refine ⟨h, ?_, fun _ _ _ h => h⟩
    simp only [stored]
    cases hd : find db s.collections with
    | none => rw [hd] at hf; cases hf
    | some inner => rw [hd] at hf; exact hf
  | none =>
    rw [show getCollection s db n = ({ collections := (db, (n, s.next) :: (find db s.collections).getD []) :: s.collections, next := s.next + 1 }, s.next) by
      simp only [getCollection, hf]]
    have hs : ∀ db' n', stored { collections := (db, (n, s.next) :: (find db s.collections).getD []) :: s.collections, next := s.next + 1 } db' n' =
        if db' = db ∧ n' = n then some s.next else stored s db' n' := by
      intro db' n'
      simp only [stored, find]
      by_cases h1 : db = db'
      · subst h1
        by_cases h2 : n = n'
        · subst h2; simp [find]
        · simp only [if_true, Option.bind_some, find, if_neg h2, Ne.symm h2, and_false, if_false]
          cases find db s.collections <;> rfl
      · rw [if_neg h1, if_neg (fun h => h1 h.1.symm)]
    have hn : stored s db n = none := by
      simp only [stored]
      cases hd : find db s.collections with
      | none => rfl
      | some inner => rw [hd] at hf; exact hf
    refine ⟨⟨?_, ?_⟩, ?_, ?_⟩
    · intro db' n' c hc
      rw [hs] at hc
      split at hc
      · cases hc; exact Nat.lt_succ_self _
      · exact Nat.lt_succ_of_lt (h.1 _ _ _ hc)
    · intro a b a' b' c h1 h2
      rw [hs] at h1 h2
      split at h1
      · rename_i e1
        cases h1
        split at h2
        · rename_i e2; exact ⟨e1.1.trans e2.1.symm, e1.2.trans e2.2.symm⟩
        · exact absurd (h.1 _ _ _ h2) (Nat.lt_irrefl _)
      · split at h2
        · cases h2; exact absurd (h.1 _ _ _ h1) (Nat.lt_irrefl _)
        · exact h.2 _ _ _ _ _ h1 h2
    · rw [hs]; simp
    · intro db' n' c hc
      rw [hs]
      split
      · rename_i e; rw [e.1, e.2, hn] at hc; cases hc
      · exact hc

private theorem history_stored (cs : List (String × String)) : ∀ s, Inv s →
    Inv (history s cs).1 ∧ (history s cs).2.length = cs.length ∧
    (∀ db n c, stored s db n = some c → stored (history s cs).1 db n = some c) ∧
    ∀ (i : Nat) db n, cs[i]? = some (db, n) → ∃ c, (history s cs).2[i]? = some c ∧ stored (history s cs).1 db n = some c := by
  induction cs with
  | nil => intro s h; exact ⟨h, rfl, fun _ _ _ h => h, fun i _ _ hi => by simp at hi⟩
  | cons call cs ih =>
    intro s h
    obtain ⟨db0, n0⟩ := call
    obtain ⟨s1, s2, s3⟩ := step s h db0 n0
    obtain ⟨i1, i2, i3, i4⟩ := ih _ s1
    simp only [history]
    refine ⟨i1, by simp [i2], fun db n c hc => i3 _ _ _ (s3 _ _ _ hc), ?_⟩
    intro i db n hi
    cases i with
    | zero =>
      simp at hi
      obtain ⟨rfl, rfl⟩ := hi
      exact ⟨_, rfl, i3 _ _ _ s2⟩
    | succ i => exact i4 i db n (by simpa using hi)

/-- C60: in every history of calls of `GetCollection` on a new database, two calls return the same collection iff
they give the same database name and the same collection name. -/
theorem C60_collections (cs : List (String × String)) (i j : Nat) (a b : String × String)
    (hi : cs[i]? = some a) (hj : cs[j]? = some b) :
    ∃ c d, (history {} cs).2[i]? = some c ∧ (history {} cs).2[j]? = some d ∧ (c = d ↔ a = b) := by
  have h0 : Inv {} := ⟨fun _ _ _ h => (nomatch h), fun _ _ _ _ _ h => (nomatch h)⟩
  obtain ⟨hI, -, -, h⟩ := history_stored cs {} h0
  obtain ⟨c, hc, hc'⟩ := h i a.1 a.2 hi
  obtain ⟨d, hd, hd'⟩ := h j b.1 b.2 hj
  refine ⟨c, d, hc, hd, ?_⟩
  constructor
  · rintro rfl
    obtain ⟨e1, e2⟩ := hI.2 _ _ _ _ _ hc' hd'
    exact Prod.ext e1 e2
  · rintro rfl
    rw [hc'] at hd'
    exact Option.some.inj hd'

example : (history {} [("a", "x"), ("b", "x"), ("a", "y"), ("a", "x")]).2 = [0, 1, 2, 0] := by decide +kernel

end Verif.NoSQL.Store
