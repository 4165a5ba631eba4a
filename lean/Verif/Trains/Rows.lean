import Verif.Trains.Props
/-
Collections as lists of values.
-/
set_option linter.unusedSectionVars false
namespace Verif.Trains
open Verif.NoSQL (Name Doc Value Host Codec Ret deleteOne deleteMany atoi digits)
variable {F : Type} [Host F] {T : Type}

theorem replaceFirst_eq (p : T → Bool) (t : T) (l : List T) : Verif.NoSQL.replaceFirst p t l = replaceFirst p t l := by
  induction l with
  | nil => rfl
  | cons a l ih => rw [Verif.NoSQL.replaceFirst, replaceFirst, ih]

theorem removeFirst_eq (p : T → Bool) (l : List T) : l.eraseP p = removeFirst p l := by
  induction l with
  | nil => rfl
  | cons a l ih => rw [List.eraseP_cons, removeFirst, ih]; cases p a <;> rfl

/-- The collection holds these values. -/
structure Holds (c : Codec F T) (docs : List (Doc F)) (l : List T) : Prop where
  rows : c.Rows docs
  eq : c.rows docs = l

namespace Holds
variable {c : Codec F T} {docs : List (Doc F)} {l : List T} {q : Doc F} {p : T → Bool}

theorem nil : Holds c [] [] := ⟨Codec.Rows.nil, rfl⟩

theorem one (h : Holds c docs l) (ok : c.Ok) (a : c.Asks q p) : Trains.one c docs q = .ok (l.find? p) := by
  rw [one_rows a ok h.rows, h.eq]

theorem many (h : Holds c docs l) (ok : c.Ok) (a : c.Asks q p) : Trains.many c docs q = .ok (l.filter p) := by
  rw [many_rows a ok h.rows, h.eq]

theorem all (h : Holds c docs l) (ok : c.Ok) : Trains.many c docs [] = .ok l := by
  rw [h.many ok (Codec.asks_all c)]; simp

theorem insert (h : Holds c docs l) (ok : c.Ok) (t : T) (newId : Nat) :
    ∃ docs', Trains.insert c docs t newId = (docs', .ok ()) ∧ Holds c docs' (l ++ [t]) := by
  obtain ⟨docs', h1, h2, h3⟩ := Codec.insert_one ok h.rows t newId
  exact ⟨docs', h1, h2, by rw [h3, h.eq]⟩

theorem upserted (h : Holds c docs l) (ok : c.Ok) (a : c.Asks q p) (t : T) (newId : Nat) :
    ∃ docs', Trains.upserted c docs q t newId = (docs', .ok (l.any p)) ∧ Holds c docs' (replaceOrAdd p t l) := by
  obtain ⟨docs', h1, h2, h3⟩ := upserted_rows a ok h.rows t newId
  exact ⟨docs', by rw [h1, h.eq], h2, by rw [h3, h.eq, replaceFirst_eq]; rfl⟩

theorem delete (h : Holds c docs l) (ok : c.Ok) (a : c.Asks q p) :
    ∃ docs', deleteOne docs q = (docs', .ok ()) ∧ Holds c docs' (removeFirst p l) := by
  obtain ⟨docs', h1, h2, h3⟩ := Codec.delete_one a ok h.rows
  exact ⟨docs', h1, h2, by rw [h3, h.eq, removeFirst_eq]⟩

theorem clean (h : Holds c docs l) (ok : c.Ok) : ∃ docs', deleteMany docs [] = (docs', .ok ()) ∧ Holds c docs' [] := by
  obtain ⟨docs', h1, h2, h3⟩ := Codec.delete_many (Codec.asks_all c) ok h.rows
  exact ⟨docs', h1, h2, by rw [h3]; simp⟩

/-- By induction over a history. -/
theorem history {Op : Type} {step : List (Doc F) → Op → List (Doc F)} {effect : List T → Op → List T}
    (hs : ∀ docs l op, Holds c docs l → Holds c (step docs op) (effect l op)) (ops : List Op) :
    Holds c (ops.foldl step []) (ops.foldl effect []) := by
  have : ∀ docs l, Holds c docs l → Holds c (ops.foldl step docs) (ops.foldl effect l) := by
    induction ops with
    | nil => exact fun _ _ h => h
    | cons op ops ih => exact fun docs m h => ih _ _ (hs docs m op h)
  exact this _ _ nil

end Holds

/-- A string field, in the orientation of the specification. -/
theorem asks_field {c : Codec F T} {k : Name} (hp : Verif.NoSQL.Plain k) (hk : k ≠ Verif.NoSQL.kId) {get : T → Name}
    (hg : ∀ t, Verif.NoSQL.field k (c.enc t) = some (.str (get t))) (s : Name) :
    c.Asks [(k, .str s)] fun t => decide (get t = s) := by
  have e : (fun t : T => decide (get t = s)) = fun t => s == get t := by
    funext t
    rw [Bool.eq_iff_iff, decide_eq_true_iff, beq_iff_eq, eq_comm]
  rw [e]
  exact Codec.asks_str hp hk hg s

theorem find_answer (p : T → Bool) (l : List T) : found (.ok (l.find? p)) = answer (l.find? p) := by
  cases l.find? p <;> rfl

theorem any_find (p : T → Bool) (l : List T) : l.any p = (l.find? p).isSome := by
  rw [Bool.eq_iff_iff, List.any_eq_true, List.find?_isSome]

/-- Two values pass the test: one is still there after the first is removed. -/
theorem remove_one_of_two (p : T → Bool) (l : List T) (h : 2 ≤ l.countP p) : ∃ t, (removeFirst p l).find? p = some t := by
  induction l with
  | nil => simp at h
  | cons a l ih =>
    rw [removeFirst]
    cases ha : p a with
    | true =>
      simp only [if_true]
      rw [List.countP_cons_of_pos ha] at h
      have : 0 < l.countP p := by omega
      obtain ⟨t, ht, hp⟩ := List.countP_pos_iff.1 this
      exact Option.isSome_iff_exists.1 (List.find?_isSome.2 ⟨t, ht, hp⟩)
    | false =>
      rw [List.countP_cons_of_neg (by simp [ha])] at h
      simpa [ha] using ih h

theorem remove_last (p : T → Bool) (l : List T) (h : l.countP p ≤ 1) : (removeFirst p l).find? p = none := by
  induction l with
  | nil => rfl
  | cons a l ih =>
    rw [removeFirst]
    cases ha : p a with
    | true =>
      rw [List.countP_cons_of_pos ha] at h
      have : l.countP p = 0 := by omega
      rw [List.countP_eq_zero] at this
      simpa using this
    | false =>
      rw [List.countP_cons_of_neg (by simp [ha])] at h
      simpa [ha] using ih h

theorem find_replaceOrAdd (p : T → Bool) (t : T) (ht : p t = true) (l : List T) : (replaceOrAdd p t l).find? p = some t := by
  unfold replaceOrAdd
  split
  · rename_i h
    induction l with
    | nil => simp at h
    | cons a l ih =>
      rw [replaceFirst]
      cases ha : p a with
      | true => simp [ht]
      | false =>
        simp only [List.any_cons, ha, Bool.false_or] at h
        simpa [ha] using ih h
  · rename_i h
    rw [List.find?_append]
    have : l.find? p = none := List.find?_eq_none.2 fun x hx e => h (List.any_eq_true.2 ⟨x, hx, e⟩)
    simp [this, ht]

/-! ### C102: train types -/
namespace Trains

theorem byId (s : Name) : (trainTypes (F := F)).Asks [(fId, .str s)] fun t => decide (t.id = s) :=
  asks_field (by plain) (by decide) (fun _ => rfl) s

theorem byName (s : Name) : (trainTypes (F := F)).Asks [(fName, .str s)] fun t => decide (t.name = s) :=
  asks_field (by plain) (by decide) (fun _ => rfl) s

theorem holds_step (docs : List (Doc F)) (l : List TrainType) (op : Op) (h : Holds trainTypes docs l) :
    Holds trainTypes (step docs op) (effect l op) := by
  cases op with
  | create tt i =>
    simp only [step, effect, create, h.one trainTypes_ok (byName tt.name), any_find]
    cases hf : l.find? fun u => decide (u.name = tt.name) with
    | some _ => exact h
    | none =>
      obtain ⟨docs', h1, h2⟩ := h.insert trainTypes_ok tt i
      simpa [onOk, h1, andReturn] using h2
  | update tt i =>
    obtain ⟨docs', h1, h2⟩ := h.upserted trainTypes_ok (byId tt.id) tt i
    simpa [step, effect, update, h1] using h2
  | delete id =>
    obtain ⟨docs', h1, h2⟩ := h.delete trainTypes_ok (byId id)
    simpa [step, effect, delete, h1, andReturn] using h2

theorem holds (ops : List Op) : Holds (trainTypes (F := F)) (after ops) (stored ops) := Holds.history holds_step ops

/-- `Retrieve` and `RetrieveByName` return the first train type with that id or name, and an error if there is none. -/
theorem C102_retrieve (ops : List Op) (id name : Name) :
    retrieve (F := F) (after ops) id = answer ((stored ops).find? fun t => t.id = id) ∧
    retrieveByName (F := F) (after ops) name = answer ((stored ops).find? fun t => t.name = name) := by
  constructor
  · rw [retrieve, (holds ops).one trainTypes_ok (byId id), find_answer]
  · rw [retrieveByName, (holds ops).one trainTypes_ok (byName name), find_answer]

/-- `RetrieveByNames` returns as many train types as there are names, in their order, with an empty one for each that is not known. -/
theorem C102_retrieve_by_names (ops : List Op) (names : List Name) :
    retrieveByNames (F := F) (after ops) names =
      .ok (names.map fun name => ((stored ops).find? fun t => t.name = name).getD ⟨[], [], 0, 0, 0⟩) := by
  induction names with
  | nil => rfl
  | cons n ns ih =>
    rw [retrieveByNames, (C102_retrieve ops [] n).2, ih]
    cases hf : (stored ops).find? fun t => decide (t.name = n) <;> simp [answer, hf, zero]

/-- `Create` fails exactly if there is a train type of that name; `Update` tells whether there was one with that id; `Delete`
always reports success. -/
theorem C102_write (ops : List Op) (tt : TrainType) (newId : Nat) (id : Name) :
    (create (F := F) (after ops) tt newId).2 = (if ∃ t ∈ stored ops, t.name = tt.name then .error else .ok true) ∧
    (update (F := F) (after ops) tt newId).2 = .ok (decide (∃ t ∈ stored ops, t.id = tt.id)) ∧
    (delete (F := F) (after ops) id).2 = .ok true := by
  refine ⟨?_, ?_, ?_⟩
  · rw [create, (holds ops).one trainTypes_ok (byName tt.name)]
    cases hf : (stored ops).find? fun t => decide (t.name = tt.name) with
    | some t =>
      rw [if_pos ⟨t, List.mem_of_find?_eq_some hf, by simpa using List.find?_some hf⟩]; rfl
    | none =>
      rw [if_neg]
      · obtain ⟨docs', h1, -⟩ := (holds (F := F) ops).insert trainTypes_ok tt newId
        simp [onOk, h1, andReturn]
      · rintro ⟨t, ht, e⟩
        simpa [e] using List.find?_eq_none.1 hf t ht
  · obtain ⟨docs', h1, -⟩ := (holds (F := F) ops).upserted trainTypes_ok (byId tt.id) tt newId
    rw [update, h1]
    simp only [Ret.ok.injEq]
    rw [Bool.eq_iff_iff, List.any_eq_true, decide_eq_true_iff]
    simp
  · obtain ⟨docs', h1, -⟩ := (holds (F := F) ops).delete trainTypes_ok (byId id)
    rw [delete, h1]; rfl

/-- `AllTrains` returns all of them, and an error if there are none. -/
theorem C102_all (ops : List Op) :
    allTrains (F := F) (after ops) = if stored ops = [] then .error else .ok (stored ops) := by
  rw [allTrains, (holds ops).all trainTypes_ok]
  cases h : stored ops <;> rfl

/-- After `Delete` no train type has the id, if no two had it before.  The property asks for this whatever was stored. -/
theorem C102_delete_partial (ops : List Op) (id : Name) (h : (stored ops).countP (fun t => t.id = id) ≤ 1) :
    retrieve (F := F) (after (ops ++ [.delete id])) id = .error := by
  rw [(C102_retrieve _ id []).1]
  have : stored (ops ++ [.delete id]) = removeFirst (fun t => t.id = id) (stored ops) := by
    rw [stored, List.foldl_append]; rfl
  rw [this, remove_last _ _ h]; rfl

/-- `Create` looks only at the name, so two train types can have an id; `Delete` reports success and one of them stays. -/
theorem C102_delete_refuted (ops : List Op) (id : Name) (h : 2 ≤ (stored ops).countP (fun t => t.id = id)) :
    ∃ t, retrieve (F := F) (after (ops ++ [.delete id])) id = .ok t := by
  rw [(C102_retrieve _ id []).1]
  have : stored (ops ++ [.delete id]) = removeFirst (fun t => t.id = id) (stored ops) := by
    rw [stored, List.foldl_append]; rfl
  obtain ⟨t, ht⟩ := remove_one_of_two _ _ h
  exact ⟨t, by rw [this, ht]; rfl⟩

/-- Such a history: two train types of different names and one id. -/
example : 2 ≤ (stored [.create ⟨['1'], ['A'], 1, 1, 1⟩ 1, .create ⟨['1'], ['B'], 1, 1, 1⟩ 2]).countP (fun t => t.id = ['1']) := by decide

/-- `Create` refuses a name that is there, but with `Update` two train types can have one name. -/
theorem C102_names_refuted : ∃ ops : List Op, ¬ ((stored ops).map TrainType.name).Nodup :=
  ⟨[.create ⟨['1'], ['A'], 1, 1, 1⟩ 1, .update ⟨['2'], ['A'], 1, 1, 1⟩ 2], by decide⟩

end Trains
end Verif.Trains
