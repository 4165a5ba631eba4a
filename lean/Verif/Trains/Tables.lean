import Verif.Trains.Lemmas
import Verif.Trains.Spec
/-
Collections that hold one document for each value of a key, as tables.
-/
namespace Verif.Trains
open Verif.NoSQL (Name Doc Value Host Codec Ret findOne findMany insertOne deleteOne deleteMany upsert)
variable {F : Type} [Host F] {T : Type}

/-- The collection stands for the table. -/
structure Shows (c : Codec F T) (key : T → Name) (docs : List (Doc F)) (m : Table T) : Prop where
  rows : c.Rows docs
  distinct : Distinct key (c.rows docs)
  look : ∀ k, look key (c.rows docs) k = m k

section any
variable {c : Codec F T} {docs : List (Doc F)} {q : Doc F} {p : T → Bool}

theorem one_rows (a : c.Asks q p) (ok : c.Ok) (h : c.Rows docs) : one c docs q = .ok ((c.rows docs).find? p) := by
  obtain ⟨d, h1, h2⟩ := Codec.find_one a ok h
  simp [one, h1, h2]

theorem many_rows (a : c.Asks q p) (ok : c.Ok) (h : c.Rows docs) : many c docs q = .ok ((c.rows docs).filter p) := by
  obtain ⟨d, h1, h2⟩ := Codec.find_many a ok h
  simp [many, h1, h2]

theorem upserted_rows (a : c.Asks q p) (ok : c.Ok) (h : c.Rows docs) (t : T) (newId : Nat) :
    ∃ docs', upserted c docs q t newId = (docs', .ok ((c.rows docs).any p)) ∧ c.Rows docs' ∧
      c.rows docs' = if (c.rows docs).any p then Verif.NoSQL.replaceFirst p t (c.rows docs) else c.rows docs ++ [t] := by
  obtain ⟨docs', h1, h2, h3⟩ := Codec.upsert_one a ok h t newId
  exact ⟨docs', by simp [upserted, h1], h2, h3⟩

end any

/-- The key is a string field. -/
abbrev KeyField (c : Codec F T) (key : T → Name) (k : Name) : Prop := ∀ s, c.Asks [(k, .str s)] fun t => s == key t

namespace Shows
variable {c : Codec F T} {key : T → Name} {docs : List (Doc F)} {m : Table T} {k : Name}

theorem empty : Shows c key [] Table.empty := ⟨Codec.Rows.nil, List.Pairwise.nil, fun _ => rfl⟩

theorem one (h : Shows c key docs m) (ok : c.Ok) (kf : KeyField c key k) (s : Name) : Trains.one c docs [(k, .str s)] = .ok (m s) := by
  rw [one_rows (kf s) ok h.rows, ← h.look]; rfl

theorem key_of (h : Shows c key docs m) {s : Name} {t : T} (e : m s = some t) : key t = s := by
  rw [← h.look] at e
  exact (look_key e).2

theorem insert (h : Shows c key docs m) (ok : c.Ok) (t : T) (hn : m (key t) = none) (newId : Nat) :
    ∃ docs', Trains.insert c docs t newId = (docs', .ok ()) ∧ Shows c key docs' (m.put (key t) t) := by
  obtain ⟨docs', h1, h2, h3⟩ := Codec.insert_one ok h.rows t newId
  have hn' : Trains.look key (c.rows docs) (key t) = none := by rw [h.look, hn]
  refine ⟨docs', h1, h2, ?_, ?_⟩
  · rw [h3]; exact distinct_append h.distinct hn'
  · intro j; rw [h3, look_append _ _ hn', h.look]; rfl

theorem upserted (h : Shows c key docs m) (ok : c.Ok) (kf : KeyField c key k) (t : T) (newId : Nat) :
    ∃ docs', Trains.upserted c docs [(k, .str (key t))] t newId = (docs', .ok (m (key t)).isSome) ∧
      Shows c key docs' (m.put (key t) t) := by
  obtain ⟨docs', h1, h2, h3⟩ := upserted_rows (kf (key t)) ok h.rows t newId
  rw [any_look, h.look] at h1 h3
  refine ⟨docs', h1, h2, ?_, ?_⟩
  · cases hm : (m (key t)).isSome with
    | true => rw [h3, hm]; unfold Distinct; simp only [if_true, map_replace]; exact h.distinct
    | false =>
      rw [h3, hm]
      exact distinct_append h.distinct (by rw [h.look]; simpa using hm)
  · intro j
    cases hm : (m (key t)).isSome with
    | true => rw [h3, hm]; simp only [if_true]; rw [look_replace t _ (by rw [h.look, hm]), h.look]; rfl
    | false =>
      rw [h3, hm]
      rw [show (if false = true then Verif.NoSQL.replaceFirst (fun u => key t == key u) t (c.rows docs) else c.rows docs ++ [t]) =
        c.rows docs ++ [t] from rfl, look_append _ _ (by rw [h.look]; simpa using hm), h.look]; rfl

theorem delete (h : Shows c key docs m) (ok : c.Ok) (kf : KeyField c key k) (s : Name) :
    ∃ docs', deleteOne docs [(k, .str s)] = (docs', .ok ()) ∧ Shows c key docs' (m.drop s) := by
  obtain ⟨docs', h1, h2, h3⟩ := Codec.delete_one (kf s) ok h.rows
  refine ⟨docs', h1, h2, ?_, ?_⟩
  · rw [h3]; exact distinct_erase h.distinct _
  · intro j; rw [h3, look_erase h.distinct, h.look]; rfl

theorem clean (h : Shows c key docs m) (ok : c.Ok) : ∃ docs', deleteMany docs [] = (docs', .ok ()) ∧ Shows c key docs' Table.empty := by
  obtain ⟨docs', h1, h2, h3⟩ := Codec.delete_many (Codec.asks_all c) ok h.rows
  have h4 : c.rows docs' = [] := by rw [h3]; simp
  refine ⟨docs', h1, h2, ?_, ?_⟩
  · rw [h4]; exact List.Pairwise.nil
  · intro j; rw [h4]; rfl

theorem many {q : Doc F} {p : T → Bool} (h : Shows c key docs m) (ok : c.Ok) (a : c.Asks q p) :
    ∃ l, Trains.many c docs q = .ok l ∧ Lists key m (fun t => p t = true) l := by
  refine ⟨_, many_rows a ok h.rows, ?_, ?_⟩
  · exact List.Nodup.sublist (List.filter_sublist.map key) h.distinct
  · intro t
    rw [List.mem_filter, look_mem h.distinct, h.look]

theorem finds {q : Doc F} {p : T → Bool} (h : Shows c key docs m) (ok : c.Ok) (a : c.Asks q p) :
    Finds key m (fun t => p t = true) (found (Trains.one c docs q)) := by
  rw [one_rows a ok h.rows]
  cases hf : (c.rows docs).find? p with
  | some t =>
    refine Or.inl ⟨t, rfl, ?_, List.find?_some hf⟩
    rw [← h.look, ← look_mem h.distinct]
    exact List.mem_of_find?_eq_some hf
  | none =>
    refine Or.inr ⟨rfl, fun t ht hp => ?_⟩
    rw [← h.look, ← look_mem h.distinct] at ht
    exact List.find?_eq_none.1 hf t ht hp

/-- By induction over a history. -/
theorem history {Op : Type} {step : List (Doc F) → Op → List (Doc F)} {effect : Table T → Op → Table T}
    (hs : ∀ docs m op, Shows c key docs m → Shows c key (step docs op) (effect m op)) (ops : List Op) :
    Shows c key (ops.foldl step []) (ops.foldl effect Table.empty) := by
  have : ∀ docs m, Shows c key docs m → Shows c key (ops.foldl step docs) (ops.foldl effect m) := by
    induction ops with
    | nil => exact fun _ _ h => h
    | cons op ops ih => exact fun docs m h => ih _ _ (hs docs m op h)
  exact this _ _ empty

end Shows
end Verif.Trains
