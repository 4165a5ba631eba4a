import Verif.Mongo.Spec
import Verif.NoSQL.CollProps
/-
C114: which programs behave on MongoDB as they do on the in-memory database.
-/
namespace Verif.Mongo
open Verif.NoSQL
variable {F : Type} [Host F] {sv : Server F}

theorem find_congr {p q : Doc F → Bool} : ∀ {l : List (Doc F)}, (∀ d ∈ l, p d = q d) → l.find? p = l.find? q
  | [], _ => rfl
  | d :: l, h => by
    simp only [List.find?_cons, h d List.mem_cons_self, find_congr fun e he => h e (List.mem_cons_of_mem _ he)]

theorem erase_congr {p q : Doc F → Bool} : ∀ {l : List (Doc F)}, (∀ d ∈ l, p d = q d) → l.eraseP p = l.eraseP q
  | [], _ => rfl
  | d :: l, h => by
    simp only [List.eraseP_cons, h d List.mem_cons_self, erase_congr fun e he => h e (List.mem_cons_of_mem _ he)]

theorem find_split {p : Doc F → Bool} {pre post : List (Doc F)} {d : Doc F} (hpre : ∀ e ∈ pre, p e = false) (hd : p d = true) :
    (pre ++ d :: post).find? p = some d := by
  rw [List.find?_append, List.find?_eq_none.2 (fun e he => by simp [hpre e he])]
  simp [hd]

theorem updateFirst_none {change : Doc F → Option (Doc F)} {q : Doc F} : ∀ {items : List (Doc F)}, (∀ d ∈ items, sv.hit q d = false) →
    sv.updateFirst change q items = some (items, 0, 0)
  | [], _ => rfl
  | d :: l, h => by
    simp [Server.updateFirst, h d List.mem_cons_self, updateFirst_none fun e he => h e (List.mem_cons_of_mem _ he)]

theorem updateFirst_some {change : Doc F → Option (Doc F)} {q d d' : Doc F} {post : List (Doc F)} :
    ∀ {pre : List (Doc F)}, (∀ d ∈ pre, sv.hit q d = false) → sv.hit q d = true → change d = some d' →
    sv.updateFirst change q (pre ++ d :: post) = some (pre ++ d' :: post, 1, if sv.unchanged d d' then 0 else 1)
  | [], _, h, hc => by simp [Server.updateFirst, h, hc]
  | e :: l, hp, h, hc => by
    simp [Server.updateFirst, hp e List.mem_cons_self, updateFirst_some (fun e he => hp e (List.mem_cons_of_mem _ he)) h hc]

theorem changed (lw : sv.Lawful) {d d' : Doc F} (h : d' ≠ d) : (if sv.unchanged d d' then 0 else 1) = 1 := by
  rw [if_neg]
  exact fun e => h ((lw.modified d d').1 e)

theorem updateAll_eq (lw : sv.Lawful) {u q : Doc F} : ∀ {items : List (Doc F)}, (∀ d ∈ items, sv.hit q d = hit q d) →
    (∀ d ∈ items, hit q d = true → Changes sv u d) →
    sv.updateAll u q items = (items.map (fun d => if hit q d then (updateDoc u d).1 else d), items.countP (hit q), true)
  | [], _, _ => rfl
  | d :: l, hs, hc => by
    have ih := updateAll_eq lw (fun e he => hs e (List.mem_cons_of_mem _ he)) fun e he => hc e (List.mem_cons_of_mem _ he)
    unfold Server.updateAll
    rw [hs d List.mem_cons_self]
    by_cases h : hit q d = true
    · have c := hc d List.mem_cons_self h
      rw [if_pos h, c.same]
      simp only [ih, changed lw c.other, List.map_cons, List.countP_cons, h, if_true]
      simp [Nat.add_comm]
    · have h : hit q d = false := by simpa using h
      simp [h, ih]

theorem insert_simple (items : List (Doc F)) (d : Doc F) (newId : Nat) :
    insertOne items (.obj (some d)) newId = (items ++ [withId d newId], .ok ()) := rfl

theorem insertMany_simple : ∀ (ds : List (Doc F)) (items : List (Doc F)) (newId k : Nat), FreshAll sv items (newId + k) ds →
    ∃ items', insertMany items ((ds.zipIdx k).map fun d => (.obj (some d.1), newId + d.2)) = (items', .ok ()) ∧
      sv.insertAll items (newId + k) ds = (items', true)
  | [], items, _, _, _ => ⟨items, rfl, rfl⟩
  | d :: ds, items, newId, k, h => by
    obtain ⟨items', h1, h2⟩ := insertMany_simple ds (items ++ [withId d (newId + k)]) newId (k + 1) h.2
    refine ⟨items', ?_, ?_⟩
    · simp only [List.zipIdx_cons, List.map_cons, insertMany, insert_simple]
      exact h1
    · unfold Server.insertAll Server.insert
      rw [h.1]
      exact h2

theorem upsert_same {items : List (Doc F)} {newId : Nat} {q d : Doc F} (a : Agreed sv items q) (s : SetsAll sv items newId q d) :
    ∃ items' b, upsert items q (.obj (some d)) newId = (items', b, .ok) ∧ sv.upsert items q d newId = some (items', b) := by
  rcases C43_upsert q items (.obj (some d)) d newId a.defined rfl with ⟨hno, h1, -⟩ | ⟨pre, old, post, rfl, hpre, hold, h1⟩
  · refine ⟨_, _, h1, ?_⟩
    have hn : items.find? (hit q) = none := List.find?_eq_none.2 fun e he => by simp [hno e he]
    obtain ⟨e1, e2⟩ := s.2 hn
    unfold Server.upsert
    simp only
    rw [updateFirst_none fun e he => by rw [a.same e he, hno e he]]
    simp only [e1, insert_simple, Server.insert, e2]
    rfl
  · refine ⟨_, _, h1, ?_⟩
    have e1 := s.1 old (find_split hpre hold)
    unfold Server.upsert
    simp only
    rw [updateFirst_some (fun e he => by rw [a.same e (by simp [he]), hpre e he]) (by rw [a.same old (by simp), hold]) e1]
    rfl

/-- One call. -/
theorem portable_same (lw : sv.Lawful) {items : List (Doc F)} {newId : Nat} {c : Call F} (p : Portable sv items newId c) :
    mongo sv items newId c = simple items newId c := by
  cases c with
  | insertOne d =>
    have p : sv.taken items (withId d newId) = false := p
    simp [mongo, simple, Server.insert, p, insert_simple]
  | insertMany ds =>
    obtain ⟨items', h1, h2⟩ := insertMany_simple ds items newId 0 p
    simp only [Nat.add_zero] at h2
    simp [mongo, simple, h1, h2]
  | deleteOne q =>
    have p : Agreed sv items q := p
    simp [mongo, simple, p.accepted, C36_delete_one q items p.defined, erase_congr p.same]
  | deleteMany q =>
    have p : Agreed sv items q := p
    have : items.filter (fun d => !sv.hit q d) = items.filter fun d => !hit q d :=
      List.filter_congr fun d hd => by rw [p.same d hd]
    simp [mongo, simple, p.accepted, C36_delete_many q items p.defined, this]
  | find many q ps all =>
    obtain ⟨p, rfl, rfl⟩ := p
    cases many with
    | true =>
      have : items.filter (sv.hit q) = items.filter (hit q) := List.filter_congr fun d hd => by rw [p.same d hd]
      simp [mongo, simple, p.accepted, C35_find_many q items p.defined, readSimple, Server.found, this]
    | false =>
      simp [mongo, simple, p.accepted, (C35_find_one q items p.defined).1, readSimple, Server.found, find_congr p.same]
  | updateOne q u =>
    obtain ⟨a, hu, hc⟩ := p
    rcases C38_update_one q u items a.defined hu with ⟨hno, h1⟩ | ⟨pre, d, post, rfl, hpre, hd, h1⟩
    · simp [mongo, simple, a.accepted, h1, outcome, updateFirst_none fun e he => by rw [a.same e he, hno e he]]
    · have c := hc d (find_split hpre hd)
      simp only [mongo, simple, a.accepted, h1, outcome, c.ok]
      rw [updateFirst_some (fun e he => by rw [a.same e (by simp [he]), hpre e he]) (by rw [a.same d (by simp), hd]) c.same,
        changed lw c.other]
      rfl
  | updateMany q u =>
    obtain ⟨a, hu, hc⟩ := p
    simp only [mongo, simple, a.accepted, C38_update_many q u items a.defined hu fun d hd h => (hc d hd h).ok,
      updateAll_eq lw a.same hc, outcome]
    rfl
  | upsert q d =>
    obtain ⟨items', b, h1, h2⟩ := upsert_same p.1 p.2
    simp [mongo, simple, p.1.accepted, h1, h2, outcome]
  | upsertID id d =>
    obtain ⟨items', b, h1, h2⟩ := upsert_same p.1 p.2
    simp [mongo, simple, p.1.accepted, upsertID, h1, h2, outcome]
  | replaceOne q d =>
    obtain ⟨a, hc⟩ := p
    rcases C61_replace_one q items (.obj (some d)) d a.defined rfl with ⟨hno, h1⟩ | ⟨pre, old, post, rfl, hpre, hold, h1⟩
    · simp [mongo, simple, a.accepted, h1, outcome, updateFirst_none fun e he => by rw [a.same e he, hno e he]]
    · have e := hc old (find_split hpre hold)
      have hk : sv.keepId old d = some d := by
        unfold Server.keepId
        rw [e]
        cases field kId old with
        | none => rfl
        | some j => simp [lw.same]
      simp only [mongo, simple, a.accepted, h1, outcome]
      rw [updateFirst_some (change := fun old => sv.keepId old d) (fun e he => by rw [a.same e (by simp [he]), hpre e he]) (by rw [a.same old (by simp), hold]) hk]
      rfl
  | replaceMany q ds => exact p.elim

/-- C114: programs that make only portable calls get the same replies from MongoDB and from the in-memory database, and leave the same
documents there. -/
theorem C114_portable_partial (lw : sv.Lawful) : ∀ (prog : List (Nat × Call F)) (items : List (Doc F)), AllPortable sv items prog →
    run (mongo sv) items prog = run simple items prog
  | [], _, _ => rfl
  | c :: cs, items, h => by
    unfold run
    rw [portable_same lw h.1]
    simp only
    rw [C114_portable_partial lw cs _ h.2]

/-- C114: Upsert should replace the document.  On MongoDB fields of the old document remain: the in-memory database then has the new
document, and MongoDB one that has a field more. -/
theorem C114_upsert_merges_refuted {pre post : List (Doc F)} {q d d' old : Doc F} {newId : Nat} {k : Name} {v : Value F}
    (a : Agreed sv (pre ++ old :: post) q) (hpre : ∀ e ∈ pre, hit q e = false) (hold : hit q old = true)
    (hset : sv.update [(kSet, .doc d)] old = some d') (hk : field k d' = field k old) (hv : field k old = some v) (hd : field k d = none) :
    simple (pre ++ old :: post) newId (.upsert q d) = (pre ++ d :: post, .replaced true) ∧
    mongo sv (pre ++ old :: post) newId (.upsert q d) = (pre ++ d' :: post, .replaced true) ∧ field k d' = some v ∧ d' ≠ d := by
  refine ⟨?_, ?_, hk.trans hv, fun e => ?_⟩
  · rcases C43_upsert q _ (.obj (some d)) d newId a.defined rfl with ⟨hno, -, -⟩ | ⟨pre', old', post', e, hpre', hold', h1⟩
    · rw [hno old (by simp)] at hold
      cases hold
    · have : pre = pre' ∧ old :: post = old' :: post' := by
        have split : ∀ (a b : List (Doc F)) (x y : Doc F) (s t : List (Doc F)), (∀ e ∈ a, hit q e = false) → (∀ e ∈ b, hit q e = false) →
            hit q x = true → hit q y = true → a ++ x :: s = b ++ y :: t → a = b ∧ x :: s = y :: t := by
          intro a
          induction a with
          | nil =>
            intro b x y s t _ hb hx _ e
            cases b with
            | nil => exact ⟨rfl, e⟩
            | cons z b =>
              injection e with e1 e2
              rw [e1, hb z List.mem_cons_self] at hx
              cases hx
          | cons z a ih =>
            intro b x y s t ha hb hx hy e
            cases b with
            | nil =>
              injection e with e1 e2
              rw [← e1, ha z List.mem_cons_self] at hy
              cases hy
            | cons w b =>
              injection e with e1 e2
              obtain ⟨h1, h2⟩ := ih b x y s t (fun e he => ha e (List.mem_cons_of_mem _ he)) (fun e he => hb e (List.mem_cons_of_mem _ he)) hx hy e2
              exact ⟨by rw [e1, h1], h2⟩
        exact split _ _ _ _ _ _ hpre hpre' hold hold' e
      obtain ⟨rfl, e2⟩ := this
      injection e2 with e2 e3
      subst e2 e3
      simp [simple, h1, outcome]
  · simp only [mongo, a.accepted, Server.upsert]
    rw [updateFirst_some (fun e he => by rw [a.same e (by simp [he]), hpre e he]) (by rw [a.same old (by simp), hold]) hset]
    rfl
  · rw [e, hd] at hk
    rw [hv] at hk
    cases hk

/-- C114: UpdateOne should return how many documents it updated.  An update that leaves the matching document as it was counts in the
in-memory database and does not count on MongoDB. -/
theorem C114_count_refuted (lw : sv.Lawful) {items : List (Doc F)} {q u d : Doc F} {newId : Nat} (a : Agreed sv items q)
    (hu : UpdateAccepted u) (hd : items.find? (hit q) = some d) (h1 : updateDoc u d = (d, .ok)) (h2 : sv.update u d = some d) :
    simple items newId (.updateOne q u) = (items, .count 1) ∧ mongo sv items newId (.updateOne q u) = (items, .count 0) := by
  rcases C38_update_one q u items a.defined hu with ⟨hno, -⟩ | ⟨pre, e, post, rfl, hpre, he, h3⟩
  · obtain h := List.mem_of_find?_eq_some hd
    have := List.find?_some hd
    rw [hno d h] at this
    cases this
  · rw [find_split hpre he] at hd
    injection hd with hd
    subst hd
    constructor
    · simp [simple, h3, h1, outcome]
    · simp only [mongo, a.accepted]
      rw [updateFirst_some (fun e he => by rw [a.same e (by simp [he]), hpre e he]) (by rw [a.same e (by simp), he]) h2]
      simp [(lw.modified e e).2 rfl]

/-- C114: ReplaceMany always fails on MongoDB, One fails on the cursor of FindMany and All on the cursor of FindOne; in the in-memory
database they work. -/
theorem C114_unimplemented_refuted {items ds : List (Doc F)} {q : Doc F} {newId : Nat} (a : Agreed sv items q) :
    ((simple items newId (.replaceMany q ds)).2 = .count (min ds.length (items.countP (hit q))) ∧
      mongo sv items newId (.replaceMany q ds) = (items, .error)) ∧
    (simple items newId (.find true q [] false) = (items, .one (items.find? (hit q))) ∧
      mongo sv items newId (.find true q [] false) = (items, .error)) ∧
    (simple items newId (.find false q [] true) = (items, .all (items.find? (hit q)).toList) ∧
      mongo sv items newId (.find false q [] true) = (items, .error)) := by
  refine ⟨⟨?_, rfl⟩, ⟨?_, ?_⟩, ?_, ?_⟩
  · obtain ⟨items', h, -⟩ := C61_replace_many q items ds (ds.map fun d => .obj (some d)) a.defined (by simp [Input.toBson])
    simp [simple, h, outcome]
  · simp [simple, C35_find_many q items a.defined, readSimple]
  · simp [mongo, a.accepted]
  · simp [simple, (C35_find_one q items a.defined).1, readSimple]
  · simp [mongo, a.accepted]

/-- C114: projections.  The in-memory database returns whole documents, whatever the projections are; MongoDB returns what the projection
leaves, and refuses more than one. -/
theorem C114_projection_refuted {items : List (Doc F)} {q p : Doc F} {ps : List (Doc F)} {newId : Nat} (a : Agreed sv items q) :
    simple items newId (.find true q (p :: ps) true) = (items, .all (items.filter (hit q))) ∧
    mongo sv items newId (.find true q [p] true) = (items, .all ((items.filter (hit q)).map (sv.project p))) ∧
    (ps ≠ [] → mongo sv items newId (.find true q (p :: ps) true) = (items, .error)) := by
  refine ⟨by simp [simple, C35_find_many q items a.defined, readSimple], ?_, ?_⟩
  · have : items.filter (sv.hit q) = items.filter (hit q) := List.filter_congr fun d hd => by rw [a.same d hd]
    simp [mongo, a.accepted, Server.found, this]
  · intro h
    have : ps.length ≠ 0 := fun e => h (List.length_eq_zero_iff.1 e)
    simp [mongo, this]

/-- C114: a second document with the same `_id` is in the in-memory database, and refused by MongoDB. -/
theorem C114_duplicate_refuted (lw : sv.Lawful) {items : List (Doc F)} {d e : Doc F} {newId : Nat} {v : Value F} (he : e ∈ items)
    (h1 : field kId e = some v) (h2 : field kId d = some v) :
    simple items newId (.insertOne d) = (items ++ [d], .done) ∧ mongo sv items newId (.insertOne d) = (items, .error) := by
  have hf : ∀ d : Doc F, field kId d = some v → d.any (fun e => e.1 == kId) = true := by
    intro d
    induction d with
    | nil => intro h; cases h
    | cons x d ih =>
      intro h
      obtain ⟨k, w⟩ := x
      unfold field at h
      split at h
      · next e => simp [e]
      · simp only [List.any_cons, ih h, Bool.or_true]
  have hw : withId d newId = d := by simp [withId, hf d h2]
  constructor
  · simp [simple, insert_simple, hw]
  · have : sv.taken items (withId d newId) = true := by
      rw [hw]
      exact List.any_eq_true.2 ⟨e, he, by simp [h1, h2, lw.same]⟩
    simp [mongo, Server.insert, this]

/-- C114: a replacement without `_id` leaves the document without `_id` in the in-memory database; MongoDB keeps it. -/
theorem C114_replace_id_refuted {old d : Doc F} {q : Doc F} {newId : Nat} {v : Value F} (a : Agreed sv [old] q) (hold : hit q old = true)
    (h1 : field kId old = some v) (h2 : field kId d = none) :
    simple [old] newId (.replaceOne q d) = ([d], .count 1) ∧ mongo sv [old] newId (.replaceOne q d) = ([(kId, v) :: d], .count 1) := by
  constructor
  · rcases C61_replace_one q [old] (.obj (some d)) d a.defined rfl with ⟨hno, -⟩ | ⟨pre, o, post, e, hpre, ho, h⟩
    · rw [hno old (by simp)] at hold; cases hold
    · cases pre with
      | nil => simp at e; obtain ⟨rfl, rfl⟩ := e; simp [simple, h, outcome]
      | cons x pre => simp at e
  · have hk : sv.keepId old d = some ((kId, v) :: d) := by simp [Server.keepId, h1, h2]
    simp only [mongo, a.accepted]
    rw [show [old] = [] ++ old :: [] from rfl, updateFirst_some (change := fun old => sv.keepId old d) (by simp) (by rw [a.same old (by simp), hold]) hk]
    rfl

end Verif.Mongo
