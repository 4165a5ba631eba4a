import Verif.Catalogue.Props
import Verif.Trains.Concurrent
/-
C144: changes of the catalogue at the same time.  The methods are programs of SQL statements, as the methods in `Trains/Programs.lean`; what
the statements do is what `Catalogue/Model.lean` says of them.  A statement is one step.
-/
namespace Verif.Catalogue
open Verif.Trains (Prog orErr works Together)
variable {P : Type}

/-! ### The methods, statement by statement -/

/-- `INSERT INTO tag (name) VALUES (?);` with `LastInsertId` (catalogueservice.go lines 286-294). -/
def insertTag (name : Str) (db : DB P) : DB P × NoSQL.Ret Nat :=
  ({ db with tags := db.tags ++ [(db.nextTag, name)], nextTag := db.nextTag + 1 }, .ok db.nextTag)

/-- The loop of `addTags` (lines 282-300), and what the caller does with the identifiers. -/
def tagLoopP {α : Type} (k : List Nat → Prog (DB P) α) : (known : List (Nat × Str)) → List Str → (ids : List Nat) → Prog (DB P) α
  | _, [], ids => k ids
  | known, name :: names, ids => match tagLookup known name with
    | some i => tagLoopP k known names (ids ++ [i])
    | none => .call (insertTag name) (orErr fun i => tagLoopP k (known ++ [(i, name)]) names (ids ++ [i]))

/-- `addTags` (lines 271-301). -/
def tagsP {α : Type} (k : List Nat → Prog (DB P) α) (names : List Str) : Prog (DB P) α :=
  .call (fun db => (db, .ok db.tags)) (orErr fun known => tagLoopP k known names [])

/-- `INSERT INTO sock_tag (sock_id, tag_id) VALUES (?, ?);` -/
def insertLink (id : Str) (t : Nat) (db : DB P) : DB P × NoSQL.Ret Unit := ({ db with links := db.links ++ [(id, t)] }, .ok ())

/-- The last loop of `AddSock` (lines 224-231). -/
def linkP (id : Str) : List Nat → Prog (DB P) Str
  | [] => .ret (.ok id)
  | t :: ts => .call (insertLink id t) (orErr fun () => linkP id ts)

/-- `INSERT INTO sock …`, which the primary key refuses for a second row with the same `sock_id`. -/
def insertSock (s : Sock P) (db : DB P) : DB P × NoSQL.Ret Unit :=
  if db.socks.any (fun r => r.id = s.id) then (db, .error)
  else ({ db with socks := db.socks ++ [⟨s.id, s.name, s.description, s.price, s.quantity, s.url1, s.url2⟩] }, .ok ())

/-- `AddSock` from the insertion on (lines 210-231). -/
def insertP (s : Sock P) : Prog (DB P) Str := .call (insertSock s) (orErr fun () => tagsP (linkP s.id) s.tags)

/-- The statements of `DeleteSock` (lines 241 and 247). -/
def deleteLinks (id : Str) (db : DB P) : DB P × NoSQL.Ret Unit := ({ db with links := db.links.filter fun l => l.1 ≠ id }, .ok ())
def deleteRow (id : Str) (db : DB P) : DB P × NoSQL.Ret Unit := ({ db with socks := db.socks.filter fun r => r.id ≠ id }, .ok ())

/-- `DeleteSock` (lines 235-253), and what the caller does next. -/
def deleteP (id : Str) (k : Prog (DB P) Str) : Prog (DB P) Str :=
  if id = [] then k
  else .call (deleteLinks id) (orErr fun () => .call (deleteRow id) (orErr fun () => k))

/-- The calls that change the catalogue; what `AddTags` and `DeleteSock` return is the empty text here. -/
def callP : Op P → Prog (DB P) Str
  | .addTags names => tagsP (fun _ => .ret (.ok [])) names
  | .addSock s uuid => if s.id ≠ [] then deleteP s.id (insertP s) else insertP { s with id := uuid }
  | .deleteSock id => deleteP id (.ret (.ok []))

/-! ### The programs are the methods -/

/-- How a call alone ends. -/
def outcome (db : DB P) : Op P → NoSQL.Ret Str
  | .addTags _ => .ok []
  | .deleteSock _ => .ok []
  | .addSock s uuid => match (addSock noFails db s uuid).2 with
    | .ok i => .ok i
    | _ => .error

private theorem run_loop {α : Type} (k : List Nat → Prog (DB P) α) (names : List Str) : ∀ (db : DB P) (known : List (Nat × Str)) (n : Nat) (ids : List Nat),
    ∃ new, (addTagsLoop noFails db known n names).2.2 = some new ∧
      (tagLoopP k known names ids).run works db = (k (ids ++ new)).run works (addTagsLoop noFails db known n names).1 := by
  induction names with
  | nil => intro db known n ids; exact ⟨[], rfl, by simp [tagLoopP, addTagsLoop]⟩
  | cons name names ih =>
    intro db known n ids
    simp only [tagLoopP, addTagsLoop]
    cases tagLookup known name with
    | some i =>
      obtain ⟨new, h1, h2⟩ := ih db known n (ids ++ [i])
      exact ⟨i :: new, by simp [h1], by simp [h2]⟩
    | none =>
      obtain ⟨new, h1, h2⟩ := ih { db with tags := db.tags ++ [(db.nextTag, name)], nextTag := db.nextTag + 1 } (known ++ [(db.nextTag, name)])
        (n + 1) (ids ++ [db.nextTag])
      have h0 : noFails n = false := rfl
      simp only [h0, Bool.false_eq_true, if_false]
      refine ⟨db.nextTag :: new, by simp [h1], ?_⟩
      rw [List.append_cons]
      exact h2

private theorem run_tags {α : Type} (k : List Nat → Prog (DB P) α) (names : List Str) (db : DB P) (n : Nat) :
    ∃ ids, (addTagsFrom noFails db n names).2.2 = some ids ∧
      (tagsP k names).run works db = (k ids).run works (addTagsFrom noFails db n names).1 := by
  obtain ⟨new, h1, h2⟩ := run_loop k names db db.tags (n + 1) []
  refine ⟨new, by simpa [addTagsFrom, noFails] using h1, ?_⟩
  exact h2

private theorem run_link (id : Str) (ids : List Nat) : ∀ (db : DB P) (n : Nat),
    (linkP id ids).run works db = ((linkLoop noFails id db n ids).1, .ok id) ∧ (linkLoop noFails id db n ids).2 = true := by
  induction ids with
  | nil => intro db n; exact ⟨rfl, rfl⟩
  | cons t ts ih =>
    intro db n
    obtain ⟨h1, h2⟩ := ih { db with links := db.links ++ [(id, t)] } (n + 1)
    have h0 : noFails n = false := rfl
    simp only [linkLoop, h0, Bool.false_eq_true, if_false]
    exact ⟨h1, h2⟩

private theorem run_insert (s : Sock P) (db : DB P) (n : Nat) :
    (insertP s).run works db = ((insertFrom noFails db n s).1, match (insertFrom noFails db n s).2 with
      | .ok i => .ok i
      | _ => .error) := by
  simp only [insertP, Prog.run, works, insertSock, insertFrom]
  by_cases hp : db.socks.any (fun r => r.id = s.id) = true
  · simp [hp, noFails, orErr, Prog.run]
  · simp only [Bool.not_eq_true] at hp
    simp only [hp, Bool.or_false, Bool.false_eq_true, if_false, orErr]
    have hn : noFails n = false := rfl
    simp only [hn, Bool.false_eq_true, if_false]
    generalize ({ db with socks := db.socks ++ [⟨s.id, s.name, s.description, s.price, s.quantity, s.url1, s.url2⟩] } : DB P) = db1
    obtain ⟨ids, h1, h2⟩ := run_tags (linkP s.id) s.tags db1 (n + 1)
    have h2 : (tagsP (linkP s.id) s.tags).run (fun _ => .works) db1 = _ := h2
    rw [h2]
    generalize addTagsFrom noFails db1 (n + 1) s.tags = x at *
    obtain ⟨db2, m, r⟩ := x
    simp only at h1
    subst h1
    obtain ⟨h3, h4⟩ := run_link s.id ids db2 m
    simp only [h3]
    generalize linkLoop noFails s.id db2 m ids = y at *
    obtain ⟨db3, b⟩ := y
    simp only at h4
    subst h4
    rfl

/-- The programs are the methods of C98. -/
theorem run_works (op : Op P) (db : DB P) : (callP op).run works db = (call db noFails op, outcome db op) := by
  cases op with
  | addTags names =>
    obtain ⟨ids, h1, h2⟩ := run_tags (fun _ => Prog.ret (.ok ([] : Str))) names db 0
    simp only [callP, call, addTags, outcome, h2]
    generalize addTagsFrom noFails db 0 names = x at *
    obtain ⟨db2, m, r⟩ := x
    simp only at h1
    subst h1
    rfl
  | deleteSock id =>
    simp only [callP, call, deleteSock, outcome, deleteP, deleteFrom]
    by_cases h : id = []
    · simp [h, Prog.run]
    · simp [h, Prog.run, works, deleteLinks, deleteRow, orErr, noFails]
  | addSock s uuid =>
    simp only [callP, call, outcome, addSock]
    by_cases h : s.id = []
    · simp only [h, ne_eq, not_true, if_false]
      exact run_insert _ db 0
    · have := run_insert s (deleteFrom noFails db 0 s.id).1 2
      simp only [h, ne_eq, not_false_eq_true, if_true, deleteP, if_false, Prog.run, works, deleteLinks, deleteRow, orErr]
      simpa [deleteFrom, h, noFails, works] using this

/-! ### What a call relies on, and what it does to the others -/

/-- The sock a call is about, if it is about one. -/
def about : Op P → Option Str
  | .addTags _ => none
  | .addSock s uuid => some (if s.id = [] then uuid else s.id)
  | .deleteSock id => if id = [] then none else some id

private structure Good (db : DB P) : Prop where
  ids : (db.socks.map (·.id)).Nodup
  tagIds : (db.tags.map (·.1)).Nodup
  tagNext : ∀ t ∈ db.tags, t.1 < db.nextTag
  linkTag : ∀ l ∈ db.links, ∃ t ∈ db.tags, t.1 = l.2

/-- Nothing about the sock `i` changes. -/
private def Same (i : Str) (db db' : DB P) : Prop :=
  db'.links.filter (fun l => l.1 = i) = db.links.filter (fun l => l.1 = i) ∧
  db'.socks.find? (fun r => r.id = i) = db.socks.find? fun r => r.id = i

private structure Other (keep : Str → Prop) (db db' : DB P) : Prop where
  tags : ∃ new, db'.tags = db.tags ++ new
  same : ∀ i, keep i → Same i db db'

private theorem Other.refl (keep : Str → Prop) (db : DB P) : Other keep db db := ⟨⟨[], by simp⟩, fun _ _ => ⟨rfl, rfl⟩⟩

private theorem Other.trans {keep : Str → Prop} {a b c : DB P} (h : Other keep a b) (h' : Other keep b c) : Other keep a c := by
  obtain ⟨n, e⟩ := h.tags
  obtain ⟨m, e'⟩ := h'.tags
  refine ⟨⟨n ++ m, by rw [e', e, List.append_assoc]⟩, fun i hi => ?_⟩
  obtain ⟨h1, h2⟩ := h.same i hi
  obtain ⟨h3, h4⟩ := h'.same i hi
  exact ⟨h3.trans h1, h4.trans h2⟩

private theorem Other.mono {keep keep' : Str → Prop} {a b : DB P} (h : Other keep a b) (hk : ∀ i, keep' i → keep i) : Other keep' a b :=
  ⟨h.tags, fun i hi => h.same i (hk i hi)⟩

/-- Whatever the others do in between, the call changes its own sock only, and `post` holds from its end on. -/
private def Ok (a : Option Str) (post : NoSQL.Ret Str → DB P → Prop) : Prog (DB P) Str → DB P → Prop
  | .ret r, db => ∀ db1, Other (fun i => a = some i) db db1 → Good db1 → post r db1
  | .call f k, db => ∀ db1, Other (fun i => a = some i) db db1 → Good db1 →
      Good (f db1).1 ∧ Other (fun i => a ≠ some i) db1 (f db1).1 ∧ Ok a post (k (f db1).2) (f db1).1

private theorem Ok.stable {a : Option Str} {post : NoSQL.Ret Str → DB P → Prop} {p : Prog (DB P) Str} {db db' : DB P} (h : Ok a post p db)
    (ho : Other (fun i => a = some i) db db') : Ok a post p db' := by
  cases p with
  | ret r => exact fun db1 h1 h2 => h db1 (ho.trans h1) h2
  | call f k => exact fun db1 h1 h2 => h db1 (ho.trans h1) h2

/-- Tags by their identifiers. -/
private def Named (db : DB P) (ids : List Nat) (names : List Str) : Prop :=
  ids.flatMap (nameOf db.tags) = names ∧ ∀ i ∈ ids, ∃ t ∈ db.tags, t.1 = i

private theorem Named.more {db db' : DB P} {ids : List Nat} {names : List Str} (h : Named db ids names) (ht : ∃ new, db'.tags = db.tags ++ new)
    (hg : Good db') : Named db' ids names := by
  obtain ⟨new, e⟩ := ht
  obtain ⟨h1, h2⟩ := h
  refine ⟨?_, fun i hi => ?_⟩
  · rw [← h1]
    clear h1
    induction ids with
    | nil => rfl
    | cons i ids ih =>
      rw [List.flatMap_cons, List.flatMap_cons, ih fun j hj => h2 j (List.mem_cons_of_mem _ hj), e,
        nameOf_append _ _ (by rw [← e]; exact hg.tagIds) (h2 i List.mem_cons_self)]
  · obtain ⟨t, h3, h4⟩ := h2 i hi
    exact ⟨t, by rw [e]; exact List.mem_append_left _ h3, h4⟩

private theorem Named.add {db : DB P} {ids : List Nat} {names : List Str} (h : Named db ids names) (hg : Good db) {i : Nat} {name : Str}
    (hm : (i, name) ∈ db.tags) : Named db (ids ++ [i]) (names ++ [name]) := by
  refine ⟨?_, fun j hj => ?_⟩
  · rw [List.flatMap_append, h.1]
    have := nameOf_mem db.tags hg.tagIds hm
    simp only at this
    simp [this]
  · rcases List.mem_append.1 hj with hj | hj
    · exact h.2 j hj
    · simp only [List.mem_singleton] at hj
      exact ⟨_, hm, hj.symm⟩

private theorem insertTag_good {db : DB P} (h : Good db) (name : Str) : Good (insertTag name db).1 := by
  refine ⟨h.ids, ?_, ?_, ?_⟩
  · show ((db.tags ++ [(db.nextTag, name)]).map (·.1)).Nodup
    rw [List.map_append, List.nodup_append]
    refine ⟨h.tagIds, by simp, ?_⟩
    intro x hx y hy e
    obtain ⟨t, ht, rfl⟩ := List.mem_map.1 hx
    have := h.tagNext t ht
    simp at hy
    omega
  · show ∀ t ∈ db.tags ++ [(db.nextTag, name)], t.1 < db.nextTag + 1
    intro t ht
    rcases List.mem_append.1 ht with ht | ht
    · exact Nat.lt_succ_of_lt (h.tagNext t ht)
    · simp only [List.mem_singleton] at ht
      subst ht
      exact Nat.lt_succ_self _
  · intro l hl
    obtain ⟨t, ht, e⟩ := h.linkTag l hl
    exact ⟨t, List.mem_append_left _ ht, e⟩

private theorem ok_loop {a : Option Str} {post : NoSQL.Ret Str → DB P → Prop} {k : List Nat → Prog (DB P) Str} {R : DB P → Prop}
    {all : List Str} (hR : ∀ db db', R db → Other (fun i => a = some i) db db' → R db')
    (hk : ∀ ids db, R db → Good db → Named db ids all → Ok a post (k ids) db) (names : List Str) : ∀ (known : List (Nat × Str))
    (ids : List Nat) (did : List Str) (db : DB P), R db → Good db → (∀ t ∈ known, t ∈ db.tags) → Named db ids did → did ++ names = all →
    Ok a post (tagLoopP k known names ids) db := by
  induction names with
  | nil =>
    intro known ids did db h1 h2 _ h4 h5
    rw [List.append_nil] at h5
    subst h5
    exact hk ids db h1 h2 h4
  | cons name names ih =>
    intro known ids did db h1 h2 h3 h4 h5
    simp only [tagLoopP]
    cases hl : tagLookup known name with
    | some i => exact ih known (ids ++ [i]) (did ++ [name]) db h1 h2 h3 (h4.add h2 (h3 _ (lookup_some hl))) (by simpa using h5)
    | none =>
      intro db1 ho hg
      have hg' := insertTag_good hg name
      have hm : ∀ keep, Other keep db1 (insertTag name db1).1 := fun keep => ⟨⟨_, rfl⟩, fun _ _ => ⟨rfl, rfl⟩⟩
      refine ⟨hg', hm _, ?_⟩
      have ht := ho.trans (hm (fun i => a = some i))
      have hin : (db1.nextTag, name) ∈ (insertTag name db1).1.tags := List.mem_append_right _ (List.mem_singleton.2 rfl)
      refine ih (known ++ [(db1.nextTag, name)]) (ids ++ [db1.nextTag]) (did ++ [name]) _ (hR _ _ h1 ht) hg' ?_
        ((h4.more ht.tags hg').add hg' hin) (by simpa using h5)
      intro t hk'
      rcases List.mem_append.1 hk' with hk' | hk'
      · obtain ⟨new, e⟩ := ht.tags
        rw [e]
        exact List.mem_append_left _ (h3 t hk')
      · simp only [List.mem_singleton] at hk'
        subst hk'
        exact hin

private theorem ok_tags {a : Option Str} {post : NoSQL.Ret Str → DB P → Prop} {k : List Nat → Prog (DB P) Str} {R : DB P → Prop}
    {all : List Str} (hR : ∀ db db', R db → Other (fun i => a = some i) db db' → R db')
    (hk : ∀ ids db, R db → Good db → Named db ids all → Ok a post (k ids) db) {db : DB P} (h : R db) : Ok a post (tagsP k all) db := by
  intro db1 ho hg
  exact ⟨hg, .refl _ _, ok_loop hR hk all db1.tags [] [] db1 (hR _ _ h ho) hg (fun _ h => h) ⟨rfl, by simp⟩ rfl⟩

/-- The row of a sock. -/
private def rowFor (s : Sock P) (id : Str) : Row P := ⟨id, s.name, s.description, s.price, s.quantity, s.url1, s.url2⟩

private theorem ok_link {post : NoSQL.Ret Str → DB P → Prop} {id : Str} {row : Row P} {names : List Str}
    (hp : ∀ db, db.socks.find? (fun r => r.id = id) = some row → tagsOf db id = names → (∀ t ∈ names, t ∈ tags db) → post (.ok id) db)
    (ts : List Nat) : ∀ (did : List Nat) (db : DB P), db.socks.find? (fun r => r.id = id) = some row →
    db.links.filter (fun l => l.1 = id) = did.map (fun t => (id, t)) → Named db (did ++ ts) names → Ok (some id) post (linkP id ts) db := by
  induction ts with
  | nil =>
    intro did db h1 h2 h3 db1 ho hg
    obtain ⟨e1, e2⟩ := ho.same id rfl
    have h3 := h3.more ho.tags hg
    rw [List.append_nil] at h3
    refine hp db1 (e2.trans h1) ?_ ?_
    · rw [tagsOf_eq, e1, h2, List.map_map]
      show (did.map fun t => t).flatMap _ = _
      rw [List.map_id', h3.1]
    · intro t ht
      rw [← h3.1] at ht
      obtain ⟨i, -, hi⟩ := List.mem_flatMap.1 ht
      unfold nameOf at hi
      obtain ⟨x, hx, rfl⟩ := List.mem_map.1 hi
      exact List.mem_map_of_mem (List.mem_filter.1 hx).1
  | cons t ts ih =>
    intro did db h1 h2 h3 db1 ho hg
    obtain ⟨e1, e2⟩ := ho.same id rfl
    have h3 := h3.more ho.tags hg
    have hg' : Good (insertLink id t db1).1 := by
      refine ⟨hg.ids, hg.tagIds, hg.tagNext, ?_⟩
      intro l hl
      rcases List.mem_append.1 hl with hl | hl
      · exact hg.linkTag l hl
      · simp only [List.mem_singleton] at hl
        subst hl
        exact h3.2 t (by simp)
    refine ⟨hg', ⟨⟨[], by simp [insertLink]⟩, fun i hi => ⟨?_, rfl⟩⟩, ?_⟩
    · have : id ≠ i := fun e => hi (by rw [e])
      simp [insertLink, List.filter_append, this]
    · refine ih (did ++ [t]) _ (e2.trans h1) ?_ (by simpa [insertLink, Named] using h3)
      show (db1.links ++ [(id, t)]).filter _ = _
      rw [List.filter_append, e1, h2]
      simp

private theorem find_none {l : List (Row P)} {id : Str} (h : l.find? (fun r => r.id = id) = none) : ∀ r ∈ l, r.id ≠ id := by
  intro r hr
  simpa using List.find?_eq_none.1 h r hr

private theorem ok_insert {post : NoSQL.Ret Str → DB P → Prop} {s : Sock P} {db : DB P}
    (hp : ∀ db, db.socks.find? (fun r => r.id = s.id) = some (rowFor s s.id) → tagsOf db s.id = s.tags → (∀ t ∈ s.tags, t ∈ tags db) →
      post (.ok s.id) db)
    (h1 : db.socks.find? (fun r => r.id = s.id) = none) (h2 : db.links.filter (fun l => l.1 = s.id) = []) :
    Ok (some s.id) post (insertP s) db := by
  intro db1 ho hg
  obtain ⟨e1, e2⟩ := ho.same s.id rfl
  have hn := find_none (e2.trans h1)
  have hi : insertSock s db1 = ({ db1 with socks := db1.socks ++ [rowFor s s.id] }, .ok ()) := by
    simp [insertSock, any_false hn, rowFor]
  rw [hi]
  refine ⟨⟨?_, hg.tagIds, hg.tagNext, hg.linkTag⟩, ⟨⟨[], by simp⟩, fun i hi => ⟨rfl, ?_⟩⟩, ?_⟩
  · show ((db1.socks ++ [rowFor s s.id]).map (·.id)).Nodup
    rw [List.map_append, List.nodup_append]
    refine ⟨hg.ids, by simp, ?_⟩
    intro x hx y hy e
    obtain ⟨r, hr, rfl⟩ := List.mem_map.1 hx
    simp only [List.map_cons, List.map_nil, List.mem_singleton] at hy
    exact hn r hr (e.trans hy)
  · exact find_append_other _ _ _ fun e => hi (by rw [← e]; rfl)
  · refine ok_tags (R := fun db => db.socks.find? (fun r => r.id = s.id) = some (rowFor s s.id) ∧ db.links.filter (fun l => l.1 = s.id) = [])
      ?_ ?_ ⟨?_, e1.trans h2⟩
    · intro d d' h ho'
      obtain ⟨k1, k2⟩ := ho'.same s.id rfl
      exact ⟨k2.trans h.1, k1.trans h.2⟩
    · intro ids d h _ hnm
      exact ok_link hp ids [] d h.1 h.2 hnm
    · show (db1.socks ++ [rowFor s s.id]).find? _ = _
      rw [List.find?_append, e2.trans h1]
      simp [rowFor]

private theorem ok_delete {post : NoSQL.Ret Str → DB P → Prop} {id : Str} (hid : id ≠ []) {k : Prog (DB P) Str} {db : DB P}
    (hk : ∀ db, db.socks.find? (fun r => r.id = id) = none → db.links.filter (fun l => l.1 = id) = [] → Ok (some id) post k db) :
    Ok (some id) post (deleteP id k) db := by
  unfold deleteP
  rw [if_neg hid]
  intro db1 _ hg
  refine ⟨⟨hg.ids, hg.tagIds, hg.tagNext, fun l hl => hg.linkTag l (List.mem_filter.1 hl).1⟩, ⟨⟨[], by simp [deleteLinks]⟩, fun i hi => ⟨?_, rfl⟩⟩, ?_⟩
  · exact links_other _ _ _ fun e => hi (by rw [e])
  · intro db2 ho hg2
    obtain ⟨e1, -⟩ := ho.same id rfl
    refine ⟨⟨?_, hg2.tagIds, hg2.tagNext, hg2.linkTag⟩, ⟨⟨[], by simp [deleteRow]⟩, fun i hi => ⟨rfl, ?_⟩⟩, ?_⟩
    · exact hg2.ids.sublist (List.filter_sublist.map _)
    · exact find_filter_other _ _ _ fun e => hi (by rw [e])
    · refine hk _ ?_ ?_
      · rw [List.find?_eq_none]
        intro x hx
        simpa using (List.mem_filter.1 hx).2
      · refine e1.trans ?_
        show (db1.links.filter _).filter _ = _
        rw [List.filter_filter, List.filter_eq_nil_iff]
        intro l _
        simp

/-! ### Many calls -/

/-- What a call leaves behind. -/
private def Post (op : Op P) (r : NoSQL.Ret Str) (db : DB P) : Prop := match op with
  | .addTags names => r = .ok [] ∧ ∀ t ∈ names, t ∈ tags db
  | .addSock s uuid => r = .ok (if s.id = [] then uuid else s.id) ∧
      db.socks.find? (fun r => r.id = if s.id = [] then uuid else s.id) = some (rowFor s (if s.id = [] then uuid else s.id)) ∧
      tagsOf db (if s.id = [] then uuid else s.id) = s.tags ∧ ∀ t ∈ s.tags, t ∈ tags db
  | .deleteSock id => r = .ok [] ∧ (id ≠ [] → db.socks.find? (fun r => r.id = id) = none)

private theorem ok_start {db : DB P} (h : Inv db) (op : Op P) (hf : ∀ s uuid, op = .addSock s uuid → s.id = [] → ∀ r ∈ db.socks, r.id ≠ uuid) :
    Ok (about op) (Post op) (callP op) db := by
  cases op with
  | addTags names =>
    refine ok_tags (R := fun _ => True) (fun _ _ _ _ => trivial) ?_ trivial
    intro ids d _ _ hn d1 ho hg
    refine ⟨rfl, fun t ht => ?_⟩
    rw [← (hn.more ho.tags hg).1] at ht
    obtain ⟨i, -, hi⟩ := List.mem_flatMap.1 ht
    unfold nameOf at hi
    obtain ⟨x, hx, rfl⟩ := List.mem_map.1 hi
    exact List.mem_map_of_mem (List.mem_filter.1 hx).1
  | deleteSock id =>
    by_cases hid : id = []
    · subst hid
      simp only [callP, deleteP, if_true]
      exact fun _ _ _ => ⟨rfl, fun h => absurd rfl h⟩
    · simp only [callP, about, hid, if_false]
      refine ok_delete hid ?_
      intro d h1 _ d1 ho _
      exact ⟨rfl, fun _ => (ho.same id rfl).2.trans h1⟩
  | addSock s uuid =>
    by_cases hid : s.id = []
    · have hr := hf s uuid rfl hid
      simp only [callP, about, hid, ne_eq, not_true, if_true, if_false]
      refine ok_insert (s := { s with id := uuid }) ?_ (List.find?_eq_none.2 (by simpa using hr)) (no_links h hr)
      intro d h1 h2 h3
      simp only [Post, hid, if_true]
      exact ⟨trivial, h1, h2, h3⟩
    · simp only [callP, about, hid, ne_eq, not_false_eq_true, if_true, if_false]
      refine ok_delete hid fun d h1 h2 => ok_insert ?_ h1 h2
      intro d h1 h2 h3
      simp only [Post, hid, if_false]
      exact ⟨trivial, h1, h2, h3⟩

private inductive Oks (db : DB P) : List (Op P) → List (Prog (DB P) Str) → Prop where
  | nil : Oks db [] []
  | cons {o p os ps} : Ok (about o) (Post o) p db → Oks db os ps → Oks db (o :: os) (p :: ps)

private theorem Oks.append {db : DB P} {l m : List (Op P)} {a b : List (Prog (DB P) Str)} (h : Oks db l a) (h' : Oks db m b) :
    Oks db (l ++ m) (a ++ b) := by
  induction h with
  | nil => exact h'
  | cons h1 _ ih => exact .cons h1 ih

private theorem Oks.split {db : DB P} : ∀ (a : List (Prog (DB P) Str)) {b : List (Prog (DB P) Str)} {q : Prog (DB P) Str} {l : List (Op P)},
    Oks db l (a ++ q :: b) → ∃ la t lb, l = la ++ t :: lb ∧ Oks db la a ∧ Ok (about t) (Post t) q db ∧ Oks db lb b := by
  intro a
  induction a with
  | nil => intro b q l h; cases h with | cons h1 h2 => exact ⟨[], _, _, rfl, .nil, h1, h2⟩
  | cons p a ih =>
    intro b q l h
    cases h with
    | cons h1 h2 =>
      obtain ⟨la, t, lb, rfl, h3, h4, h5⟩ := ih h2
      exact ⟨_ :: la, t, lb, rfl, .cons h1 h3, h4, h5⟩

private theorem Oks.others {db db' : DB P} {x : Option Str} (ho : Other (fun i => x ≠ some i) db db') {l : List (Op P)} {ps : List (Prog (DB P) Str)}
    (h : Oks db l ps) : (∀ o ∈ l, ∀ i, about o = some i → x ≠ some i) → Oks db' l ps := by
  induction h with
  | nil => exact fun _ => .nil
  | @cons o p os ps h1 _ ih =>
    intro hd
    exact .cons (h1.stable (ho.mono (hd o List.mem_cons_self))) (ih fun o' h' => hd o' (List.mem_cons_of_mem _ h'))

private theorem together_ok {db db' : DB P} {ps ps' : List (Prog (DB P) Str)} (h : Together db ps db' ps') : ∀ todo : List (Op P), Good db →
    Oks db todo ps → (todo.filterMap about).Nodup → Good db' ∧ Oks db' todo ps' ∧ Other (fun i => ∀ o ∈ todo, about o ≠ some i) db db' := by
  induction h with
  | none s ps => intro todo h1 h2 _; exact ⟨h1, h2, .refl _ _⟩
  | call a b f k s s' ps' _ ih =>
    intro todo h1 h2 h3
    obtain ⟨la, t, lb, rfl, k1, k2, k3⟩ := h2.split
    obtain ⟨g, m, o⟩ := k2 s (.refl _ _) h1
    have hd : ∀ o, (o ∈ la ∨ o ∈ lb) → ∀ i, about o = some i → about t ≠ some i := by
      intro o ho i e e'
      rw [List.filterMap_append, List.filterMap_cons, e'] at h3
      simp only [List.nodup_append, List.nodup_cons, List.mem_cons] at h3
      rcases ho with ho | ho
      · exact h3.2.2 i (List.mem_filterMap.2 ⟨o, ho, e⟩) i (.inl rfl) rfl
      · exact h3.2.1.1 (List.mem_filterMap.2 ⟨o, ho, e⟩)
    obtain ⟨j1, j2, j3⟩ := ih _ g ((k1.others m fun o ho => hd o (.inl ho)).append (.cons o (k3.others m fun o ho => hd o (.inr ho)))) h3
    exact ⟨j1, j2, (m.mono fun i hi => hi t (by simp)).trans j3⟩

private theorem all_ended {db : DB P} (hg : Good db) {l : List (Op P)} {ps : List (Prog (DB P) Str)} (h : Oks db l ps) :
    ∀ rs : List (NoSQL.Ret Str), ps = rs.map .ret → rs.length = l.length ∧ ∀ x ∈ l.zip rs, Post x.1 x.2 db := by
  induction h with
  | nil => intro rs hr; cases rs with
    | nil => exact ⟨rfl, by simp⟩
    | cons r rs => cases hr
  | @cons o p os ps h1 h2 ih =>
    intro rs hr
    cases rs with
    | nil => cases hr
    | cons r rs =>
      simp only [List.map_cons, List.cons.injEq] at hr
      obtain ⟨rfl, hr⟩ := hr
      obtain ⟨e, k⟩ := ih rs hr
      refine ⟨by simp [e], fun x hx => ?_⟩
      rw [List.zip_cons_cons, List.mem_cons] at hx
      rcases hx with rfl | hx
      · exact h1 db (.refl _ _) hg
      · exact k x hx

private theorem oks_start {db : DB P} (hi : Inv db) (todo : List (Op P))
    (hf : ∀ s uuid, Op.addSock s uuid ∈ todo → s.id = [] → ∀ r ∈ db.socks, r.id ≠ uuid) : Oks db todo (todo.map callP) := by
  induction todo with
  | nil => exact .nil
  | cons o l ih =>
    exact .cons (ok_start hi o fun s uuid e => hf s uuid (e ▸ List.mem_cons_self)) (ih fun s u h => hf s u (List.mem_cons_of_mem _ h))

private theorem get_other [Sql P] {keep : Str → Prop} {db db' : DB P} (hg : Good db) (g : Good db') (m : Other keep db db') (i : Str) (hi : keep i) :
    get db' i = get db i := by
  obtain ⟨e1, e2⟩ := m.same i hi
  have et : tagsOf db' i = tagsOf db i := by
    have hn : Named db ((db.links.filter fun l => l.1 = i).map (·.2)) (tagsOf db i) := by
      refine ⟨(tagsOf_eq db i).symm, fun j hj => ?_⟩
      obtain ⟨l, hl, rfl⟩ := List.mem_map.1 hj
      exact hg.linkTag l (List.mem_filter.1 hl).1
    rw [tagsOf_eq, e1]
    exact (hn.more m.tags g).1
  rw [get_eq_of g.ids, get_eq_of hg.ids, et, e2]

section
variable [Sql P]

/-- C144: at every moment while any such calls are under way, the socks they are not about are as they were, and no tag is gone. -/
theorem C144_others (db db' : DB P) (hr : Reached db) (todo : List (Op P)) (ps : List (Prog (DB P) Str))
    (hd : (todo.filterMap about).Nodup)
    (hf : ∀ s uuid, Op.addSock s uuid ∈ todo → s.id = [] → ∀ r ∈ db.socks, r.id ≠ uuid)
    (h : Together db (todo.map callP) db' ps) :
    (∃ new, tags db' = tags db ++ new) ∧ ∀ i, (∀ o ∈ todo, about o ≠ some i) → get db' i = get db i := by
  have hi := reached_inv hr
  have hg : Good db := ⟨hi.ids, hi.tagIds, hi.tagNext, hi.linkTag⟩
  obtain ⟨g, o, m⟩ := together_ok h todo hg (oks_start hi todo hf) hd
  refine ⟨?_, fun i hi' => get_other hg g m i hi'⟩
  obtain ⟨new, e⟩ := m.tags
  exact ⟨new.map (·.2), by unfold tags; rw [e, List.map_append]⟩

/-- C144: any number of calls of `AddSock`, `DeleteSock` and `AddTags` at the same time, for different socks, their statements in any
order.  Every call succeeds; the socks that were added show everything that was given, the deleted ones are gone, the tags are there, and all
other socks are as they were. -/
theorem C144_together_partial (db db' : DB P) (hr : Reached db) (todo : List (Op P)) (rs : List (NoSQL.Ret Str))
    (hd : (todo.filterMap about).Nodup)
    (hf : ∀ s uuid, Op.addSock s uuid ∈ todo → s.id = [] → ∀ r ∈ db.socks, r.id ≠ uuid)
    (h : Together db (todo.map callP) db' (rs.map .ret)) :
    rs = todo.map (fun
      | .addSock s uuid => .ok (if s.id = [] then uuid else s.id)
      | _ => .ok []) ∧
    (∀ s uuid, Op.addSock s uuid ∈ todo → Tagged s →
      ∃ t, get db' (if s.id = [] then uuid else s.id) = .ok t ∧ Shows s t (if s.id = [] then uuid else s.id)) ∧
    (∀ id, Op.deleteSock id ∈ todo → id ≠ [] → get db' id = .error) ∧
    (∀ names, Op.addTags names ∈ todo → ∀ t ∈ names, t ∈ tags db') ∧
    (∀ s uuid, Op.addSock s uuid ∈ todo → ∀ t ∈ s.tags, t ∈ tags db') ∧
    (∀ t ∈ tags db, t ∈ tags db') ∧
    ∀ i, (∀ o ∈ todo, about o ≠ some i) → get db' i = get db i := by
  have hi := reached_inv hr
  have hg : Good db := ⟨hi.ids, hi.tagIds, hi.tagNext, hi.linkTag⟩
  obtain ⟨g, o, m⟩ := together_ok h todo hg (oks_start hi todo hf) hd
  obtain ⟨hlen, hp⟩ := all_ended g o rs rfl
  have post : ∀ o ∈ todo, ∃ r, Post o r db' := by
    intro o ho
    obtain ⟨n, hn, rfl⟩ := List.mem_iff_getElem.1 ho
    exact ⟨rs[n]'(by omega), hp (todo[n], rs[n]'(by omega)) (List.mem_iff_getElem.2 ⟨n, by rw [List.length_zip]; omega, by simp⟩)⟩
  refine ⟨?_, ?_, ?_, ?_, ?_, ?_, ?_⟩
  · refine List.ext_getElem (by simpa using hlen) ?_
    intro n h1 h2
    have h2' : n < todo.length := by omega
    have := hp (todo[n], rs[n]) (List.mem_iff_getElem.2 ⟨n, by rw [List.length_zip]; omega, by simp⟩)
    rw [List.getElem_map]
    generalize todo[n] = op at *
    cases op with
    | addTags _ => exact this.1
    | addSock _ _ => exact this.1
    | deleteSock _ => exact this.1
  · intro s uuid ho ht
    obtain ⟨r, -, h2, h3, -⟩ := post _ ho
    generalize (if s.id = [] then uuid else s.id) = id at *
    have hg' := get_eq_of g.ids id
    rw [h2] at hg'
    simp only [h3, if_neg ht.1] at hg'
    obtain ⟨k1, k2⟩ := to_sock_tags (rowFor s id) s.tags ht.1 ht.2
    exact ⟨_, hg', rfl, rfl, rfl, rfl, rfl, rfl, rfl, rfl, k1, k2⟩
  · intro id ho hid
    obtain ⟨r, -, h2⟩ := post _ ho
    rw [get_eq_of g.ids, h2 hid]
  · intro names ho
    obtain ⟨r, -, h2⟩ := post _ ho
    exact h2
  · intro s uuid ho
    obtain ⟨r, -, -, -, h2⟩ := post _ ho
    exact h2
  · obtain ⟨new, e⟩ := m.tags
    intro t ht
    unfold tags at ht ⊢
    rw [e, List.map_append]
    exact List.mem_append_left _ ht
  · exact fun i hi' => get_other hg g m i hi'

omit [Sql P] in
private theorem run_together (p : Prog (DB P) Str) : ∀ (a b : List (Prog (DB P) Str)) (db db' : DB P) (ps : List (Prog (DB P) Str)),
    Together (p.run works db).1 (a ++ .ret (p.run works db).2 :: b) db' ps → Together db (a ++ p :: b) db' ps := by
  induction p with
  | ret r => exact fun _ _ _ _ _ h => h
  | call f k ih => exact fun a b db db' ps h => .call a b f k db db' ps (ih _ a b _ db' ps h)

/-- C144 refuted: two calls of `AddSock` for the same identifier at the same time are not an update of one by the other.  In every
catalogue one of them can find the other's row after it has deleted the old one, and then reports an error. -/
theorem C144_same_refuted (db : DB P) (hr : Reached db) (s s' : Sock P) (uuid uuid' : Str) (hid : s.id ≠ []) (he : s'.id = s.id)
    (ht : Tagged s') :
    ∃ db' t, Together db [callP (.addSock s uuid), callP (.addSock s' uuid')] db' [.ret .error, .ret (.ok s.id)] ∧
      get db' s.id = .ok t ∧ Shows s' t s.id := by
  have hid' : s'.id ≠ [] := by rw [he]; exact hid
  obtain ⟨hist, rfl⟩ := hr
  have hr1 : Reached (call (calls DB.init hist) noFails (.deleteSock s.id)) := ⟨hist ++ [(noFails, .deleteSock s.id)], by simp [calls]⟩
  generalize calls DB.init hist = db at *
  obtain ⟨db2, t, e, hg, hs, -⟩ := C98_added_partial _ hr1 s' uuid' ht (fun h => absurd h hid')
  rw [if_neg hid', he] at hg hs
  have hr2 : Inv db2 := by
    obtain ⟨hist, h1⟩ := hr1
    refine reached_inv ⟨hist ++ [(noFails, .addSock s' uuid')], ?_⟩
    simp only [calls, List.foldl_append, List.foldl_cons, List.foldl_nil]
    rw [show hist.foldl (fun db e => call db e.1 e.2) DB.init = _ from h1]
    show (addSock noFails _ s' uuid').1 = _
    rw [e]
  have hany : db2.socks.any (fun r => r.id = s.id) = true := by
    rw [get_eq hr2] at hg
    cases hf : db2.socks.find? (fun r => r.id = s.id) with
    | none => rw [hf] at hg; cases hg
    | some r =>
      rw [List.any_eq_true]
      exact ⟨r, List.mem_of_find?_eq_some hf, by simpa using List.find?_some hf⟩
  have e1 : (deleteRow s.id (deleteLinks s.id db).1).1 = call db noFails (.deleteSock s.id) := by
    simp [call, deleteSock, deleteFrom, hid, noFails, deleteRow, deleteLinks]
  refine ⟨db2, t, ?_, hg, hs⟩
  have e0 : callP (.addSock s uuid) = deleteP s.id (insertP s) := by simp [callP, hid]
  rw [e0]
  unfold deleteP
  rw [if_neg hid]
  refine .call [] _ _ _ _ _ _ (.call [] _ _ _ _ _ _ (run_together _ [insertP s] [] _ _ _ ?_))
  rw [e1, run_works]
  simp only [call, outcome]
  simp only [call] at e
  rw [e]
  refine .call [] _ _ _ _ _ _ ?_
  simp only [insertSock, hany, if_true, he, if_neg hid]
  exact .none _ _

/-- C144 refuted: while a sock is replaced, it is not in the catalogue.  `AddSock` with the identifier of any sock goes through a moment in
which `Get` does not find one, and after it `Get` does again. -/
theorem C144_replaced_refuted (db : DB P) (hr : Reached db) (s : Sock P) (uuid : Str) (hid : s.id ≠ []) (ht : Tagged s) :
    ∃ db1 p db2 t, Together db [callP (.addSock s uuid)] db1 [p] ∧ get db1 s.id = .error ∧
      Together db1 [p] db2 [.ret (.ok s.id)] ∧ get db2 s.id = .ok t ∧ Shows s t s.id := by
  obtain ⟨db2, t, e, hg, hs, -⟩ := C98_added_partial _ hr s uuid ht (fun h => absurd h hid)
  rw [if_neg hid] at e hg hs
  have hi := reached_inv hr
  have e0 : callP (.addSock s uuid) = .call (deleteLinks s.id) (orErr fun () => .call (deleteRow s.id) (orErr fun () => insertP s)) := by
    simp [callP, deleteP, hid]
  have hw := run_works (.addSock s uuid) db
  refine ⟨(deleteLinks s.id db).1, .call (deleteRow s.id) (orErr fun () => insertP s), db2, t, ?_, ?_, ?_, hg, hs⟩
  · rw [e0]
    exact .call [] [] _ _ _ _ _ (.none _ _)
  · rw [get_eq_of (show ((deleteLinks s.id db).1.socks.map (·.id)).Nodup from hi.ids)]
    have : tagsOf (deleteLinks s.id db).1 s.id = [] := by
      rw [tagsOf_eq]
      simp [deleteLinks, List.filter_filter]
    rw [this]
    split <;> rfl
  · refine run_together _ [] [] _ _ _ ?_
    rw [e0] at hw
    have hw : (Prog.call (deleteRow s.id) (orErr fun () => insertP s)).run works (deleteLinks s.id db).1 = _ := hw
    rw [hw]
    simp only [call, outcome, e]
    exact .none _ _
end

end Verif.Catalogue
