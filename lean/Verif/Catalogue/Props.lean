/-
Theorems about the catalogue service (C98).
-/
import Verif.Catalogue.Lemmas
namespace Verif.Catalogue
variable {P : Type}

/-! ### Reading -/

private theorem filter_find (l : List (Row P)) (hn : (l.map (·.id)).Nodup) (id : Str) :
    l.filter (fun r => r.id = id) = (l.find? fun r => r.id = id).toList := by
  induction l with
  | nil => rfl
  | cons r l ih =>
    rw [List.map_cons, List.nodup_cons] at hn
    by_cases e : r.id = id
    · rw [List.filter_cons, if_pos (by simpa using e), List.find?_cons]
      simp only [e, decide_true]
      rw [List.filter_eq_nil_iff.2]
      · rfl
      · intro x hx
        simp only [decide_eq_true_eq]
        intro e'
        exact hn.1 (List.mem_map.2 ⟨x, hx, e'.trans e.symm⟩)
    · rw [List.filter_cons, if_neg (by simpa using e), List.find?_cons]
      simp only [e, decide_false]
      exact ih hn.2

private theorem filter_true (l : List Str) : l.filter (fun _ => true) = l := List.filter_eq_self.2 fun _ _ => rfl

section
variable [Sql P]

private theorem arrange_one (x : Row P × List Str) : Sql.arrange [x] = [x] := List.perm_singleton.1 (Sql.arrange_perm [x])
private theorem arrange_nil : Sql.arrange ([] : List (Row P × List Str)) = [] := List.perm_nil.1 (Sql.arrange_perm [])

theorem get_eq_of {db : DB P} (h : (db.socks.map (·.id)).Nodup) (id : Str) :
    get db id = match db.socks.find? (fun r => r.id = id) with
      | none => .error
      | some r => if tagsOf db id = [] then .error else .ok (toSock (r, firsts (tagsOf db id))) := by
  unfold get
  rw [grouped_joined db h, filter_find _ h]
  cases hf : db.socks.find? (fun r => r.id = id) with
  | none => simp only [Option.toList_none, List.filterMap_nil, arrange_nil]
  | some r =>
    have e : r.id = id := by simpa using List.find?_some hf
    simp only [Option.toList_some, List.filterMap_cons, List.filterMap_nil]
    unfold shown
    rw [filter_true, e]
    by_cases ht : tagsOf db id = []
    · simp only [ht, if_true, arrange_nil]
    · simp only [ht, if_false, arrange_one]

theorem get_eq {db : DB P} (h : Inv db) (id : Str) :
    get db id = match db.socks.find? (fun r => r.id = id) with
      | none => .error
      | some r => if tagsOf db id = [] then .error else .ok (toSock (r, firsts (tagsOf db id))) := get_eq_of h.ids id

private theorem get_congr {db db' : DB P} (h : Inv db) (h' : Inv db') (id : Str) (ht : tagsOf db' id = tagsOf db id)
    (hs : db'.socks.find? (fun r => r.id = id) = db.socks.find? fun r => r.id = id) : get db' id = get db id := by
  rw [get_eq h, get_eq h', ht, hs]

private theorem concat_mem {l : List Str} {t : Str} : t ∈ Sql.concat (P := P) l ↔ t ∈ l := (Sql.concat_perm (P := P) l).mem_iff

theorem to_sock_tags (r : Row P) (l : List Str) (hne : l ≠ []) (hc : ∀ t ∈ l, ',' ∉ t) :
    (toSock (r, firsts l)).tags.Nodup ∧ ∀ t, t ∈ (toSock (r, firsts l)).tags ↔ t ∈ l := by
  have e : (toSock (r, firsts l)).tags = Sql.concat (P := P) (firsts l) := by
    show split (commas _) = _
    refine split_commas _ ?_ ?_
    · intro h0
      obtain ⟨a, ha⟩ := List.exists_mem_of_ne_nil l hne
      have := concat_mem (P := P).2 (mem_firsts.2 ha)
      rw [h0] at this
      cases this
    · intro t ht
      exact hc t (mem_firsts.1 (concat_mem.1 ht))
  rw [e]
  refine ⟨((Sql.concat_perm (P := P) (firsts l)).nodup_iff).2 (firsts_nodup l), fun t => ?_⟩
  rw [concat_mem, mem_firsts]
end

/-! ### Writing -/

theorem no_links {db : DB P} (h : Inv db) {id : Str} (hr : ∀ r ∈ db.socks, r.id ≠ id) :
    db.links.filter (fun l => l.1 = id) = [] := by
  rw [List.filter_eq_nil_iff]
  intro l hl
  obtain ⟨r, hr', e⟩ := h.linkSock l hl
  simp only [decide_eq_true_eq]
  rw [← e]
  exact hr r hr'

theorem find_append_other (l : List (Row P)) (x : Row P) (id : Str) (h : x.id ≠ id) :
    (l ++ [x]).find? (fun r => r.id = id) = l.find? fun r => r.id = id := by
  rw [List.find?_append]
  simp [h]

theorem find_filter_other (l : List (Row P)) (id i : Str) (h : i ≠ id) :
    (l.filter fun r => r.id ≠ id).find? (fun r => r.id = i) = l.find? fun r => r.id = i := by
  induction l with
  | nil => rfl
  | cons r l ih =>
    by_cases e : r.id = id
    · rw [List.filter_cons, if_neg (by simpa using e), ih, List.find?_cons]
      have : decide (r.id = i) = false := by
        simp only [decide_eq_false_iff_not]
        rw [e]; exact Ne.symm h
      rw [this]
    · rw [List.filter_cons, if_pos (by simpa using e), List.find?_cons, List.find?_cons, ih]

theorem links_other (links : List (Str × Nat)) (id i : Str) (h : i ≠ id) :
    (links.filter fun l => l.1 ≠ id).filter (fun l => l.1 = i) = links.filter fun l => l.1 = i := by
  rw [List.filter_filter]
  congr 1
  funext l
  by_cases e : l.1 = i
  · simp [e, h]
  · simp [e]

/-- What the calls change: one sock at most, and more tags. -/
private structure Step (db db' : DB P) (id : Str) (names : List Str) : Prop where
  inv : Inv db'
  tagsOf : ∀ i, i ≠ id → tagsOf db' i = tagsOf db i
  socks : ∀ i, i ≠ id → db'.socks.find? (fun r => r.id = i) = db.socks.find? fun r => r.id = i
  tags : ∃ new, db'.tags = db.tags ++ new ∧ ∀ t ∈ new, t.2 ∈ names

private theorem step_refl {db : DB P} (h : Inv db) (id : Str) (names : List Str) : Step db db id names :=
  ⟨h, fun _ _ => rfl, fun _ _ => rfl, [], by simp⟩

private theorem step_trans {db db' db'' : DB P} {id : Str} {names : List Str} (a : Step db db' id names)
    (b : Step db' db'' id names) : Step db db'' id names := by
  obtain ⟨n1, e1, h1⟩ := a.tags
  obtain ⟨n2, e2, h2⟩ := b.tags
  refine ⟨b.inv, fun i hi => (b.tagsOf i hi).trans (a.tagsOf i hi), fun i hi => (b.socks i hi).trans (a.socks i hi), n1 ++ n2,
    by rw [e2, e1, List.append_assoc], ?_⟩
  intro t ht
  rcases List.mem_append.1 ht with ht | ht
  · exact h1 t ht
  · exact h2 t ht

private theorem step_tags {db db' : DB P} {names : List Str} (h : Inv db) (m : More db db' names) (id : Str) :
    Step db db' id names := by
  refine ⟨m.inv h, ?_, fun i _ => by rw [m.socks], m.new⟩
  intro i _
  rw [tagsOf_eq, tagsOf_eq, m.links, names_more m]
  intro j hj
  obtain ⟨l, hl, rfl⟩ := List.mem_map.1 hj
  exact h.linkTag l (List.mem_filter.1 hl).1

private theorem step_delete (fails : Fails) {db : DB P} (h : Inv db) (n : Nat) (id : Str) (names : List Str) :
    Step db (deleteFrom fails db n id).1 id names := by
  have hi := delete_inv fails db h n id
  by_cases hid : id = []
  · have : (deleteFrom fails db n id).1 = db := by unfold deleteFrom; rw [if_pos hid]
    rw [this]
    exact step_refl h id names
  obtain ⟨db', n', b, e, ht, hx, hc, -⟩ := delete_cases fails db n id hid
  rw [e] at hi ⊢
  show Step db db' id names
  rcases hc with ⟨rfl, -⟩ | ⟨hl, hs⟩
  · exact step_refl h id names
  · refine ⟨hi, ?_, ?_, [], by simp [ht]⟩
    · intro i hne
      rw [tagsOf_eq, tagsOf_eq, hl, ht, links_other _ _ _ hne]
    · intro i hne
      rcases hs with ⟨hs, -⟩ | ⟨hs, -⟩
      · rw [hs]
      · rw [hs, find_filter_other _ _ _ hne]

theorem any_false {l : List (Row P)} {id : Str} (h : ∀ r ∈ l, r.id ≠ id) : (l.any fun r => r.id = id) = false := by
  rw [List.any_eq_false]
  intro r hr
  simpa using h r hr

/-- The row that is inserted. -/
private def rowOf (s : Sock P) : Row P := ⟨s.id, s.name, s.description, s.price, s.quantity, s.url1, s.url2⟩

private theorem insert_row {db : DB P} (h : Inv db) (s : Sock P) (hr : ∀ r ∈ db.socks, r.id ≠ s.id) (names : List Str) :
    Step db { db with socks := db.socks ++ [rowOf s] } s.id names := by
  refine ⟨⟨?_, h.tagIds, h.tagNext, h.tagNames, h.linkTag, ?_⟩, fun _ _ => rfl, ?_, [], by simp⟩
  · show ((db.socks ++ [rowOf s]).map (·.id)).Nodup
    rw [List.map_append, List.nodup_append]
    refine ⟨h.ids, by simp, ?_⟩
    intro a ha b hb
    simp only [List.map_cons, List.map_nil, List.mem_singleton] at hb
    subst hb
    obtain ⟨r, hr', rfl⟩ := List.mem_map.1 ha
    exact hr r hr'
  · intro l hl
    obtain ⟨r, hr', e⟩ := h.linkSock l hl
    exact ⟨r, List.mem_append_left _ hr', e⟩
  · intro i hi
    exact find_append_other _ _ _ (Ne.symm hi)

private theorem links_step {db db' : DB P} (h : Inv db) {id : Str} {ids : List Nat} (hid : ∃ r ∈ db.socks, r.id = id)
    (ht : ∀ i ∈ ids, ∃ t ∈ db.tags, t.1 = i) (e1 : db'.socks = db.socks) (e2 : db'.tags = db.tags)
    (e3 : db'.nextTag = db.nextTag) (e4 : db'.links = db.links ++ ids.map fun t => (id, t)) (names : List Str) :
    Step db db' id names := by
  refine ⟨⟨by rw [e1]; exact h.ids, by rw [e2]; exact h.tagIds, by rw [e2, e3]; exact h.tagNext,
    by rw [e2]; exact h.tagNames, ?_, ?_⟩, ?_, fun i _ => by rw [e1], [], by simp [e2]⟩
  · intro l hl
    rw [e4] at hl
    rw [e2]
    rcases List.mem_append.1 hl with hl | hl
    · exact h.linkTag l hl
    · obtain ⟨t, ht', rfl⟩ := List.mem_map.1 hl
      exact ht t ht'
  · intro l hl
    rw [e4] at hl
    rw [e1]
    rcases List.mem_append.1 hl with hl | hl
    · exact h.linkSock l hl
    · obtain ⟨t, ht', rfl⟩ := List.mem_map.1 hl
      exact hid
  · intro i hi
    rw [tagsOf_eq, tagsOf_eq, e2, e4, List.filter_append]
    have e0 : (ids.map fun t => (id, t)).filter (fun l => decide (l.1 = i)) = [] := by
      rw [List.filter_eq_nil_iff]
      intro l hl
      obtain ⟨t, -, rfl⟩ := List.mem_map.1 hl
      simpa using Ne.symm hi
    rw [e0, List.append_nil]

/-- `AddSock` from the insertion on. -/
private theorem insert_cases (fails : Fails) {db : DB P} (h : Inv db) (n : Nat) (s : Sock P) :
    ∃ db' r, insertFrom fails db n s = (db', r) ∧ Step db db' s.id s.tags ∧
      (∀ i, r = .ok i → i = s.id ∧ db'.socks.find? (fun r => r.id = s.id) = some (rowOf s) ∧ tagsOf db' s.id = s.tags ∧
        ∀ t ∈ s.tags, t ∈ tags db') ∧
      ((∀ k, fails k = false) → (∀ r ∈ db.socks, r.id ≠ s.id) → r = .ok s.id) := by
  unfold insertFrom
  by_cases hr : ∀ r ∈ db.socks, r.id ≠ s.id
  · rw [any_false hr, Bool.or_false]
    by_cases hf : fails n
    · rw [if_pos hf]
      exact ⟨db, .error, rfl, step_refl h _ _, fun i e => (by cases e), fun h => (by simp [h n] at hf)⟩
    · rw [if_neg hf]
      have s1 := insert_row h s hr s.tags
      obtain ⟨db1, n1, r1, e1, m1, hids, hok1⟩ := tags_from fails { db with socks := db.socks ++ [rowOf s] } s1.inv (n + 1) s.tags
      have s2 := step_trans s1 (step_tags s1.inv m1 s.id)
      have e1' : addTagsFrom fails { db with socks := db.socks ++ [⟨s.id, s.name, s.description, s.price, s.quantity, s.url1, s.url2⟩] }
          (n + 1) s.tags = (db1, n1, r1) := e1
      simp only [e1']
      cases r1 with
      | none =>
        exact ⟨db1, .error, rfl, s2, fun i e => (by cases e), fun h _ => (by obtain ⟨_, h⟩ := hok1 h; cases h)⟩
      | some ids =>
        obtain ⟨ht, hn⟩ := hids ids rfl
        obtain ⟨db2, b, e2, f1, f2, f3, ⟨ids', hsub, f4, f5⟩, hok2⟩ := link_loop fails s.id ids db1 n1
        simp only [e2]
        have hrow : ∃ r ∈ db1.socks, r.id = s.id := ⟨rowOf s, by rw [m1.socks]; simp, rfl⟩
        have s3 := step_trans s2 (links_step s2.inv hrow (fun i hi => ht i (hsub.subset hi)) f1 f2 f3 f4 s.tags)
        cases b with
        | false =>
          exact ⟨db2, .error, rfl, s3, fun i e => (by cases e), fun h _ => (by cases hok2 h)⟩
        | true =>
          refine ⟨db2, .ok s.id, rfl, s3, fun i e => ?_, fun _ _ => rfl⟩
          cases e
          have hfind : db2.socks.find? (fun r => r.id = s.id) = some (rowOf s) := by
            rw [f1, m1.socks]
            show (db.socks ++ [rowOf s]).find? _ = _
            rw [List.find?_append, List.find?_eq_none.2 fun r hr' => by simpa using hr r hr']
            simp [rowOf]
          refine ⟨rfl, hfind, ?_, ?_⟩
          · rw [tagsOf_eq, f4, f2, List.filter_append, m1.links]
            have e0 := no_links h hr
            show ((db.links.filter _ ++ _).map _).flatMap _ = _
            rw [e0, List.nil_append, f5 rfl, List.filter_eq_self.2]
            · rw [List.map_map]
              show (ids.map fun t => t).flatMap _ = _
              rw [List.map_id', hn]
            · intro l hl
              obtain ⟨t, -, rfl⟩ := List.mem_map.1 hl
              simp
          · intro t htag
            rw [← hn] at htag
            obtain ⟨i, hi, hti⟩ := List.mem_flatMap.1 htag
            unfold nameOf at hti
            obtain ⟨x, hx, rfl⟩ := List.mem_map.1 hti
            unfold tags
            rw [f2]
            exact List.mem_map_of_mem (List.mem_filter.1 hx).1
  · have : (db.socks.any fun r => r.id = s.id) = true := by
      rw [List.any_eq_true]
      simp only [Classical.not_forall, Classical.not_not] at hr
      obtain ⟨r, hr', e⟩ := hr
      exact ⟨r, hr', by simpa using e⟩
    rw [this, Bool.or_true, if_pos rfl]
    exact ⟨db, .error, rfl, step_refl h _ _, fun i e => (by cases e), fun _ h => absurd h hr⟩

private theorem delete_ok (db : DB P) (n : Nat) (id : Str) (hid : id ≠ []) :
    ∃ n', deleteFrom noFails db n id =
      ({ db with links := db.links.filter fun l => l.1 ≠ id, socks := db.socks.filter fun r => r.id ≠ id }, n', true) := by
  unfold deleteFrom noFails
  rw [if_neg hid]
  exact ⟨n + 2, rfl⟩

private theorem add_cases (fails : Fails) {db : DB P} (h : Inv db) (s : Sock P) (uuid : Str) :
    ∃ db' r, addSock fails db s uuid = (db', r) ∧ Step db db' (if s.id = [] then uuid else s.id) s.tags ∧
      (∀ i, r = .ok i → i = (if s.id = [] then uuid else s.id) ∧
        db'.socks.find? (fun r => r.id = i) = some (rowOf { s with id := i }) ∧ tagsOf db' i = s.tags ∧
        ∀ t ∈ s.tags, t ∈ tags db') ∧
      ((∀ k, fails k = false) → (s.id = [] → ∀ r ∈ db.socks, r.id ≠ uuid) → ∃ i, r = .ok i) := by
  unfold addSock
  by_cases hid : s.id = []
  · rw [if_neg (by simpa using hid), if_pos hid]
    obtain ⟨db', r, e, st, hok, hno⟩ := insert_cases fails h 0 { s with id := uuid }
    refine ⟨db', r, e, st, ?_, fun hf hu => ⟨_, hno hf (hu hid)⟩⟩
    intro i hi
    obtain ⟨rfl, h2⟩ := hok i hi
    exact ⟨rfl, h2⟩
  · rw [if_pos hid, if_neg hid]
    have sd := step_delete fails h 0 s.id s.tags
    obtain ⟨db1, n1, b, e1, -, -, hc, hok1⟩ := delete_cases fails db 0 s.id hid
    rw [e1] at sd ⊢
    cases b with
    | false => exact ⟨db1, .error, rfl, sd, fun i e => (by cases e), fun hf _ => (by cases hok1 hf)⟩
    | true =>
      obtain ⟨db', r, e, st, hok, hno⟩ := insert_cases fails sd.inv n1 s
      refine ⟨db', r, e, step_trans sd st, ?_, fun hf _ => ⟨_, hno hf ?_⟩⟩
      · intro i hi
        obtain ⟨rfl, h2⟩ := hok i hi
        exact ⟨rfl, h2⟩
      · intro x hx
        rcases hc with ⟨-, hb⟩ | ⟨-, ⟨-, hb⟩ | ⟨hs, -⟩⟩
        · cases hb
        · cases hb
        · have hx : x ∈ db1.socks := hx
          rw [hs] at hx
          simpa using (List.mem_filter.1 hx).2

/-- The sock a call is about. -/
private def about : Op P → Str
  | .addTags _ => []
  | .addSock s uuid => if s.id = [] then uuid else s.id
  | .deleteSock id => id

/-- The tags a call mentions. -/
private def mentioned : Op P → List Str
  | .addTags names => names
  | .addSock s _ => s.tags
  | .deleteSock _ => []

private theorem addTags_eq (fails : Fails) {db : DB P} (h : Inv db) (names : List Str) :
    ∃ db' r, addTags fails db names = (db', r) ∧ More db db' names ∧ (r = .ok () → ∀ t ∈ names, t ∈ tags db') ∧
      ((∀ k, fails k = false) → r = .ok ()) := by
  obtain ⟨db', n', r, e, m, hids, hok⟩ := tags_from fails db h 0 names
  unfold addTags
  rw [e]
  cases r with
  | none => exact ⟨db', .error, rfl, m, fun e => (by cases e), fun hf => (by obtain ⟨_, h⟩ := hok hf; cases h)⟩
  | some ids =>
    refine ⟨db', .ok (), rfl, m, fun _ t ht => ?_, fun _ => rfl⟩
    obtain ⟨-, hn⟩ := hids ids rfl
    rw [← hn] at ht
    obtain ⟨i, hi, hti⟩ := List.mem_flatMap.1 ht
    unfold nameOf at hti
    obtain ⟨x, hx, rfl⟩ := List.mem_map.1 hti
    exact List.mem_map_of_mem (List.mem_filter.1 hx).1

private theorem deleteSock_eq (fails : Fails) (db : DB P) (id : Str) :
    (deleteSock fails db id).1 = (deleteFrom fails db 0 id).1 := by
  unfold deleteSock
  rcases deleteFrom fails db 0 id with ⟨db', n', _ | _⟩ <;> rfl

private theorem call_step {db : DB P} (h : Inv db) (fails : Fails) (o : Op P) : Step db (call db fails o) (about o) (mentioned o) := by
  cases o with
  | addTags names =>
    obtain ⟨db', r, e, m, -⟩ := addTags_eq fails h names
    show Step db (addTags fails db names).1 _ _
    rw [e]
    exact step_tags h m _
  | addSock s uuid =>
    obtain ⟨db', r, e, st, -⟩ := add_cases fails h s uuid
    show Step db (addSock fails db s uuid).1 _ _
    rw [e]
    exact st
  | deleteSock id =>
    show Step db (deleteSock fails db id).1 _ _
    rw [deleteSock_eq]
    exact step_delete fails h 0 id []

theorem reached_inv {db : DB P} (hr : Reached db) : Inv db := by
  obtain ⟨hist, rfl⟩ := hr
  have : ∀ (hist : List (Fails × Op P)) {db : DB P}, Inv db → Inv (calls db hist) := by
    intro hist
    induction hist with
    | nil => exact fun h => h
    | cons e hist ih => exact fun h => ih (call_step h e.1 e.2).inv
  exact this hist inv_init

/-! ### The properties -/

section
variable [Sql P]

omit [Sql P] in
theorem added_rows (fails : Fails) {db : DB P} (hr : Reached db) (s : Sock P) (uuid : Str) (i : Str)
    (hi : i ≠ (if s.id = [] then uuid else s.id)) (h : ∀ r ∈ db.socks, r.id ≠ i) :
    ∀ r ∈ (addSock fails db s uuid).1.socks, r.id ≠ i := by
  have st := call_step (reached_inv hr) fails (.addSock s uuid)
  have := st.socks i hi
  have hn : db.socks.find? (fun r => r.id = i) = none := List.find?_eq_none.2 (by simpa using h)
  rw [hn, List.find?_eq_none] at this
  intro r hr' e
  exact absurd (by simpa using e) (this r hr')

omit [Sql P] in
theorem tags_rows (fails : Fails) {db : DB P} (hr : Reached db) (names : List Str) : (call db fails (.addTags names)).socks = db.socks := by
  obtain ⟨db', r, e, m, -⟩ := addTags_eq fails (reached_inv hr) names
  show (addTags fails db names).1.socks = _
  rw [e]
  exact m.socks

theorem get_id {db : DB P} (hr : Reached db) {id : Str} : get db id = .error ∨ ∃ t, get db id = .ok t ∧ t.id = id := by
  rw [get_eq (reached_inv hr)]
  split
  · exact .inl rfl
  · next r hf =>
    split
    · exact .inl rfl
    · exact .inr ⟨_, rfl, by have h := List.find?_some hf; simpa [toSock] using h⟩

/-- C98: a sock that is added, with at least one tag and no comma in its tags, is then in the catalogue with everything
that was given; a sock with the same identifier is replaced, and all others stay as they are.  This holds after any calls,
also when statements of earlier calls failed. -/
theorem C98_added_partial (db : DB P) (hr : Reached db) (s : Sock P) (uuid : Str) (ht : Tagged s)
    (hu : s.id = [] → ∀ r ∈ db.socks, r.id ≠ uuid) :
    ∃ db' t, addSock noFails db s uuid = (db', .ok (if s.id = [] then uuid else s.id)) ∧
      get db' (if s.id = [] then uuid else s.id) = .ok t ∧ Shows s t (if s.id = [] then uuid else s.id) ∧
      ∀ i, i ≠ (if s.id = [] then uuid else s.id) → get db' i = get db i := by
  have h := reached_inv hr
  obtain ⟨db', r, e, st, hok, hno⟩ := add_cases noFails h s uuid
  obtain ⟨i, rfl⟩ := hno (fun _ => rfl) hu
  obtain ⟨rfl, hf, htags, -⟩ := hok i rfl
  generalize hid : (if s.id = [] then uuid else s.id) = id at *
  have hg := get_eq st.inv id
  rw [hf] at hg
  simp only [htags, if_neg ht.1] at hg
  obtain ⟨k1, k2⟩ := to_sock_tags (rowOf { s with id := id }) s.tags ht.1 ht.2
  exact ⟨db', _, e, hg, ⟨rfl, rfl, rfl, rfl, rfl, rfl, rfl, rfl, k1, k2⟩,
    fun i hi => get_congr h st.inv i (st.tagsOf i hi) (st.socks i hi)⟩

/-- C98: a sock that is deleted is no longer in the catalogue, and all others stay as they are. -/
theorem C98_deleted (db : DB P) (hr : Reached db) (id : Str) (hid : id ≠ []) :
    ∃ db', deleteSock noFails db id = (db', .ok ()) ∧ get db' id = .error ∧ ∀ i, i ≠ id → get db' i = get db i := by
  have h := reached_inv hr
  have st := step_delete noFails h 0 id []
  obtain ⟨n', e⟩ := delete_ok db 0 id hid
  rw [e] at st
  refine ⟨_, by unfold deleteSock; rw [e], ?_, fun i hi => get_congr h st.inv i (st.tagsOf i hi) (st.socks i hi)⟩
  rw [get_eq st.inv]
  have : ({ db with links := db.links.filter fun l => l.1 ≠ id, socks := db.socks.filter fun r => r.id ≠ id } : DB P).socks.find?
      (fun r => r.id = id) = none := by
    rw [List.find?_eq_none]
    intro x hx
    simpa using (List.mem_filter.1 hx).2
  rw [this]

/-- C98: whichever statements of a call fail, the socks that the call is not about stay as they are. -/
theorem C98_others_kept (db : DB P) (hr : Reached db) (fails : Fails) (o : Op P) (i : Str)
    (hi : match o with
      | .addTags _ => True
      | .addSock s uuid => i ≠ (if s.id = [] then uuid else s.id)
      | .deleteSock id => i ≠ id) : get (call db fails o) i = get db i := by
  have h := reached_inv hr
  have st := call_step h fails o
  cases o with
  | addTags names =>
    obtain ⟨db', r, e, m, -⟩ := addTags_eq fails h names
    show get (addTags fails db names).1 i = _
    rw [e]
    by_cases h0 : i = []
    · have st := step_tags h m ['x']
      exact get_congr h st.inv i (st.tagsOf i (by rw [h0]; simp)) (st.socks i (by rw [h0]; simp))
    · have st := step_tags h m []
      exact get_congr h st.inv i (st.tagsOf i h0) (st.socks i h0)
  | addSock s uuid => exact get_congr h st.inv i (st.tagsOf i hi) (st.socks i hi)
  | deleteSock id => exact get_congr h st.inv i (st.tagsOf i hi) (st.socks i hi)
end

/-- C98: `Tags` lists every tag once; calls add exactly the tags they mention (those that fail, some of them). -/
theorem C98_tags (db : DB P) (hr : Reached db) : (tags db).Nodup ∧
    (∀ names, ∃ db', addTags noFails db names = (db', .ok ()) ∧ ∀ t, t ∈ tags db' ↔ t ∈ tags db ∨ t ∈ names) ∧
    (∀ s uuid db' i, addSock noFails db s uuid = (db', .ok i) → ∀ t, t ∈ tags db' ↔ t ∈ tags db ∨ t ∈ s.tags) ∧
    (∀ id, tags (deleteSock noFails db id).1 = tags db) ∧
    ∀ fails o, ∃ new, tags (call db fails o) = tags db ++ new ∧
      ∀ t ∈ new, match o with
        | .addTags names => t ∈ names
        | .addSock s _ => t ∈ s.tags
        | .deleteSock _ => False := by
  have h := reached_inv hr
  have grow : ∀ fails (o : Op P), ∃ new, tags (call db fails o) = tags db ++ new ∧ ∀ t ∈ new, t ∈ mentioned o := by
    intro fails o
    obtain ⟨new, e, hm⟩ := (call_step h fails o).tags
    refine ⟨new.map (·.2), by unfold tags; rw [e, List.map_append], ?_⟩
    intro t ht
    obtain ⟨x, hx, rfl⟩ := List.mem_map.1 ht
    exact hm x hx
  refine ⟨h.tagNames, ?_, ?_, ?_, ?_⟩
  · intro names
    obtain ⟨db', r, e, m, hin, hok⟩ := addTags_eq noFails h names
    have := hok fun _ => rfl
    subst this
    obtain ⟨new, e', hm⟩ := grow noFails (.addTags names)
    have e'' : call db noFails (.addTags names) = db' := by show (addTags noFails db names).1 = _; rw [e]
    rw [e''] at e'
    refine ⟨db', e, fun t => ⟨fun ht => ?_, ?_⟩⟩
    · rw [e'] at ht
      rcases List.mem_append.1 ht with ht | ht
      · exact .inl ht
      · exact .inr (hm t ht)
    · rintro (ht | ht)
      · rw [e']; exact List.mem_append_left _ ht
      · exact hin rfl t ht
  · intro s uuid db' i ha t
    obtain ⟨db1, r, e, st, hok, -⟩ := add_cases noFails h s uuid
    rw [ha] at e
    cases e
    obtain ⟨-, -, -, hin⟩ := hok i rfl
    obtain ⟨new, e', hm⟩ := st.tags
    have e'' : tags db' = tags db ++ new.map (·.2) := by unfold tags; rw [e', List.map_append]
    constructor
    · intro ht
      rw [e''] at ht
      rcases List.mem_append.1 ht with ht | ht
      · exact .inl ht
      · obtain ⟨x, hx, rfl⟩ := List.mem_map.1 ht
        exact .inr (hm x hx)
    · rintro (ht | ht)
      · rw [e'']; exact List.mem_append_left _ ht
      · exact hin t ht
  · intro id
    obtain ⟨new, e', hm⟩ := grow noFails (.deleteSock id)
    have : new = [] := List.eq_nil_iff_forall_not_mem.2 fun t ht => by simpa [mentioned] using hm t ht
    rw [this, List.append_nil] at e'
    exact e'
  · intro fails o
    obtain ⟨new, e, hm⟩ := grow fails o
    refine ⟨new, e, fun t ht => ?_⟩
    have := hm t ht
    cases o with
    | deleteSock id => simp [mentioned] at this
    | _ => exact this

/-! ### Lists -/

private theorem wrap_small {n : Int} (h1 : 0 ≤ n) (h2 : n < 2 ^ 63) : wrap n = n := by
  unfold wrap
  apply Int.bmod_eq_of_le <;> omega

private theorem cut_page {α : Type} (l : List α) (p n : Nat) (hp : 1 ≤ p) (hn : 1 ≤ n) (hm : p * n < 2 ^ 63) :
    cut l p n = .ok (page l p n) := by
  have e : (p : Int) * (n : Int) - n = (((p - 1) * n : Nat) : Int) := by
    obtain ⟨k, rfl⟩ : ∃ k, p = k + 1 := ⟨p - 1, by omega⟩
    rw [Nat.add_sub_cancel, Int.natCast_add, Int.add_mul, Int.natCast_mul]
    simp
  have hle : (p - 1) * n ≤ p * n := Nat.mul_le_mul_right n (by omega)
  have hpn : p * n = (p - 1) * n + n := by
    obtain ⟨k, rfl⟩ : ∃ k, p = k + 1 := ⟨p - 1, by omega⟩
    rw [Nat.add_sub_cancel, Nat.succ_mul]
  have w1 : wrap ((p : Int) * n) = ((p * n : Nat) : Int) := by
    rw [← Int.natCast_mul]
    exact wrap_small (by omega) (by omega)
  have w2 : wrap (((p * n : Nat) : Int) - n) = (((p - 1) * n : Nat) : Int) := by
    rw [Int.natCast_mul, e]
    exact wrap_small (by omega) (by omega)
  unfold cut
  rw [if_neg (by omega), w1]
  simp only [w2]
  unfold page
  by_cases h1 : ((p - 1) * n : Nat) > l.length
  · rw [if_pos (by omega), List.drop_eq_nil_of_le (by omega), List.take_nil]
  · rw [if_neg (by omega)]
    unfold slice
    by_cases h2 : p * n > l.length
    · rw [if_pos (show ((p * n : Nat) : Int) > l.length by omega), if_pos (by omega)]
      rw [Int.toNat_natCast, Int.toNat_natCast, List.take_length, List.take_of_length_le]
      rw [List.length_drop]
      omega
    · rw [if_neg (show ¬ ((p * n : Nat) : Int) > l.length by omega), if_pos (by omega)]
      rw [Int.toNat_natCast, Int.toNat_natCast, hpn, List.drop_take,
        show (p - 1) * n + n - (p - 1) * n = n from Nat.add_sub_cancel_left _ _]

private theorem distinct_append (a : List Str) : ∀ b : List Str, (∀ x ∈ a, x ∉ b) → distinct (a ++ b) = distinct a ++ distinct b := by
  induction a with
  | nil => intros; rfl
  | cons s a ih =>
    intro b h
    rw [List.cons_append, distinct, distinct, ih b fun x hx => h x (List.mem_cons_of_mem _ hx)]
    have : (a ++ b).contains s = a.contains s := by
      have := h s List.mem_cons_self
      simp [this]
    rw [this]
    split <;> rfl

private theorem distinct_same (s : Str) (l : List Str) (hl : l ≠ []) : distinct (l.map fun _ => s) = [s] := by
  induction l with
  | nil => exact absurd rfl hl
  | cons a l ih =>
    cases l with
    | nil => rfl
    | cons b l =>
      rw [List.map_cons, distinct, if_pos (by simp), ih (by simp)]

private theorem count_eq (db : DB P) (keep : Str → Bool) (rs : List (Row P)) (hn : (rs.map (·.id)).Nodup) :
    (distinct (rs.flatMap fun r => ((tagsOf db r.id).filter keep).map fun _ => r.id)).length =
      (rs.filterMap (shown db keep)).length := by
  induction rs with
  | nil => rfl
  | cons r rs ih =>
    rw [List.map_cons, List.nodup_cons] at hn
    rw [List.flatMap_cons, distinct_append, List.length_append, ih hn.2, List.filterMap_cons]
    · unfold shown
      by_cases h0 : (tagsOf db r.id).filter keep = []
      · simp [h0, distinct]
      · rw [distinct_same _ _ h0, if_neg h0]
        simp only [List.length_cons, List.length_nil]
        omega
    · intro x hx hx'
      obtain ⟨_, -, rfl⟩ := List.mem_map.1 hx
      simp only [List.mem_flatMap, List.mem_map] at hx'
      obtain ⟨r', hr', -, -, e⟩ := hx'
      exact hn.1 (List.mem_map.2 ⟨r', hr', e⟩)

private theorem any_iff (want l : List Str) (hl : l ≠ []) : l.filter (anyOf want) ≠ [] ↔ want = [] ∨ ∃ t ∈ want, t ∈ l := by
  cases want with
  | nil =>
    have : l.filter (anyOf []) = l := List.filter_eq_self.2 fun _ _ => rfl
    rw [this]
    simp [hl]
  | cons w want =>
    rw [ne_eq, List.filter_eq_nil_iff]
    simp only [anyOf, Classical.not_forall, Classical.not_not, List.any_eq_true, decide_eq_true_eq, exists_prop, reduceCtorEq, false_or]
    constructor
    · rintro ⟨t, ht, x, hx, rfl⟩
      exact ⟨x, hx, ht⟩
    · rintro ⟨t, ht, h⟩
      exact ⟨t, h, t, ht, rfl⟩

section
variable [Sql P]

/-- C98: `List` gives, in pages, exactly the socks of the catalogue that match any of the tags, each once, and `Count`
their number.  The list that is cut into pages is the same for every page and page size. -/
theorem C98_list_partial (db : DB P) (hr : Reached db) (hp : PlainTags db) (want : List Str) :
    ∃ l : List (Sock P), (l.map (·.id)).Nodup ∧ (∀ s, s ∈ l ↔ get db s.id = .ok s ∧ Matches want s) ∧
      (∀ order (p n : Nat), 1 ≤ p → 1 ≤ n → p * n < 2 ^ 63 → list db want order p n = .ok (page l p n)) ∧
      count db want = l.length := by
  have h := reached_inv hr
  refine ⟨listAll db want [], ?_, ?_, fun order p n h1 h2 h3 => cut_page _ p n h1 h2 h3, ?_⟩
  all_goals
    have perm := Sql.arrange_perm (grouped (joined db (fun _ => true) (anyOf want)))
    rw [grouped_joined db h.ids] at perm
    have e0 : db.socks.filter (fun _ => true) = db.socks := List.filter_eq_self.2 fun _ _ => rfl
    rw [e0] at perm
  · unfold listAll
    rw [List.map_map, grouped_joined db h.ids, e0]
    rw [(perm.map _).nodup_iff]
    have : ((db.socks.filterMap (shown db (anyOf want))).map ((·.id) ∘ toSock)).Sublist (db.socks.map (·.id)) := by
      generalize db.socks = rs
      induction rs with
      | nil => exact .slnil
      | cons r rs ih =>
        rw [List.filterMap_cons, List.map_cons]
        unfold shown
        split
        · exact ih.cons _
        · next hg =>
          split at hg
          · cases hg
          · cases hg
            exact ih.cons_cons _
    exact h.ids.sublist this
  · intro s
    have hmem : s ∈ listAll db want [] ↔ ∃ r ∈ db.socks, (tagsOf db r.id).filter (anyOf want) ≠ [] ∧
        toSock (r, firsts (tagsOf db r.id)) = s := by
      unfold listAll
      rw [grouped_joined db h.ids, e0, List.mem_map]
      constructor
      · rintro ⟨g, hg, rfl⟩
        rw [perm.mem_iff, List.mem_filterMap] at hg
        obtain ⟨r, hr', hs⟩ := hg
        unfold shown at hs
        split at hs
        · cases hs
        · next h0 => cases hs; exact ⟨r, hr', h0, rfl⟩
      · rintro ⟨r, hr', h0, rfl⟩
        refine ⟨_, perm.mem_iff.2 (List.mem_filterMap.2 ⟨r, hr', ?_⟩), rfl⟩
        unfold shown
        rw [if_neg h0]
    have plain : ∀ id, ∀ t ∈ tagsOf db id, ',' ∉ t := by
      intro id t ht
      rw [tagsOf_eq] at ht
      obtain ⟨i, -, hi⟩ := List.mem_flatMap.1 ht
      unfold nameOf at hi
      obtain ⟨x, hx, rfl⟩ := List.mem_map.1 hi
      exact hp _ (List.mem_map_of_mem (List.mem_filter.1 hx).1)
    have ne : ∀ {id : Str}, (tagsOf db id).filter (anyOf want) ≠ [] → tagsOf db id ≠ [] := by
      intro id h1 h2; rw [h2] at h1; exact h1 rfl
    rw [hmem]
    constructor
    · rintro ⟨r, hr', h0, rfl⟩
      have hne := ne h0
      have hfind : db.socks.find? (fun x => x.id = r.id) = some r := by
        have e := filter_find db.socks h.ids r.id
        have : r ∈ db.socks.filter (fun x => x.id = r.id) := List.mem_filter.2 ⟨hr', by simp⟩
        rw [e] at this
        simpa using this
      refine ⟨?_, ?_⟩
      · show get db r.id = _
        rw [get_eq h, hfind]
        simp only [if_neg hne]
      · obtain ⟨-, k⟩ := to_sock_tags r (tagsOf db r.id) hne (plain _)
        unfold Matches
        rw [any_iff want _ hne] at h0
        simpa only [k] using h0
    · rintro ⟨hg, hm⟩
      rw [get_eq h] at hg
      split at hg
      · cases hg
      · next r hf =>
        split at hg
        · cases hg
        · next hne =>
          have e := Ret.ok.inj hg
          have hid : r.id = s.id := by simpa using List.find?_some hf
          refine ⟨r, List.mem_of_find?_eq_some hf, ?_, by rw [hid]; exact e⟩
          rw [hid, any_iff want _ hne]
          obtain ⟨-, k⟩ := to_sock_tags r (tagsOf db s.id) hne (plain _)
          unfold Matches at hm
          rw [← e] at hm
          have e2 : (toSock (r, firsts (tagsOf db s.id))).id = s.id := hid
          simpa only [k, e2] using hm
  · unfold count listAll
    rw [count_eq db _ _ h.ids, List.length_map, grouped_joined db h.ids, e0, perm.length_eq]

/-- C98: the pages one after the other are the whole list: no sock is left out, none comes twice. -/
theorem C98_pages {α : Type} (l : List α) (n k : Nat) (hk : l.length ≤ k * n) :
    (List.range k).flatMap (fun i => page l (i + 1) n) = l := by
  have : ∀ k, (List.range k).flatMap (fun i => page l (i + 1) n) = l.take (k * n) := by
    intro k
    induction k with
    | zero => simp
    | succ k ih =>
      rw [List.range_succ, List.flatMap_append, ih, Nat.succ_mul]
      simp only [List.flatMap_cons, List.flatMap_nil, List.append_nil, page, Nat.add_sub_cancel]
      rw [← List.take_append_drop (k * n) (l.take (k * n + n)), List.take_take, List.drop_take]
      congr 2
      · rw [Nat.min_eq_left (by omega)]
      · omega
  rw [this, List.take_of_length_le hk]

/-! ### Where the code does something else -/

/-- C98 refuted: a sock without tags is added without an error, and is then not in the catalogue: `Get` does not find it, and
`List` and `Count` leave it out. -/
theorem C98_no_tags_refuted (db : DB P) (hr : Reached db) (s : Sock P) (uuid : Str) (ht : s.tags = [])
    (hu : s.id = [] → ∀ r ∈ db.socks, r.id ≠ uuid) :
    ∃ db' id, addSock noFails db s uuid = (db', .ok id) ∧ get db' id = .error ∧
      ∀ order, ∀ t ∈ listAll db' [] order, t.id ≠ id := by
  have h := reached_inv hr
  obtain ⟨db', r, e, st, hok, hno⟩ := add_cases noFails h s uuid
  obtain ⟨i, rfl⟩ := hno (fun _ => rfl) hu
  obtain ⟨hid, hf, htags, -⟩ := hok i rfl
  refine ⟨db', i, e, ?_, ?_⟩
  · rw [get_eq st.inv, hf]
    simp only [htags, ht, if_true]
  · intro order t htm hti
    unfold listAll at htm
    obtain ⟨g, hg, rfl⟩ := List.mem_map.1 htm
    rw [(Sql.arrange_perm _).mem_iff, grouped_joined db' st.inv.ids, List.mem_filterMap] at hg
    obtain ⟨r, -, hs⟩ := hg
    unfold shown at hs
    split at hs
    · cases hs
    · next h0 =>
      cases hs
      have : r.id = i := hti
      rw [this, htags, ht] at h0
      exact h0 rfl

/-- C98 refuted: `List` does not sort.  Whatever column is named, the result is the same as without one. -/
theorem C98_order_refuted (db : DB P) (want : List Str) (order : Str) (p n : Int) :
    list db want order p n = list db want [] p n := rfl

/-- C98 refuted: a negative page number makes `List` panic, and so does a page number so large that the position of the
page overflows. -/
theorem C98_page_panic_refuted (db : DB P) (want : List Str) (order : Str) :
    (∀ p : Int, -(2 ^ 62) ≤ p → p < 0 → list db want order p 1 = .panic) ∧ list db want order (2 ^ 62) 4 = .panic := by
  unfold list
  generalize listAll db want order = l
  refine ⟨?_, ?_⟩
  · intro p h1 h2
    have w1 : wrap (p * 1) = p := by rw [Int.mul_one]; unfold wrap; apply Int.bmod_eq_of_le <;> omega
    have w2 : wrap (p - 1) = p - 1 := by unfold wrap; apply Int.bmod_eq_of_le <;> omega
    unfold cut
    rw [if_neg (by omega), w1]
    simp only [w2]
    rw [if_neg (by omega), if_neg (by omega)]
    unfold slice
    rw [if_neg (by omega)]
  · have w1 : wrap (2 ^ 62 * 4) = 0 := by decide
    have w2 : wrap (0 - 4) = -4 := by decide
    unfold cut
    rw [if_neg (by decide), w1]
    simp only [w2]
    rw [if_neg (by omega), if_neg (by omega)]
    unfold slice
    rw [if_neg (by omega)]

/-- C98 refuted: the images that the caller gives as a list are not stored; `Get` returns two empty ones. -/
theorem C98_images_refuted (db : DB P) (hr : Reached db) (s : Sock P) (uuid : Str) (ht : Tagged s)
    (hu : s.id = [] → ∀ r ∈ db.socks, r.id ≠ uuid) (h1 : s.url1 = []) (h2 : s.url2 = []) :
    ∃ db' id t, addSock noFails db s uuid = (db', .ok id) ∧ get db' id = .ok t ∧ t.images = [[], []] := by
  obtain ⟨db', t, e, hg, hs, -⟩ := C98_added_partial db hr s uuid ht hu
  exact ⟨db', _, t, e, hg, by rw [hs.2.2.2.2.2.2.2.1, h1, h2]⟩

/-- C98 refuted: one tag with a comma comes back as two. -/
theorem C98_comma_refuted (db : DB P) (hr : Reached db) (s : Sock P) (hid : s.id ≠ []) (a b : Str) (ha : ',' ∉ a) (hb : ',' ∉ b)
    (ht : s.tags = [a ++ ',' :: b]) :
    ∃ db' t, addSock noFails db s [] = (db', .ok s.id) ∧ get db' s.id = .ok t ∧ t.tags = [a, b] := by
  have h := reached_inv hr
  obtain ⟨db', r, e, st, hok, hno⟩ := add_cases noFails h s []
  obtain ⟨i, rfl⟩ := hno (fun _ => rfl) fun h0 => absurd h0 hid
  obtain ⟨hi, hf, htags, -⟩ := hok i rfl
  rw [if_neg hid] at hi
  subst hi
  refine ⟨db', toSock (rowOf { s with id := s.id }, firsts s.tags), e, ?_, ?_⟩
  · rw [get_eq st.inv, hf]
    simp only [htags]
    rw [if_neg (by rw [ht]; simp)]
  · show split (commas (Sql.concat (P := P) (firsts s.tags))) = [a, b]
    have e1 : firsts s.tags = [a ++ ',' :: b] := by rw [ht]; rfl
    rw [e1, List.perm_singleton.1 (Sql.concat_perm (P := P) [a ++ ',' :: b])]
    show split (a ++ ',' :: b) = [a, b]
    unfold split
    rw [split_loop_comma _ _ _ ha, split_loop_end _ _ hb]
    rfl

/-- C98 refuted: an update is not all or nothing.  If the statement that inserts the new row fails, the call reports an
error and the sock that was there is gone. -/
theorem C98_lost_refuted (db : DB P) (hr : Reached db) (s : Sock P) (uuid : Str) (hid : s.id ≠ []) :
    ∃ db', addSock (fun k => k == 2) db s uuid = (db', .error) ∧ get db' s.id = .error := by
  have h := reached_inv hr
  have e : addSock (fun k => k == 2) db s uuid =
      ({ db with links := db.links.filter fun l => l.1 ≠ s.id, socks := db.socks.filter fun r => r.id ≠ s.id }, .error) := by
    unfold addSock
    rw [if_pos hid]
    unfold deleteFrom
    rw [if_neg hid]
    rfl
  refine ⟨_, e, ?_⟩
  have st := step_delete noFails h 0 s.id []
  obtain ⟨n', e'⟩ := delete_ok db 0 s.id hid
  rw [e'] at st
  rw [get_eq st.inv]
  have : ({ db with links := db.links.filter fun l => l.1 ≠ s.id, socks := db.socks.filter fun r => r.id ≠ s.id } : DB P).socks.find?
      (fun r => r.id = s.id) = none := by
    rw [List.find?_eq_none]
    intro x hx
    simpa using (List.mem_filter.1 hx).2
  rw [this]

/-- C98 refuted: nor is the addition of a new sock.  If the statement that records the second of its two tags fails, the
call reports an error and the sock is in the catalogue with the first tag only. -/
theorem C98_half_added_refuted (db : DB P) (hr : Reached db) (s : Sock P) (uuid a b : Str) (hid : s.id ≠ [])
    (ht : s.tags = [a, b]) (ha : a ∈ tags db) (hb : b ∈ tags db) (hc : ',' ∉ a) :
    ∃ db' t, addSock (fun k => k == 5) db s uuid = (db', .error) ∧ get db' s.id = .ok t ∧ t.tags = [a] := by
  have h := reached_inv hr
  have look : ∀ x ∈ tags db, ∃ i, tagLookup db.tags x = some i ∧ nameOf db.tags i = [x] := by
    intro x hx
    cases hl : tagLookup db.tags x with
    | none => exact absurd hx (lookup_none hl)
    | some i => exact ⟨i, rfl, nameOf_mem _ h.tagIds (lookup_some hl)⟩
  obtain ⟨i, hi, ni⟩ := look a ha
  obtain ⟨j, hj, -⟩ := look b hb
  have e : addSock (fun k => k == 5) db s uuid =
      ({ db with links := (db.links.filter fun l => l.1 ≠ s.id) ++ [(s.id, i)],
                 socks := (db.socks.filter fun r => r.id ≠ s.id) ++ [rowOf s] }, .error) := by
    unfold addSock
    rw [if_pos hid]
    unfold deleteFrom
    rw [if_neg hid]
    have hany : ((db.socks.filter fun r => r.id ≠ s.id).any fun r => r.id = s.id) = false :=
      any_false fun r hr' => by simpa using (List.mem_filter.1 hr').2
    simp [insertFrom, addTagsFrom, addTagsLoop, hi, hj, linkLoop, ht, rowOf]
  have st := (call_step h (fun k => k == 5) (.addSock s uuid)).inv
  have e' : call db (fun k => k == 5) (.addSock s uuid) = _ := congrArg Prod.fst e
  rw [e'] at st
  refine ⟨_, toSock (rowOf s, [a]), e, ?_, ?_⟩
  · rw [get_eq st]
    have hf : ((db.socks.filter fun r => r.id ≠ s.id) ++ [rowOf s]).find? (fun r => r.id = s.id) = some (rowOf s) := by
      rw [List.find?_append, List.find?_eq_none.2 fun r hr' => by simpa using (List.mem_filter.1 hr').2]
      simp [rowOf]
    have hl : ((db.links.filter fun l => l.1 ≠ s.id) ++ [(s.id, i)]).filter (fun l => l.1 = s.id) = [(s.id, i)] := by
      rw [List.filter_append, List.filter_eq_nil_iff.2]
      · simp
      · intro l hl
        simpa using (List.mem_filter.1 hl).2
    have htg : tagsOf { db with links := (db.links.filter fun l => l.1 ≠ s.id) ++ [(s.id, i)],
                                socks := (db.socks.filter fun r => r.id ≠ s.id) ++ [rowOf s] } s.id = [a] := by
      rw [tagsOf_eq]
      show ((((db.links.filter fun l => l.1 ≠ s.id) ++ [(s.id, i)]).filter (fun l => l.1 = s.id)).map _).flatMap _ = _
      rw [hl]
      show nameOf db.tags i ++ [] = _
      rw [ni]
      rfl
    rw [htg]
    show (match ((db.socks.filter fun r => r.id ≠ s.id) ++ [rowOf s]).find? (fun r => r.id = s.id) with
      | none => _
      | some r => _) = _
    rw [hf]
    simp [firsts, add]
  · show split (commas (Sql.concat (P := P) [a])) = [a]
    rw [List.perm_singleton.1 (Sql.concat_perm (P := P) [a])]
    exact split_commas [a] (by simp) (by simpa using hc)

/-- C98 refuted: two concurrent calls of `AddTags` with the same new tag make it appear twice. -/
theorem C98_concurrent_refuted (db : DB P) (t : Str) (ht : t ∉ tags db) :
    tags (interleave db [⟨[t], none, false⟩, ⟨[t], none, false⟩] [0, 1, 0, 1]).1 = tags db ++ [t, t] := by
  have hl : tagLookup db.tags t = none := by
    unfold tagLookup
    rw [Option.map_eq_none_iff, List.find?_eq_none]
    intro x hx
    simp only [decide_eq_true_eq]
    rintro rfl
    exact ht (List.mem_map_of_mem (by simpa using hx))
  have one : ∀ db' : DB P, (addTagsLoop noFails db' db.tags 1 [t]).1.tags = db'.tags ++ [(db'.nextTag, t)] := by
    intro db'
    rw [addTagsLoop, hl]
    rfl
  simp only [interleave, addingStep, List.getElem?_cons_zero, List.getElem?_cons_succ, List.set_cons_zero, List.set_cons_succ]
  simp [tags, one]
end

end Verif.Catalogue
