import Verif.Trains.Tables
/-
C100 to C104: the services of the train ticket example that keep one entry for each key.
-/
set_option linter.unusedSectionVars false
namespace Verif.Trains
open Verif.NoSQL (Name Doc Value Host Codec Ret Plain)
variable {F : Type} [Host F] {T : Type}

macro "plain" : tactic => `(tactic| (refine ⟨?_, ?_, ?_⟩ <;> decide))

/-! ### C100: configurations -/
namespace Configs

theorem keyed : KeyField (configs (F := F)) Config.name fName :=
  fun s => Codec.asks_str (by plain) (by decide) (fun _ => rfl) s

theorem shows_step (docs : List (Doc F)) (m : Table Config) (op : Op) (h : Shows configs Config.name docs m) :
    Shows configs Config.name (step docs op) (effect m op) := by
  cases op with
  | create c i =>
    simp only [step, effect, create, h.one configs_ok keyed]
    cases hm : m c.name with
    | some _ => exact h
    | none =>
      obtain ⟨docs', h1, h2⟩ := h.insert configs_ok c hm i
      simpa [onOk, h1] using h2
  | update c i =>
    obtain ⟨docs', h1, h2⟩ := h.upserted configs_ok keyed c i
    simpa [step, effect, update, h1] using h2
  | delete n =>
    obtain ⟨docs', h1, h2⟩ := h.delete configs_ok keyed n
    simpa [step, effect, delete, h1] using h2

theorem shows (ops : List Op) : Shows (configs (F := F)) Config.name (after ops) (table ops) := Shows.history shows_step ops

/-- `Find` returns the configuration of that name as the calls before left it, and an error if they left none. -/
theorem C100_find (ops : List Op) (name : Name) : find (F := F) (after ops) name = answer (table ops name) := by
  rw [find, (shows ops).one configs_ok keyed]
  cases table ops name <;> rfl

/-- `Create` fails exactly if there is a configuration of that name. -/
theorem C100_create (ops : List Op) (c : Config) (newId : Nat) :
    (create (F := F) (after ops) c newId).2 = if (table ops c.name).isSome then .error else .ok () := by
  rw [create, (shows ops).one configs_ok keyed]
  cases hm : table ops c.name with
  | some _ => rfl
  | none =>
    obtain ⟨docs', h1, -⟩ := (shows (F := F) ops).insert configs_ok c hm newId
    simp [onOk, h1]

/-- `Update` always succeeds and tells whether there was a configuration of that name. -/
theorem C100_update (ops : List Op) (c : Config) (newId : Nat) :
    (update (F := F) (after ops) c newId).2 = .ok (table ops c.name).isSome := by
  obtain ⟨docs', h1, -⟩ := (shows (F := F) ops).upserted configs_ok keyed c newId
  rw [update, h1]

/-- `Delete` always succeeds. -/
theorem C100_delete (ops : List Op) (name : Name) : (delete (F := F) (after ops) name).2 = .ok () := by
  obtain ⟨docs', h1, -⟩ := (shows (F := F) ops).delete configs_ok keyed name
  rw [delete, h1]

/-- `FindAll` returns every configuration once and nothing else. -/
theorem C100_find_all (ops : List Op) :
    ∃ l, findAll (F := F) (after ops) = .ok l ∧ Lists Config.name (table ops) (fun _ => True) l := by
  obtain ⟨l, h1, h2⟩ := (shows (F := F) ops).many configs_ok (Codec.asks_all _)
  exact ⟨l, h1, h2.distinct, fun t => by simpa using h2.mem t⟩

end Configs

/-! ### C101: stations -/
namespace Stations

theorem keyed : KeyField (stations (F := F)) Station.id fId :=
  fun s => Codec.asks_str (by plain) (by decide) (fun _ => rfl) s

theorem named (s : Name) : (stations (F := F)).Asks [(fName, .str s)] fun t => s == t.name :=
  Codec.asks_str (by plain) (by decide) (fun _ => rfl) s

theorem shows_step (docs : List (Doc F)) (m : Table Station) (op : Op) (h : Shows stations Station.id docs m) :
    Shows stations Station.id (step docs op) (effect m op) := by
  cases op with
  | create c i =>
    simp only [step, effect, create, h.one stations_ok keyed]
    cases hm : m c.id with
    | some _ => exact h
    | none =>
      obtain ⟨docs', h1, h2⟩ := h.insert stations_ok c hm i
      simpa [onOk, h1] using h2
  | update c i =>
    obtain ⟨docs', h1, h2⟩ := h.upserted stations_ok keyed c i
    simpa [step, effect, update, h1] using h2
  | delete n =>
    obtain ⟨docs', h1, h2⟩ := h.delete stations_ok keyed n
    simpa [step, effect, delete, h1] using h2

theorem shows (ops : List Op) : Shows (stations (F := F)) Station.id (after ops) (table ops) := Shows.history shows_step ops

/-- `FindByID` returns the station with that id as the calls before left it, and an error if they left none. -/
theorem C101_find (ops : List Op) (id : Name) : findByID (F := F) (after ops) id = answer (table ops id) := by
  rw [findByID, (shows ops).one stations_ok keyed]
  cases table ops id <;> rfl

/-- `CreateStation` fails exactly if there is a station with that id. -/
theorem C101_create (ops : List Op) (st : Station) (newId : Nat) :
    (create (F := F) (after ops) st newId).2 = if (table ops st.id).isSome then .error else .ok () := by
  rw [create, (shows ops).one stations_ok keyed]
  cases hm : table ops st.id with
  | some _ => rfl
  | none =>
    obtain ⟨docs', h1, -⟩ := (shows (F := F) ops).insert stations_ok st hm newId
    simp [onOk, h1]

/-- `UpdateStation` always succeeds and tells whether there was a station with that id. -/
theorem C101_update (ops : List Op) (st : Station) (newId : Nat) :
    (update (F := F) (after ops) st newId).2 = .ok (table ops st.id).isSome := by
  obtain ⟨docs', h1, -⟩ := (shows (F := F) ops).upserted stations_ok keyed st newId
  rw [update, h1]

/-- `DeleteStation` always succeeds. -/
theorem C101_delete (ops : List Op) (id : Name) : (delete (F := F) (after ops) id).2 = .ok () := by
  obtain ⟨docs', h1, -⟩ := (shows (F := F) ops).delete stations_ok keyed id
  rw [delete, h1]

/-- `Exists` tells whether a station has the name. -/
theorem C101_exists (ops : List Op) (name : Name) :
    ∃ b, exist (F := F) (after ops) name = .ok b ∧ (b = true ↔ ∃ st, table ops st.id = some st ∧ st.name = name) := by
  have hf := (shows (F := F) ops).finds stations_ok (named name)
  rw [one_rows (named name) stations_ok (shows ops).rows] at hf
  rw [exist, one_rows (named name) stations_ok (shows ops).rows]
  refine ⟨_, rfl, ?_⟩
  cases hr : (stations.rows (after (F := F) ops)).find? (fun t => name == t.name) with
  | some st =>
    rw [hr] at hf
    rcases hf with ⟨t, -, h1, h2⟩ | ⟨h, -⟩
    · exact ⟨fun _ => ⟨t, h1, (beq_iff_eq.1 h2).symm⟩, fun _ => rfl⟩
    · cases h
  | none =>
    rw [hr] at hf
    rcases hf with ⟨t, h, -⟩ | ⟨-, h⟩
    · cases h
    · refine ⟨fun e => (by cases e), fun ⟨st, h1, h2⟩ => (h st h1 (by simp [h2])).elim⟩

/-- `FindID` returns the id of a station that has the name, and an error if none has. -/
theorem C101_find_id (ops : List Op) (name : Name) :
    (∃ st, findID (F := F) (after ops) name = .ok st.id ∧ table ops st.id = some st ∧ st.name = name) ∨
    (findID (F := F) (after ops) name = .error ∧ ∀ st, table ops st.id = some st → st.name ≠ name) := by
  rcases (shows (F := F) ops).finds stations_ok (named name) with ⟨t, h1, h2, h3⟩ | ⟨h1, h2⟩
  · exact Or.inl ⟨t, by rw [findID, h1], h2, (beq_iff_eq.1 h3).symm⟩
  · exact Or.inr ⟨by rw [findID, h1], fun st h3 h4 => h2 st h3 (by simp [h4])⟩

/-- `FindIDs` returns the ids in the order of the names if every name is that of a station.  The property asks for this with an empty
id in the place of a name that no station has. -/
theorem C101_find_ids_partial (ops : List Op) (names : List Name)
    (h : ∀ name ∈ names, ∃ st, table ops st.id = some st ∧ st.name = name) :
    ∃ ids, findIDs (F := F) (after ops) names = .ok ids ∧ ids.map Ret.ok = names.map (findID (F := F) (after ops)) := by
  induction names with
  | nil => exact ⟨[], rfl, rfl⟩
  | cons n ns ih =>
    obtain ⟨ids, h1, h2⟩ := ih fun x hx => h x (by simp [hx])
    rcases C101_find_id (F := F) ops n with ⟨st, h3, -⟩ | ⟨-, h3⟩
    · exact ⟨st.id :: ids, by rw [findIDs, h3, h1], by simp [h3, h2]⟩
    · obtain ⟨st, h4, h5⟩ := h n (by simp)
      exact (h3 st h4 h5).elim

/-- The number of names that are not there. -/
private theorem ids_length (ops : List Op) (names : List Name) :
    ∃ ids, findIDs (F := F) (after ops) names = .ok ids ∧ names.length ≤ ids.length ∧
      ((∃ name ∈ names, ∀ st, table ops st.id = some st → st.name ≠ name) → names.length < ids.length) := by
  induction names with
  | nil => exact ⟨[], rfl, Nat.le_refl _, fun ⟨_, h, _⟩ => by cases h⟩
  | cons n ns ih =>
    obtain ⟨ids, h1, h2, h3⟩ := ih
    rcases C101_find_id (F := F) ops n with ⟨st, h4, h5, h6⟩ | ⟨h4, -⟩
    · refine ⟨st.id :: ids, by rw [findIDs, h4, h1], by simpa using h2, ?_⟩
      rintro ⟨x, hx, hn⟩
      rcases List.mem_cons.1 hx with rfl | hx
      · exact (hn st h5 h6).elim
      · simpa using h3 ⟨x, hx, hn⟩
    · refine ⟨[] :: [] :: ids, by rw [findIDs, h4, h1], ?_, fun _ => ?_⟩ <;> simp <;> omega

/-- A comment in the code says that the entry of a name that no station has is an empty id.  There are two such entries for each of
these names, so the result is longer than the list of names whenever one of them is unknown, and what follows stands in the wrong
place. -/
theorem C101_find_ids_refuted (ops : List Op) (names : List Name)
    (h : ∃ name ∈ names, ∀ st, table ops st.id = some st → st.name ≠ name) :
    ∃ ids, findIDs (F := F) (after ops) names = .ok ids ∧ names.length < ids.length := by
  obtain ⟨ids, h1, -, h2⟩ := ids_length (F := F) ops names
  exact ⟨ids, h1, h2 h⟩

/-- `FindByIDs` returns the stations in the order of the ids if all of them are there.  The property asks for this with an empty
station in the place of an id that no station has. -/
theorem C101_find_by_ids_partial (ops : List Op) (ids : List Name) (h : ∀ id ∈ ids, (table ops id).isSome) :
    ∃ sts, findByIDs (F := F) (after ops) ids = .ok sts ∧ sts.map some = ids.map (table ops) := by
  induction ids with
  | nil => exact ⟨[], rfl, rfl⟩
  | cons n ns ih =>
    obtain ⟨sts, h1, h2⟩ := ih fun x hx => h x (by simp [hx])
    obtain ⟨st, hs⟩ := Option.isSome_iff_exists.1 (h n (by simp))
    refine ⟨st :: sts, ?_, by simp [h2, hs]⟩
    rw [findByIDs, C101_find, hs, h1]; rfl

/-- The result has an empty station twice for each id that no station has. -/
theorem C101_find_by_ids_refuted (ops : List Op) (ids : List Name) :
    findByIDs (F := F) (after ops) ids = .ok (ids.flatMap fun id => match table ops id with
      | some st => [st]
      | none => [zero, zero]) := by
  induction ids with
  | nil => rfl
  | cons n ns ih =>
    rw [findByIDs, C101_find, ih]
    cases hs : table ops n <;> simp [answer, hs]

end Stations

/-! ### C103: prices -/
namespace Prices

theorem keyed : KeyField (priceConfigs (F := F)) PriceConfig.id fId :=
  fun s => Codec.asks_str (by plain) (by decide) (fun _ => rfl) s

/-- The two conditions. -/
theorem both (route type : Name) : (priceConfigs (F := F)).Asks
    [(Verif.NoSQL.kAnd, .arr [.doc [(fRouteid, .str route)], .doc [(fTraintype, .str type)]] [])]
    fun t => (route == t.routeID) && (type == t.trainType) :=
  Codec.asks_and (Codec.asks_str (by plain) (by decide) (fun _ => rfl) route)
    (Codec.asks_str (by plain) (by decide) (fun _ => rfl) type) ⟨[], [], [], Host.ofInt 0, Host.ofInt 0⟩ []

theorem create_eq {docs : List (Doc F)} {m : Table (PriceConfig F)} (h : Shows priceConfigs PriceConfig.id docs m)
    (pc : PriceConfig F) (newId : Nat) :
    ∃ docs', create docs pc newId = (docs', .ok ()) ∧ Shows priceConfigs PriceConfig.id docs' (m.put pc.id pc) := by
  rw [create, findByID, h.one priceConfigs_ok keyed]
  cases hm : m pc.id with
  | none => exact h.insert priceConfigs_ok pc hm newId
  | some _ =>
    obtain ⟨docs', h1, h2⟩ := h.upserted priceConfigs_ok keyed pc newId
    refine ⟨docs', ?_, h2⟩
    simp [found, h1, hm, mustReplace]

theorem shows_step (docs : List (Doc F)) (m : Table (PriceConfig F)) (op : Op F) (h : Shows priceConfigs PriceConfig.id docs m) :
    Shows priceConfigs PriceConfig.id (step docs op) (effect m op) := by
  cases op with
  | create c i =>
    obtain ⟨docs', h1, h2⟩ := create_eq h c i
    simpa [step, effect, h1] using h2
  | update c i =>
    obtain ⟨docs', h1, h2⟩ := h.upserted priceConfigs_ok keyed c i
    simpa [step, effect, update, h1] using h2
  | delete n =>
    obtain ⟨docs', h1, h2⟩ := h.delete priceConfigs_ok keyed n
    simpa [step, effect, delete, h1] using h2

theorem shows (ops : List (Op F)) : Shows (priceConfigs (F := F)) PriceConfig.id (after ops) (table ops) :=
  Shows.history shows_step ops

/-- `FindByID` returns the price configuration with that id as the calls before left it, and an error if they left none. -/
theorem C103_find (ops : List (Op F)) (id : Name) : findByID (after ops) id = answer (table ops id) := by
  rw [findByID, (shows ops).one priceConfigs_ok keyed]
  cases table ops id <;> rfl

/-- `CreateNewPriceConfig`, `UpdatePriceConfig` and `DeletePriceConfig` always succeed, and the second tells whether there was one. -/
theorem C103_write (ops : List (Op F)) (pc : PriceConfig F) (newId : Nat) (id : Name) :
    (create (after ops) pc newId).2 = .ok () ∧ (update (after ops) pc newId).2 = .ok (table ops pc.id).isSome ∧
    (delete (after ops) id).2 = .ok () := by
  obtain ⟨_, h1, -⟩ := create_eq (shows ops) pc newId
  obtain ⟨_, h2, -⟩ := (shows ops).upserted priceConfigs_ok keyed pc newId
  obtain ⟨_, h3, -⟩ := (shows ops).delete priceConfigs_ok keyed id
  exact ⟨by rw [h1], by rw [update, h2], by rw [delete, h3]⟩

/-- `GetAllPriceConfig` returns every price configuration once and nothing else. -/
theorem C103_get_all (ops : List (Op F)) :
    ∃ l, getAll (after ops) = .ok l ∧ Lists PriceConfig.id (table ops) (fun _ => True) l := by
  obtain ⟨l, h1, h2⟩ := (shows ops).many priceConfigs_ok (Codec.asks_all _)
  exact ⟨l, h1, h2.distinct, fun t => by simpa using h2.mem t⟩

/-- `FindByRouteIDAndTrainType` returns a price configuration for that route and type, and an error if there is none. -/
theorem C103_find_by_route_and_type (ops : List (Op F)) (route type : Name) :
    Finds PriceConfig.id (table ops) (fun pc => pc.routeID = route ∧ pc.trainType = type)
      (findByRouteAndType (after ops) route type) := by
  have e : (fun pc : PriceConfig F => pc.routeID = route ∧ pc.trainType = type) =
      fun pc => ((route == pc.routeID) && (type == pc.trainType)) = true := by
    funext pc
    rw [Bool.and_eq_true, beq_iff_eq, beq_iff_eq, eq_comm (a := route), eq_comm (a := type)]
  rw [e]
  exact (shows ops).finds priceConfigs_ok (both route type)

/-! #### Splitting -/

theorem split_ne_nil (sep : Char) (s : Name) : split sep s ≠ [] := by
  cases s with
  | nil => simp [split]
  | cons c cs =>
    rw [split]
    split
    · simp
    · split <;> simp

theorem split_no (sep : Char) (s : Name) (h : sep ∉ s) : split sep s = [s] := by
  induction s with
  | nil => rfl
  | cons c cs ih =>
    rw [List.mem_cons, not_or] at h
    rw [split, if_neg (Ne.symm h.1), ih h.2]

theorem split_at (sep : Char) (p s : Name) (h : sep ∉ p) : split sep (p ++ sep :: s) = p :: split sep s := by
  induction p with
  | nil => simp [split]
  | cons c cs ih =>
    rw [List.mem_cons, not_or] at h
    rw [List.cons_append, split, if_neg (Ne.symm h.1), ih h.2]

theorem split_two (sep : Char) (p s : Name) (h : sep ∉ p) (hs : s = [] ∨ s.head? = some sep) :
    ∃ ps, split sep (p ++ s) = p :: ps := by
  rcases hs with rfl | hs
  · exact ⟨[], by rw [List.append_nil, split_no sep p h]⟩
  · cases s with
    | nil => cases hs
    | cons c cs =>
      simp only [List.head?_cons, Option.some.injEq] at hs
      subst hs
      exact ⟨_, split_at c p cs h⟩

private theorem cut (sep : Char) (s : Name) (h : sep ∈ s) : ∃ a b, s = a ++ sep :: b ∧ sep ∉ a := by
  induction s with
  | nil => cases h
  | cons c cs ih =>
    by_cases hc : c = sep
    · exact ⟨[], cs, by simp [hc], by simp⟩
    · obtain ⟨a, b, h1, h2⟩ := ih ((List.mem_cons.1 h).resolve_left (Ne.symm hc))
      exact ⟨c :: a, b, by simp [h1], by simp [h2, Ne.symm hc]⟩

/-- An entry with a colon names exactly one route and train type. -/
theorem names_exists (rt : Name) (h : ':' ∈ rt) : ∃ route type, Names rt route type := by
  obtain ⟨a, b, h1, h2⟩ := cut ':' rt h
  by_cases hb : ':' ∈ b
  · obtain ⟨c, d, h3, h4⟩ := cut ':' b hb
    exact ⟨a, c, ':' :: d, by rw [h1, h3], h2, h4, Or.inr rfl⟩
  · exact ⟨a, b, [], by rw [h1, List.append_nil], h2, hb, Or.inl rfl⟩

theorem split_names {rt route type : Name} (h : Names rt route type) : ∃ ps, split ':' rt = route :: type :: ps := by
  obtain ⟨rest, rfl, h1, h2, h3⟩ := h
  obtain ⟨ps, hp⟩ := split_two ':' type rest h2 h3
  exact ⟨ps, by rw [split_at _ _ _ h1, hp]⟩

private theorem get_put {V : Type} (k j : Name) (v : V) (m : List (Name × V)) :
    (put k v m).lookup j = if j = k then some v else m.lookup j := by
  rw [put, List.lookup_cons]
  by_cases h : j = k
  · subst h; simp
  · rw [show (j == k) = false by simpa using h, if_neg h]
    simp only
    induction m with
    | nil => rfl
    | cons e m ih =>
      rw [List.filter_cons]
      by_cases he : e.1 = k
      · rw [if_neg (by simp [he]), ih, List.lookup_cons, show (j == e.1) = false by rw [he]; simpa using h]
      · rw [if_pos (by simpa using he), List.lookup_cons, List.lookup_cons, ih]

/-- What is known of the entry after the loop. -/
def EntryOk (ops : List (Op F)) (rts : List Name) (old : List (Name × PriceConfig F)) (res : List (Name × PriceConfig F)) (k : Name) :
    Prop :=
  (k ∉ rts → res.lookup k = old.lookup k) ∧
  (k ∈ rts → ∀ route type, Names k route type →
    (∃ pc, res.lookup k = some pc ∧ findByRouteAndType (after ops) route type = .ok pc) ∨
    (res.lookup k = old.lookup k ∧ findByRouteAndType (after ops) route type = .error))

theorem loop_ok (ops : List (Op F)) (rts : List Name) (h : ∀ rt ∈ rts, ':' ∈ rt) (old : List (Name × PriceConfig F)) :
    ∃ res, pricesLoop (after ops) old rts = .ok res ∧ ∀ k, EntryOk ops rts old res k := by
  induction rts generalizing old with
  | nil => exact ⟨old, rfl, fun k => ⟨fun _ => rfl, fun h => by cases h⟩⟩
  | cons rt rts ih =>
    obtain ⟨route, type, hn⟩ := names_exists rt (h rt (by simp))
    obtain ⟨ps, hp⟩ := split_names hn
    have uniq : ∀ r t, Names rt r t → r = route ∧ t = type := by
      intro r t hn'
      obtain ⟨ps', hp'⟩ := split_names hn'
      rw [hp] at hp'
      simp only [List.cons.injEq] at hp'
      exact ⟨hp'.1.symm, hp'.2.1.symm⟩
    rcases C103_find_by_route_and_type ops route type with ⟨pc, hf, -⟩ | ⟨hf, -⟩
    · obtain ⟨res, h1, h2⟩ := ih (fun x hx => h x (by simp [hx])) (put rt pc old)
      refine ⟨res, by rw [pricesLoop, hp]; simp only [hf]; exact h1, fun k => ⟨?_, ?_⟩⟩
      · intro hk
        rw [List.mem_cons, not_or] at hk
        rw [(h2 k).1 hk.2, get_put, if_neg hk.1]
      · intro hk r t hr
        by_cases hm : k ∈ rts
        · rcases (h2 k).2 hm r t hr with ⟨pc', e1, e2⟩ | ⟨e1, e2⟩
          · exact Or.inl ⟨pc', e1, e2⟩
          · by_cases hkr : k = rt
            · subst hkr
              obtain ⟨rfl, rfl⟩ := uniq r t hr
              rw [hf] at e2; cases e2
            · rw [get_put, if_neg hkr] at e1
              exact Or.inr ⟨e1, e2⟩
        · rcases List.mem_cons.1 hk with rfl | hk
          · obtain ⟨rfl, rfl⟩ := uniq r t hr
            refine Or.inl ⟨pc, ?_, hf⟩
            rw [(h2 k).1 hm, get_put, if_pos rfl]
          · exact (hm hk).elim
    · obtain ⟨res, h1, h2⟩ := ih (fun x hx => h x (by simp [hx])) old
      refine ⟨res, by rw [pricesLoop, hp]; simp only [hf]; exact h1, fun k => ⟨?_, ?_⟩⟩
      · intro hk
        rw [List.mem_cons, not_or] at hk
        exact (h2 k).1 hk.2
      · intro hk r t hr
        by_cases hm : k ∈ rts
        · exact (h2 k).2 hm r t hr
        · rcases List.mem_cons.1 hk with rfl | hk
          · obtain ⟨rfl, rfl⟩ := uniq r t hr
            exact Or.inr ⟨(h2 k).1 hm, hf⟩
          · exact (hm hk).elim

/-- `FindByRouteIDsAndTrainTypes`, with a colon in every entry: the result has an entry for each of those for whose route and train
type there is a price configuration, with such a configuration, and no other. -/
theorem C103_find_by_routes_and_types_partial (ops : List (Op F)) (rts : List Name) (h : ∀ rt ∈ rts, ':' ∈ rt) :
    ∃ res, findByRoutesAndTypes (after ops) rts = .ok res ∧
      (∀ k, k ∉ rts → res.lookup k = none) ∧
      ∀ k ∈ rts, ∀ route type, Names k route type →
        (∃ pc, res.lookup k = some pc ∧ table ops pc.id = some pc ∧ pc.routeID = route ∧ pc.trainType = type) ∨
        (res.lookup k = none ∧ ∀ pc, table ops pc.id = some pc → ¬ (pc.routeID = route ∧ pc.trainType = type)) := by
  obtain ⟨res, h1, h2⟩ := loop_ok ops rts h []
  refine ⟨res, h1, fun k hk => (h2 k).1 hk, fun k hk route type hn => ?_⟩
  rcases (h2 k).2 hk route type hn with ⟨pc, e1, e2⟩ | ⟨e1, e2⟩
  · rcases C103_find_by_route_and_type ops route type with ⟨t, hf, h3, h4, h5⟩ | ⟨hf, -⟩
    · rw [hf] at e2; cases e2
      exact Or.inl ⟨pc, e1, h3, h4, h5⟩
    · rw [hf] at e2; cases e2
  · rcases C103_find_by_route_and_type ops route type with ⟨t, hf, -⟩ | ⟨-, hf⟩
    · rw [hf] at e2; cases e2
    · exact Or.inr ⟨e1, hf⟩

/-- An entry without a colon is not ignored and does not give an error: the call panics. -/
theorem C103_find_by_routes_and_types_refuted (ops : List (Op F)) (rts : List Name) (h : ∃ rt ∈ rts, ':' ∉ rt) :
    findByRoutesAndTypes (after ops) rts = .panic := by
  unfold findByRoutesAndTypes
  generalize ([] : List (Name × PriceConfig F)) = old
  induction rts generalizing old with
  | nil => obtain ⟨_, h, _⟩ := h; cases h
  | cons rt rts ih =>
    by_cases hc : ':' ∈ rt
    · have ht : ∃ rt ∈ rts, ':' ∉ rt := by
        obtain ⟨x, hx, hn⟩ := h
        rcases List.mem_cons.1 hx with rfl | hx
        · exact (hn hc).elim
        · exact ⟨x, hx, hn⟩
      obtain ⟨route, type, hn⟩ := names_exists rt hc
      obtain ⟨ps, hp⟩ := split_names hn
      rw [pricesLoop, hp]
      rcases C103_find_by_route_and_type ops route type with ⟨pc, hf, -⟩ | ⟨hf, -⟩
      · simp only [hf]; exact ih ht _
      · simp only [hf]; exact ih ht _
    · rw [pricesLoop, split_no _ _ hc]

end Prices

/-! ### C104: food -/
namespace TrainFoods

theorem keyed : KeyField (trainFoods (F := F)) TrainFood.tripID fTripid :=
  fun s => Codec.asks_str (by plain) (by decide) (fun _ => rfl) s

theorem create_eq {docs : List (Doc F)} {m : Table (TrainFood F)} (h : Shows trainFoods TrainFood.tripID docs m)
    (tf : TrainFood F) (newId : Nat) :
    ∃ docs', create docs tf newId = (docs', .ok tf) ∧ Shows trainFoods TrainFood.tripID docs' (m.put tf.tripID tf) := by
  rw [create, h.one trainFoods_ok keyed]
  cases hm : m tf.tripID with
  | none =>
    obtain ⟨docs', h1, h2⟩ := h.insert trainFoods_ok tf hm newId
    exact ⟨docs', by simp [onOk, h1, andReturn], h2⟩
  | some _ =>
    obtain ⟨docs', h1, h2⟩ := h.upserted trainFoods_ok keyed tf newId
    refine ⟨docs', ?_, h2⟩
    simp [onOk, h1, hm, mustReplace]

theorem shows_step (docs : List (Doc F)) (m : Table (TrainFood F)) (op : Op F) (h : Shows trainFoods TrainFood.tripID docs m) :
    Shows trainFoods TrainFood.tripID (step docs op) (effect m op) := by
  cases op with
  | create c i =>
    obtain ⟨docs', h1, h2⟩ := create_eq h c i
    simpa [step, effect, h1] using h2
  | cleanup =>
    obtain ⟨docs', h1, h2⟩ := h.clean trainFoods_ok
    simpa [step, effect, cleanup, h1] using h2

theorem shows (ops : List (Op F)) : Shows (trainFoods (F := F)) TrainFood.tripID (after ops) (table ops) :=
  Shows.history shows_step ops

/-- `ListTrainFoodByTripID` returns the food of the last `CreateTrainFood` for the trip since the last `Cleanup`, and an error if there
is none. -/
theorem C104_by_trip (ops : List (Op F)) (trip : Name) :
    listByTrip (after ops) trip = answer ((table ops trip).map TrainFood.foods) := by
  rw [listByTrip, (shows ops).one trainFoods_ok keyed]
  cases table ops trip <;> rfl

/-- `CreateTrainFood` and `Cleanup` always succeed. -/
theorem C104_train_write (ops : List (Op F)) (tf : TrainFood F) (newId : Nat) :
    (create (after ops) tf newId).2 = .ok tf ∧ (cleanup (F := F) (after ops)).2 = .ok () := by
  obtain ⟨_, h1, -⟩ := create_eq (shows ops) tf newId
  obtain ⟨_, h2, -⟩ := (shows ops).clean trainFoods_ok
  exact ⟨by rw [h1], by rw [cleanup, h2]⟩

/-- `ListTrainFood` returns the food of every trip once and nothing else. -/
theorem C104_list_trains (ops : List (Op F)) :
    ∃ l, list (after ops) = .ok l ∧ Lists TrainFood.tripID (table ops) (fun _ => True) l := by
  obtain ⟨l, h1, h2⟩ := (shows ops).many trainFoods_ok (Codec.asks_all _)
  exact ⟨l, h1, h2.distinct, fun t => by simpa using h2.mem t⟩

end TrainFoods

namespace FoodStores

theorem keyed : KeyField (foodStores (F := F)) FoodStore.id fId :=
  fun s => Codec.asks_str (by plain) (by decide) (fun _ => rfl) s

theorem shows_step (docs : List (Doc F)) (m : Table (FoodStore F)) (op : Op F) (h : Shows foodStores FoodStore.id docs m) :
    Shows foodStores FoodStore.id (step docs op) (effect m op) := by
  cases op with
  | create c i =>
    simp only [step, effect, create, h.one foodStores_ok keyed]
    cases hm : m c.id with
    | some _ => exact h
    | none =>
      obtain ⟨docs', h1, h2⟩ := h.insert foodStores_ok c hm i
      simpa [onOk, h1] using h2
  | cleanup =>
    obtain ⟨docs', h1, h2⟩ := h.clean foodStores_ok
    simpa [step, effect, cleanup, h1] using h2

theorem shows (ops : List (Op F)) : Shows (foodStores (F := F)) FoodStore.id (after ops) (table ops) :=
  Shows.history shows_step ops

/-- `GetFoodStoreByID` returns the store with that id as the calls before left it, and an error if they left none. -/
theorem C104_store (ops : List (Op F)) (id : Name) : getByID (after ops) id = answer (table ops id) := by
  rw [getByID, (shows ops).one foodStores_ok keyed]
  cases table ops id <;> rfl

/-- `CreateFoodStore` fails exactly if there is a store with that id; `Cleanup` always succeeds. -/
theorem C104_store_write (ops : List (Op F)) (store : FoodStore F) (newId : Nat) :
    (create (after ops) store newId).2 = (if (table ops store.id).isSome then .error else .ok ()) ∧
    (cleanup (F := F) (after ops)).2 = .ok () := by
  obtain ⟨_, h2, -⟩ := (shows ops).clean foodStores_ok
  refine ⟨?_, by rw [cleanup, h2]⟩
  rw [create, (shows ops).one foodStores_ok keyed]
  cases hm : table ops store.id with
  | some _ => rfl
  | none =>
    obtain ⟨docs', h1, -⟩ := (shows ops).insert foodStores_ok store hm newId
    simp [onOk, h1]

/-- `ListFoodStores`, `ListFoodStoresByStationName` and `GetFoodStoresByStationNames` return exactly the stores, those at the station
and those at one of the stations, each once. -/
theorem C104_list_stores (ops : List (Op F)) (station : Name) (stations : List Name) :
    (∃ l, list (after ops) = .ok l ∧ Lists FoodStore.id (table ops) (fun _ => True) l) ∧
    (∃ l, listByStation (after ops) station = .ok l ∧ Lists FoodStore.id (table ops) (fun s => s.stationName = station) l) ∧
    ∃ l, listByStations (after ops) stations = .ok l ∧ Lists FoodStore.id (table ops) (fun s => s.stationName ∈ stations) l := by
  obtain ⟨l1, h1, g1⟩ := (shows ops).many foodStores_ok (Codec.asks_all _)
  obtain ⟨l2, h2, g2⟩ := (shows ops).many foodStores_ok
    (Codec.asks_str (k := fStationname) (get := FoodStore.stationName) (by plain) (by decide) (fun _ => rfl) station)
  obtain ⟨l3, h3, g3⟩ := (shows ops).many foodStores_ok
    (Codec.asks_in (k := fStationname) (get := FoodStore.stationName) (by plain) (by decide) (fun _ => rfl) stations [])
  refine ⟨⟨l1, h1, g1.distinct, fun t => by simpa using g1.mem t⟩, ⟨l2, h2, g2.distinct, fun t => ?_⟩,
    ⟨l3, h3, g3.distinct, fun t => by simpa using g3.mem t⟩⟩
  rw [g2.mem t, beq_iff_eq, eq_comm (a := station)]

end FoodStores
end Verif.Trains
