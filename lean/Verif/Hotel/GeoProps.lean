import Verif.Hotel.GeoSpec
import Verif.Hotel.WebProps
/-
C132: searches for nearby hotels, restaurants, museums and cinemas.
-/
namespace Verif.Hotel.Geo

/-! ### The index -/

section
variable {K P F : Type} [DecidableEq K] {pid : P → Name} {ok : Nat → Bool}

theorem put_mem {o : P} : ∀ {m : List P}, (m.map pid).Nodup → ∀ p, p ∈ put pid o m ↔ p = o ∨ (p ∈ m ∧ pid p ≠ pid o)
  | [], _, p => by simp [put]
  | q :: m, hn, p => by
    have hn' := List.nodup_cons.1 hn
    unfold put
    split
    · next h =>
      simp only [List.mem_cons]
      constructor
      · rintro (rfl | hp)
        · exact .inl rfl
        · refine .inr ⟨.inr hp, fun e => hn'.1 ?_⟩
          exact List.mem_map.2 ⟨p, hp, e.trans h.symm⟩
      · rintro (rfl | ⟨rfl | hp, hne⟩)
        · exact .inl rfl
        · exact absurd h hne
        · exact .inr hp
    · next h =>
      rw [List.mem_cons, put_mem hn'.2, List.mem_cons]
      constructor
      · rintro (rfl | rfl | ⟨hp, hne⟩)
        · exact .inr ⟨.inl rfl, h⟩
        · exact .inl rfl
        · exact .inr ⟨.inr hp, hne⟩
      · rintro (rfl | ⟨rfl | hp, hne⟩)
        · exact .inr (.inl rfl)
        · exact .inl rfl
        · exact .inr (.inr ⟨hp, hne⟩)

theorem put_nodup {o : P} : ∀ {m : List P}, (m.map pid).Nodup → ((put pid o m).map pid).Nodup
  | [], _ => by simp [put]
  | q :: m, hn => by
    have hn' := List.nodup_cons.1 hn
    unfold put
    split
    · next h =>
      rw [List.map_cons, List.nodup_cons]
      exact ⟨h ▸ hn'.1, hn'.2⟩
    · next h =>
      rw [List.map_cons, List.nodup_cons]
      refine ⟨fun hq => ?_, put_nodup hn'.2⟩
      obtain ⟨p, hp, e⟩ := List.mem_map.1 hq
      rcases (put_mem hn'.2 p).1 hp with rfl | ⟨hp, -⟩
      · exact h e.symm
      · exact hn'.1 (List.mem_map.2 ⟨p, hp, e⟩)

theorem latest_concat {docs : List P} {o p : P} : Latest pid (docs ++ [o]) p ↔ p = o ∨ (Latest pid docs p ∧ pid p ≠ pid o) := by
  constructor
  · rintro ⟨a, b, e, h⟩
    rcases List.eq_nil_or_concat b with rfl | ⟨b', x, rfl⟩
    · have := List.append_inj_right' e rfl
      injection this with this
      exact .inl this.symm
    · rw [List.concat_eq_append] at e h
      rw [← List.cons_append, ← List.append_assoc] at e
      have e1 := List.append_inj_left' e rfl
      have e2 := List.append_inj_right' e rfl
      injection e2 with e2
      subst e2
      exact .inr ⟨⟨a, b', e1, fun q hq => h q (by simp [hq])⟩, fun e => h o (by simp) e.symm⟩
  · rintro (rfl | ⟨⟨a, b, rfl, h⟩, hne⟩)
    · exact ⟨docs, [], rfl, nofun⟩
    · refine ⟨a, b ++ [o], by simp, fun q hq => ?_⟩
      rcases List.mem_append.1 hq with hq | hq
      · exact h q hq
      · rw [List.mem_singleton.1 hq]
        exact fun e => hne e.symm

theorem index_spec (docs : List P) : ((index pid docs).map pid).Nodup ∧ ∀ p, p ∈ index pid docs ↔ Latest pid docs p := by
  induction hl : docs.length generalizing docs with
  | zero =>
    cases docs with
    | nil => exact ⟨by simp [index], fun o => ⟨nofun, fun ⟨a, b, e, _⟩ => by simp at e⟩⟩
    | cons => simp at hl
  | succ n ih =>
    rcases List.eq_nil_or_concat docs with rfl | ⟨ds, x, rfl⟩
    · simp at hl
    · rw [List.concat_eq_append] at *
      obtain ⟨h1, h2⟩ := ih ds (by simp at hl; exact hl)
      have e : index pid (ds ++ [x]) = put pid x (index pid ds) := by simp [index, List.foldl_append]
      rw [e]
      refine ⟨put_nodup h1, fun o => ?_⟩
      rw [put_mem h1, h2, latest_concat]

theorem latest_append (docs extra : List P) (p : P) :
    Latest pid (docs ++ extra) p ↔ Latest pid extra p ∨ (Latest pid docs p ∧ ∀ q ∈ extra, pid q ≠ pid p) := by
  induction hl : extra.length generalizing extra with
  | zero =>
    cases extra with
    | nil =>
      have : ¬ Latest pid [] p := fun ⟨a, b, e, _⟩ => by simp at e
      simp [this]
    | cons => simp at hl
  | succ n ih =>
    rcases List.eq_nil_or_concat extra with rfl | ⟨ds, x, rfl⟩
    · simp at hl
    · rw [List.concat_eq_append] at *
      rw [← List.append_assoc, latest_concat, latest_concat, ih ds (by simp at hl; exact hl)]
      simp only [List.mem_append, List.mem_singleton]
      constructor
      · rintro (rfl | ⟨h | ⟨h, hq⟩, hne⟩)
        · exact .inl (.inl rfl)
        · exact .inl (.inr ⟨h, hne⟩)
        · refine .inr ⟨h, ?_⟩
          rintro q (h' | rfl)
          · exact hq q h'
          · exact fun e => hne e.symm
      · rintro ((rfl | ⟨h, hne⟩) | ⟨h, hq⟩)
        · exact .inl rfl
        · exact .inr ⟨.inl h, hne⟩
        · exact .inr ⟨.inr ⟨h, fun q h' => hq q (.inl h')⟩, fun e => hq x (.inr rfl) e.symm⟩

/-- Documents that are inserted again afterwards make no difference. -/
theorem latest_again (docs junk seeds : List P) (hj : ∀ q ∈ junk, q ∈ seeds) (p : P) :
    Latest pid (docs ++ junk ++ seeds) p ↔ Latest pid (docs ++ seeds) p := by
  rw [latest_append, latest_append, latest_append docs seeds]
  constructor
  · rintro (h | ⟨⟨a, b, e, _⟩ | ⟨h, _⟩, hs⟩)
    · exact .inl h
    · exact absurd rfl (hs p (hj p (by rw [e]; simp)))
    · exact .inr ⟨h, hs⟩
  · rintro (h | ⟨h, hs⟩)
    · exact .inl h
    · exact .inr ⟨.inr ⟨h, fun q hq => hs q (hj q hq)⟩, hs⟩

/-! ### Inserts -/

/-- What a start leaves in the database. -/
theorem insertAll_docs (k : K) : ∀ (ps : List P) (db : Db K P),
    ∃ n, (insertAll ok k ps db).1.docs k = db.docs k ++ ps.take n ∧ (∀ k', k' ≠ k → (insertAll ok k ps db).1.docs k' = db.docs k') ∧
      ((insertAll ok k ps db).2 = true → ps.take n = ps ∧ (insertAll ok k ps db).1.calls = db.calls + ps.length)
  | [], db => ⟨0, by simp [insertAll], fun _ _ => rfl, fun _ => ⟨rfl, rfl⟩⟩
  | p :: ps, db => by
    unfold insertAll
    split
    · obtain ⟨n, h1, h2, h3⟩ := insertAll_docs k ps (db.insert k p)
      refine ⟨n + 1, ?_, ?_, fun h => ?_⟩
      · rw [h1]; simp [Db.insert]
      · intro k' hk
        rw [h2 k' hk]
        simp [Db.insert, hk]
      · obtain ⟨h4, h5⟩ := h3 h
        refine ⟨by simp [h4], ?_⟩
        rw [h5]
        simp only [Db.insert, List.length_cons]
        omega
    · exact ⟨0, by simp [Db.tick], fun _ _ => rfl, nofun⟩

theorem insertAll_ok (k : K) : ∀ (ps : List P) (db : Db K P),
    (insertAll ok k ps db).2 = true ↔ ∀ i, i < ps.length → ok (db.calls + i) = true
  | [], db => by simp [insertAll]
  | p :: ps, db => by
    unfold insertAll
    split
    · next h =>
      rw [insertAll_ok k ps]
      simp only [Db.insert, List.length_cons]
      constructor
      · intro hh i hi
        cases i with
        | zero => exact h
        | succ i => have := hh i (by omega); rw [show db.calls + (i + 1) = db.calls + 1 + i by omega]; exact this
      · intro hh i hi
        have := hh (i + 1) (by omega)
        rw [show db.calls + 1 + i = db.calls + (i + 1) by omega]; exact this
    · next h =>
      refine ⟨nofun, fun hh => absurd (hh 0 (by simp)) h⟩

theorem initGeo_docs (k : K) (seeds : List P) (db : Db K P) :
    ∃ n, (initGeo ok k seeds db).1.docs k = db.docs k ++ seeds.take n ∧ (∀ k', k' ≠ k → (initGeo ok k seeds db).1.docs k' = db.docs k') ∧
      ((initGeo ok k seeds db).2 = true → seeds.take n = seeds ∧ (initGeo ok k seeds db).1.calls = db.calls + 1 + seeds.length) := by
  unfold initGeo
  split
  · exact insertAll_docs k seeds db.tick
  · exact ⟨0, by simp [Db.tick], fun _ _ => rfl, nofun⟩

theorem initGeo_ok (k : K) (seeds : List P) (db : Db K P) :
    (initGeo ok k seeds db).2 = true ↔ ∀ i, i < 1 + seeds.length → ok (db.calls + i) = true := by
  unfold initGeo
  split
  · next h =>
    rw [insertAll_ok]
    simp only [Db.tick]
    constructor
    · intro hh i hi
      cases i with
      | zero => exact h
      | succ i => have := hh i (by omega); rw [show db.calls + (i + 1) = db.calls + 1 + i by omega]; exact this
    · intro hh i hi
      have := hh (i + 1) (by omega)
      rw [show db.calls + 1 + i = db.calls + (i + 1) by omega]; exact this
  · next h => exact ⟨nofun, fun hh => absurd (hh 0 (by omega)) h⟩

/-! ### Hotels -/

theorem newGeo_docs (cut : Nat) (k : K) (seeds : List P) (db : Db K P) :
    ∃ n, (newGeo pid ok cut k seeds db).1.docs k = db.docs k ++ seeds.take n := by
  obtain ⟨n, h, -, -⟩ := initGeo_docs (ok := ok) k seeds db
  refine ⟨n, ?_⟩
  rw [← h]
  unfold newGeo
  match initGeo ok k seeds db with
  | (db', false) => rfl
  | (db', true) =>
    simp only
    unfold newGeoIndex
    split
    · split <;> rfl
    · rfl

theorem geoStarts_docs (cut : Nat) (k : K) (seeds : List P) : ∀ (n : Nat) (db : Db K P),
    ∃ junk, (geoStarts pid ok cut k seeds n db).docs k = db.docs k ++ junk ∧ ∀ q ∈ junk, q ∈ seeds
  | 0, db => ⟨[], by simp [geoStarts], nofun⟩
  | n + 1, db => by
    obtain ⟨m, h⟩ := newGeo_docs (pid := pid) (ok := ok) cut k seeds db
    obtain ⟨junk, h1, h2⟩ := geoStarts_docs cut k seeds n (newGeo pid ok cut k seeds db).1
    refine ⟨seeds.take m ++ junk, ?_, ?_⟩
    · rw [geoStarts, h1, h, List.append_assoc]
    · intro q hq
      rcases List.mem_append.1 hq with hq | hq
      · exact List.mem_of_mem_take hq
      · exact h2 q hq

theorem newGeo_eq (cut : Nat) (k : K) (seeds : List P) (db : Db K P) (h : ∀ i, i < 1 + seeds.length → ok (db.calls + i) = true) :
    let c := db.calls + 1 + seeds.length
    (newGeo pid ok cut k seeds db).2 = some (if ok c && ok (c + 1) then
      some (index pid (if ok (c + 2) then db.docs k ++ seeds else (db.docs k ++ seeds).take cut)) else none) := by
  intro c
  obtain ⟨n, h1, -, h3⟩ := initGeo_docs (ok := ok) k seeds db
  have hok := (initGeo_ok (ok := ok) k seeds db).2 h
  obtain ⟨h4, h5⟩ := h3 hok
  rw [h4] at h1
  unfold newGeo
  generalize initGeo ok k seeds db = r at h1 h5 hok ⊢
  obtain ⟨db', b⟩ := r
  cases b with
  | false => cases hok
  | true =>
    simp only at h1 h5 ⊢
    unfold newGeoIndex
    rw [h5, h1]
    show some (if ok c then _ else _ : Db K P × Option (List P)).2 = _
    cases ok c with
    | false => rfl
    | true =>
      cases hc : ok (c + 1) with
      | false => simp [c] at hc ⊢
      | true => simp [c] at hc ⊢

theorem newGeo_none (cut : Nat) (k : K) (seeds : List P) (db : Db K P) :
    (newGeo pid ok cut k seeds db).2 = none ↔ ¬ ∀ i, i < 1 + seeds.length → ok (db.calls + i) = true := by
  constructor
  · intro h hh
    rw [newGeo_eq cut k seeds db hh] at h
    cases h
  · intro h
    rw [← initGeo_ok (ok := ok) k seeds db] at h
    unfold newGeo
    revert h
    match initGeo ok k seeds db with
    | (db', false) => intro _; rfl
    | (db', true) => intro h; exact absurd rfl h

/-- C132, hotels, in part: the service's constructor succeeds exactly if the collection can be opened and all hotels can be inserted.  If it
succeeds, and the three calls that read the hotels back succeed, then, whatever happened at earlier starts on the same database, Nearby
returns the five nearest within 10 km, of what was in the database before the first start and of the example's hotels, the latter as the
program has them.  Missing: the constructor succeeds although reading fails, see `C132_nil_refuted`. -/
theorem C132_hotels_partial [Number F] {dist : F → F → P → F} {close : F → F → P → Prop} {near : List P → F → F → List P}
    (hnear : FindsNearest pid dist close near) (cut : Nat) (k : K) (seeds : List P) (n : Nat) (first : Db K P) :
    let db := geoStarts pid ok cut k seeds n first
    let r := newGeo pid ok cut k seeds db
    (r.2 = none ↔ ∃ i, i < 1 + seeds.length ∧ ok (db.calls + i) = false) ∧
    ((∀ i, i < seeds.length + 4 → ok (db.calls + i) = true) → ∃ service, r.2 = some service ∧ ∀ lat lon, ∃ out,
      nearbyHotels pid near service lat lon = some (out.map pid) ∧
      Nearest pid (dist lat lon) (close lat lon) 5 (Latest pid (first.docs k ++ seeds)) out) := by
  intro db r
  constructor
  · rw [newGeo_none]
    simp only [Classical.not_forall]
    constructor
    · rintro ⟨i, hi, h⟩; exact ⟨i, hi, by simpa using h⟩
    · rintro ⟨i, hi, h⟩; exact ⟨i, hi, by simp [h]⟩
  · intro hok
    have h := newGeo_eq (pid := pid) (ok := ok) cut k seeds db fun i hi => hok i (by omega)
    have c0 : ok (db.calls + 1 + seeds.length) = true := by
      rw [show db.calls + 1 + seeds.length = db.calls + (seeds.length + 1) by omega]; exact hok _ (by omega)
    have c1 : ok (db.calls + 1 + seeds.length + 1) = true := by
      rw [show db.calls + 1 + seeds.length + 1 = db.calls + (seeds.length + 2) by omega]; exact hok _ (by omega)
    have c2 : ok (db.calls + 1 + seeds.length + 2) = true := by
      rw [show db.calls + 1 + seeds.length + 2 = db.calls + (seeds.length + 3) by omega]; exact hok _ (by omega)
    simp only [c0, c1, c2, Bool.and_self, if_true] at h
    refine ⟨_, h, fun lat lon => ⟨_, rfl, ?_⟩⟩
    obtain ⟨i1, i2⟩ := index_spec (pid := pid) (db.docs k ++ seeds)
    obtain ⟨junk, hj, hs⟩ := geoStarts_docs (pid := pid) (ok := ok) cut k seeds n first
    have N := hnear _ lat lon i1
    have key : ∀ p, p ∈ index pid (db.docs k ++ seeds) ↔ Latest pid (first.docs k ++ seeds) p := by
      intro p
      rw [i2, show db.docs k = first.docs k ++ junk from hj, latest_again _ _ _ hs]
    exact ⟨N.few, N.once, fun p hp => ⟨(key p).1 (N.sound p hp).1, (N.sound p hp).2⟩, N.sorted,
      fun p hp => N.complete p ((key p).2 hp)⟩

/-- C132, refuted: a service that was constructed should answer.  If the hotels were inserted, but opening the collection or the query
afterwards fails, the constructor returns a service without error, and every call of Nearby panics. -/
theorem C132_nil_refuted (near : List P → F → F → List P) (cut : Nat) (k : K) (seeds : List P) (db : Db K P)
    (h : ∀ i, i < 1 + seeds.length → ok (db.calls + i) = true)
    (hf : ok (db.calls + 1 + seeds.length) = false ∨ ok (db.calls + 1 + seeds.length + 1) = false) :
    ∃ service, (newGeo pid ok cut k seeds db).2 = some service ∧ ∀ lat lon, nearbyHotels pid near service lat lon = none := by
  refine ⟨none, ?_, fun _ _ => rfl⟩
  rw [newGeo_eq cut k seeds db h]
  rcases hf with hf | hf <;> simp [hf]

/-- C132, refuted: a service that was constructed should find the hotels.  If reading the query's result fails at its beginning, the
constructor returns a service without error, which finds nothing anywhere. -/
theorem C132_empty_refuted [Number F] {dist : F → F → P → F} {close : F → F → P → Prop} {near : List P → F → F → List P}
    (hnear : FindsNearest pid dist close near) (k : K) (seeds : List P) (db : Db K P)
    (h : ∀ i, i < seeds.length + 3 → ok (db.calls + i) = true) (hf : ok (db.calls + 1 + seeds.length + 2) = false) :
    ∃ service, (newGeo pid ok 0 k seeds db).2 = some service ∧ ∀ lat lon, nearbyHotels pid near service lat lon = some [] := by
  have e := newGeo_eq (pid := pid) (ok := ok) 0 k seeds db fun i hi => h i (by omega)
  have c0 : ok (db.calls + 1 + seeds.length) = true := by
    rw [show db.calls + 1 + seeds.length = db.calls + (seeds.length + 1) by omega]; exact h _ (by omega)
  have c1 : ok (db.calls + 1 + seeds.length + 1) = true := by
    rw [show db.calls + 1 + seeds.length + 1 = db.calls + (seeds.length + 2) by omega]; exact h _ (by omega)
  simp only [c0, c1, hf, Bool.and_self, if_true, List.take_zero, Bool.false_eq_true, if_false] at e
  refine ⟨_, e, fun lat lon => ?_⟩
  have N := hnear (index pid []) lat lon (by simp [index])
  have : near (index pid []) lat lon = [] := by
    rw [List.eq_nil_iff_forall_not_mem]
    intro p hp
    have := (N.sound p hp).1
    simp [index] at this
  simp [nearbyHotels, this]

theorem inj_of_nodup {l : List P} (hn : (l.map pid).Nodup) {p q : P} (hp : p ∈ l) (hq : q ∈ l) (e : pid p = pid q) : p = q := by
  induction l with
  | nil => cases hp
  | cons x l ih =>
    rw [List.map_cons, List.nodup_cons] at hn
    rcases List.mem_cons.1 hp with rfl | hp' <;> rcases List.mem_cons.1 hq with rfl | hq'
    · rfl
    · exact absurd (List.mem_map.2 ⟨q, hq', e.symm⟩) hn.1
    · exact absurd (List.mem_map.2 ⟨p, hp', e⟩) hn.1
    · exact ih hn.2 hp' hq'

theorem latest_seed {docs seeds : List P} (hs : (seeds.map pid).Nodup) {seed p : P} (hm : seed ∈ seeds)
    (hp : Latest pid (docs ++ seeds) p) (e : pid p = pid seed) : p = seed := by
  rcases (latest_append ..).1 hp with ⟨a, b, rfl, -⟩ | ⟨-, h⟩
  · exact inj_of_nodup hs (by simp) hm e
  · exact absurd e.symm (h seed hm)

/-- C132, refuted: a hotel whose place is changed in the database should be found at its new place after the service is started again.  A
start puts every hotel of the example back to where the program has it: searches from where this is too far away do not find it. -/
theorem C132_moved_refuted [Number F] {dist : F → F → P → F} {close : F → F → P → Prop} {near : List P → F → F → List P}
    (hnear : FindsNearest pid dist close near) (cut : Nat) (k : K) {seeds : List P} (hs : (seeds.map pid).Nodup) {db : Db K P}
    (hok : ∀ i, i < seeds.length + 4 → ok (db.calls + i) = true) {docs : List P} {moved seed : P} (hd : db.docs k = docs ++ [moved])
    (hm : seed ∈ seeds) (he : pid moved = pid seed) :
    Latest pid (db.docs k) moved ∧ ∃ service, (newGeo pid ok cut k seeds db).2 = some service ∧
      ∀ lat lon, ¬ close lat lon seed → ∃ ids, nearbyHotels pid near service lat lon = some ids ∧ pid moved ∉ ids := by
  refine ⟨by rw [hd]; exact latest_concat.2 (.inl rfl), ?_⟩
  obtain ⟨service, h1, h2⟩ := (C132_hotels_partial hnear cut k seeds 0 db).2 hok
  refine ⟨service, h1, fun lat lon hc => ?_⟩
  obtain ⟨out, h3, N⟩ := h2 lat lon
  refine ⟨_, h3, fun h => ?_⟩
  obtain ⟨p, hp, e⟩ := List.mem_map.1 h
  obtain ⟨hl, hcl⟩ := N.sound p hp
  rw [latest_seed hs hm hl (e.trans he)] at hcl
  exact hc hcl

/-! ### Attractions -/

/-- The documents that a start inserts. -/
def spotSeeds (rs ms : List P) : Spot → List P
  | .restaurants => rs
  | .museums => ms
  | .cinemas => []

theorem initAttractions_docs (rs ms : List P) (db : Db Spot P) :
    (∀ k, ∃ n, (initAttractions ok rs ms db).1.docs k = db.docs k ++ (spotSeeds rs ms k).take n ∧
      ((initAttractions ok rs ms db).2 = true → (spotSeeds rs ms k).take n = spotSeeds rs ms k)) ∧
    ((initAttractions ok rs ms db).2 = true → (initAttractions ok rs ms db).1.calls = db.calls + (rs.length + ms.length + 3)) ∧
    ((initAttractions ok rs ms db).2 = true ↔ ∀ i, i < rs.length + ms.length + 3 → ok (db.calls + i) = true) := by
  obtain ⟨n1, a1, a2, a3⟩ := initGeo_docs (ok := ok) Spot.restaurants rs db
  have a4 := initGeo_ok (ok := ok) Spot.restaurants rs db
  unfold initAttractions
  generalize initGeo ok Spot.restaurants rs db = r at a1 a2 a3 a4 ⊢
  obtain ⟨d1, b1⟩ := r
  cases b1 with
  | false =>
    simp only at a1 a2 ⊢
    refine ⟨fun k => ?_, nofun, nofun, fun h => absurd (a4.2 fun i hi => h i (by omega)) nofun⟩
    cases k with
    | restaurants => exact ⟨n1, a1, nofun⟩
    | museums => exact ⟨0, by rw [a2 .museums nofun]; simp, nofun⟩
    | cinemas => exact ⟨0, by rw [a2 .cinemas nofun]; simp, nofun⟩
  | true =>
    simp only at a1 a2 ⊢
    obtain ⟨a5, a6⟩ := a3 rfl
    simp only at a6
    have a7 := a4.1 rfl
    obtain ⟨n2, c1, c2, c3⟩ := initGeo_docs (ok := ok) Spot.museums ms d1
    have c4 := initGeo_ok (ok := ok) Spot.museums ms d1
    generalize initGeo ok Spot.museums ms d1 = r at c1 c2 c3 c4 ⊢
    obtain ⟨d2, b2⟩ := r
    rw [a6] at c3 c4
    have shift : ∀ i, db.calls + (1 + rs.length + i) = db.calls + 1 + rs.length + i := by intro i; omega
    cases b2 with
    | false =>
      simp only at c1 c2 ⊢
      refine ⟨fun k => ?_, nofun, nofun, fun h => absurd (c4.2 fun i hi => ?_) nofun⟩
      · cases k with
        | restaurants => exact ⟨n1, by rw [c2 .restaurants nofun]; exact a1, nofun⟩
        | museums => exact ⟨n2, by rw [c1, a2 .museums nofun]; rfl, nofun⟩
        | cinemas => exact ⟨0, by rw [c2 .cinemas nofun, a2 .cinemas nofun]; simp, nofun⟩
      · rw [← shift]; exact h _ (by omega)
    | true =>
      simp only at c1 c2 ⊢
      obtain ⟨c5, c6⟩ := c3 rfl
      simp only at c6
      have c7 := c4.1 rfl
      have e : d2.calls = db.calls + (rs.length + ms.length + 2) := by rw [c6]; omega
      refine ⟨fun k => ?_, fun _ => ?_, fun h i hi => ?_, fun h => ?_⟩
      · cases k with
        | restaurants => exact ⟨n1, by simp only [Db.tick]; rw [c2 .restaurants nofun]; exact a1, fun _ => a5⟩
        | museums => exact ⟨n2, by simp only [Db.tick]; rw [c1, a2 .museums nofun]; rfl, fun _ => c5⟩
        | cinemas => exact ⟨0, by simp only [Db.tick]; rw [c2 .cinemas nofun, a2 .cinemas nofun]; simp, fun _ => rfl⟩
      · simp only [Db.tick]; omega
      · by_cases h1 : i < 1 + rs.length
        · exact a7 i h1
        · by_cases h2 : i < 1 + rs.length + (1 + ms.length)
          · have := c7 (i - (1 + rs.length)) (by omega)
            rw [← shift, show 1 + rs.length + (i - (1 + rs.length)) = i by omega] at this
            exact this
          · rw [show i = rs.length + ms.length + 2 by omega, ← e]
            exact h
      · rw [e]; exact h _ (by omega)

theorem newSpotIndex_eq (k : Spot) (db : Db Spot P) :
    (newSpotIndex pid ok k db).1.docs = db.docs ∧
    ((newSpotIndex pid ok k db).2 ≠ none ↔ ∀ i, i < 3 → ok (db.calls + i) = true) ∧
    (∀ x, (newSpotIndex pid ok k db).2 = some x → x = index pid (db.docs k) ∧ (newSpotIndex pid ok k db).1.calls = db.calls + 3) := by
  have h3 : (∀ i, i < 3 → ok (db.calls + i) = true) ↔ ok db.calls = true ∧ ok (db.calls + 1) = true ∧ ok (db.calls + 2) = true := by
    constructor
    · intro h; exact ⟨h 0 (by omega), h 1 (by omega), h 2 (by omega)⟩
    · rintro ⟨a, b, c⟩ i hi
      match i, hi with
      | 0, _ => exact a
      | 1, _ => exact b
      | 2, _ => exact c
  rw [h3]
  unfold newSpotIndex
  cases ok db.calls with
  | false => exact ⟨rfl, by simp, nofun⟩
  | true =>
    cases ok (db.calls + 1) with
    | false => exact ⟨rfl, by simp, nofun⟩
    | true =>
      cases ok (db.calls + 2) with
      | false => exact ⟨rfl, by simp, nofun⟩
      | true => exact ⟨rfl, by simp, fun x h => by injection h with h; exact ⟨h.symm, rfl⟩⟩

/-- The points of the service. -/
def Spots.of (s : Spots P) : Spot → List P
  | .restaurants => s.restaurants
  | .museums => s.museums
  | .cinemas => s.cinemas

theorem newAttractions_docs (rs ms : List P) (db : Db Spot P) (k : Spot) :
    (newAttractions pid ok rs ms db).1.docs k = (initAttractions ok rs ms db).1.docs k := by
  unfold newAttractions
  match initAttractions ok rs ms db with
  | (d, false) => rfl
  | (d, true) =>
    simp only
    have e1 := (newSpotIndex_eq (pid := pid) (ok := ok) .restaurants d).1
    generalize newSpotIndex pid ok .restaurants d = r1 at e1 ⊢
    obtain ⟨d1, _ | x1⟩ := r1
    · simp only at e1 ⊢; rw [e1]
    · simp only at e1 ⊢
      have e2 := (newSpotIndex_eq (pid := pid) (ok := ok) .museums d1).1
      generalize newSpotIndex pid ok .museums d1 = r2 at e2 ⊢
      obtain ⟨d2, _ | x2⟩ := r2
      · simp only at e2 ⊢; rw [e2, e1]
      · simp only at e2 ⊢
        have e3 := (newSpotIndex_eq (pid := pid) (ok := ok) .cinemas d2).1
        generalize newSpotIndex pid ok .cinemas d2 = r3 at e3 ⊢
        obtain ⟨d3, _ | x3⟩ := r3
        · simp only at e3 ⊢; rw [e3, e2, e1]
        · simp only at e3 ⊢; rw [e3, e2, e1]

theorem newAttractions_eq (rs ms : List P) (db : Db Spot P) :
    ((newAttractions pid ok rs ms db).2 ≠ none ↔ ∀ i, i < rs.length + ms.length + 12 → ok (db.calls + i) = true) ∧
    ∀ s, (newAttractions pid ok rs ms db).2 = some s → ∀ k, s.of k = index pid (db.docs k ++ spotSeeds rs ms k) := by
  obtain ⟨i1, i2, i3⟩ := initAttractions_docs (ok := ok) rs ms db
  unfold newAttractions
  generalize initAttractions ok rs ms db = r at i1 i2 i3 ⊢
  obtain ⟨d, b⟩ := r
  cases b with
  | false => exact ⟨⟨fun h => absurd rfl h, fun h => absurd (i3.2 fun i hi => h i (by omega)) nofun⟩, nofun⟩
  | true =>
    have hd : ∀ k, d.docs k = db.docs k ++ spotSeeds rs ms k := by
      intro k
      obtain ⟨n, h1, h2⟩ := i1 k
      rw [← h2 rfl]
      exact h1
    have i2 := i2 rfl
    have i3 := i3.1 rfl
    simp only at i2 ⊢
    have shift : ∀ j i, db.calls + (rs.length + ms.length + 3) + j + i = db.calls + (rs.length + ms.length + 3 + j + i) := by intros; omega
    obtain ⟨e1, e2, e3⟩ := newSpotIndex_eq (pid := pid) (ok := ok) .restaurants d
    generalize newSpotIndex pid ok .restaurants d = r1 at e1 e2 e3 ⊢
    obtain ⟨d1, _ | x1⟩ := r1
    · refine ⟨⟨fun h => absurd rfl h, fun h => absurd rfl (e2.2 fun i hi => ?_)⟩, nofun⟩
      have := h (rs.length + ms.length + 3 + 0 + i) (by omega)
      rw [← shift] at this
      rw [i2]; exact this
    · obtain ⟨rfl, c1⟩ := e3 _ rfl
      have e2 := e2.1 nofun
      simp only at e1 c1 ⊢
      obtain ⟨f1, f2, f3⟩ := newSpotIndex_eq (pid := pid) (ok := ok) .museums d1
      generalize newSpotIndex pid ok .museums d1 = r2 at f1 f2 f3 ⊢
      obtain ⟨d2, _ | x2⟩ := r2
      · refine ⟨⟨fun h => absurd rfl h, fun h => absurd rfl (f2.2 fun i hi => ?_)⟩, nofun⟩
        have := h (rs.length + ms.length + 3 + 3 + i) (by omega)
        rw [← shift] at this
        rw [c1, i2]; exact this
      · obtain ⟨rfl, c2⟩ := f3 _ rfl
        have f2 := f2.1 nofun
        simp only at f1 c2 ⊢
        obtain ⟨g1, g2, g3⟩ := newSpotIndex_eq (pid := pid) (ok := ok) .cinemas d2
        generalize newSpotIndex pid ok .cinemas d2 = r3 at g1 g2 g3 ⊢
        obtain ⟨d3, _ | x3⟩ := r3
        · refine ⟨⟨fun h => absurd rfl h, fun h => absurd rfl (g2.2 fun i hi => ?_)⟩, nofun⟩
          have := h (rs.length + ms.length + 3 + 6 + i) (by omega)
          rw [← shift] at this
          rw [c2, c1, i2]; exact this
        · obtain ⟨rfl, c3⟩ := g3 _ rfl
          have g2 := g2.1 nofun
          refine ⟨⟨fun _ i hi => ?_, nofun⟩, fun s hs k => ?_⟩
          · by_cases h1 : i < rs.length + ms.length + 3
            · exact i3 i h1
            · rw [show db.calls + i = d.calls + (i - (rs.length + ms.length + 3)) by omega]
              by_cases h2 : i < rs.length + ms.length + 6
              · exact e2 _ (by omega)
              · rw [show d.calls + (i - (rs.length + ms.length + 3)) = d1.calls + (i - (rs.length + ms.length + 6)) by omega]
                by_cases h3 : i < rs.length + ms.length + 9
                · exact f2 _ (by omega)
                · rw [show d1.calls + (i - (rs.length + ms.length + 6)) = d2.calls + (i - (rs.length + ms.length + 9)) by omega]
                  exact g2 _ (by omega)
          · injection hs with hs
            subst hs
            cases k with
            | restaurants => simp only [Spots.of]; rw [hd]
            | museums => simp only [Spots.of]; rw [e1, hd]
            | cinemas => simp only [Spots.of]; rw [f1, e1, hd]

theorem spotStarts_docs (rs ms : List P) : ∀ (n : Nat) (db : Db Spot P) (k : Spot),
    ∃ junk, (spotStarts pid ok rs ms n db).docs k = db.docs k ++ junk ∧ ∀ q ∈ junk, q ∈ spotSeeds rs ms k
  | 0, db, k => ⟨[], by simp [spotStarts], nofun⟩
  | n + 1, db, k => by
    obtain ⟨m, h, -⟩ := (initAttractions_docs (ok := ok) rs ms db).1 k
    obtain ⟨junk, h1, h2⟩ := spotStarts_docs rs ms n (newAttractions pid ok rs ms db).1 k
    refine ⟨(spotSeeds rs ms k).take m ++ junk, ?_, ?_⟩
    · rw [spotStarts, h1, newAttractions_docs, h, List.append_assoc]
    · intro q hq
      rcases List.mem_append.1 hq with hq | hq
      · exact List.mem_of_mem_take hq
      · exact h2 q hq

/-- C132, attractions: the service's constructor succeeds exactly if none of its calls of the database fails.  If it succeeds, then, whatever
happened at earlier starts on the same database, searches for restaurants, museums and cinemas return the five nearest within 10 km, of what
was in the collection before the first start and of the example's attractions, the latter as the program has them. -/
theorem C132_attractions [Number F] {dist : F → F → P → F} {close : F → F → P → Prop} {near : List P → F → F → List P}
    (hnear : FindsNearest pid dist close near) (rs ms : List P) (n : Nat) (first : Db Spot P) :
    let db := spotStarts pid ok rs ms n first
    let r := newAttractions pid ok rs ms db
    (r.2 = none ↔ ∃ i, i < rs.length + ms.length + 12 ∧ ok (db.calls + i) = false) ∧
    ∀ service, r.2 = some service → ∀ lat lon,
      Nearest pid (dist lat lon) (close lat lon) 5 (Latest pid (first.docs .restaurants ++ rs)) (nearbySpots near service .restaurants lat lon) ∧
      Nearest pid (dist lat lon) (close lat lon) 5 (Latest pid (first.docs .museums ++ ms)) (nearbySpots near service .museums lat lon) ∧
      Nearest pid (dist lat lon) (close lat lon) 5 (Latest pid (first.docs .cinemas)) (nearbySpots near service .cinemas lat lon) := by
  intro db r
  obtain ⟨h1, h2⟩ := newAttractions_eq (pid := pid) (ok := ok) rs ms db
  constructor
  · constructor
    · intro e
      apply Classical.byContradiction
      intro hn
      refine (h1.2 fun i hi => ?_) e
      apply Classical.byContradiction
      intro hf
      exact hn ⟨i, hi, by simpa using hf⟩
    · rintro ⟨i, hi, hf⟩
      apply Classical.byContradiction
      intro hn
      have := h1.1 hn i hi
      rw [hf] at this
      cases this
  · intro service hs lat lon
    have key : ∀ k, Nearest pid (dist lat lon) (close lat lon) 5 (Latest pid (first.docs k ++ spotSeeds rs ms k)) (near (service.of k) lat lon) := by
      intro k
      rw [h2 service hs k]
      obtain ⟨i1, i2⟩ := index_spec (pid := pid) (db.docs k ++ spotSeeds rs ms k)
      obtain ⟨junk, hj, hq⟩ := spotStarts_docs (pid := pid) (ok := ok) rs ms n first k
      have N := hnear _ lat lon i1
      have key : ∀ p, p ∈ index pid (db.docs k ++ spotSeeds rs ms k) ↔ Latest pid (first.docs k ++ spotSeeds rs ms k) p := by
        intro p
        rw [i2, show db.docs k = first.docs k ++ junk from hj, latest_again _ _ _ hq]
      exact ⟨N.few, N.once, fun p hp => ⟨(key p).1 (N.sound p hp).1, (N.sound p hp).2⟩, N.sorted,
        fun p hp => N.complete p ((key p).2 hp)⟩
    refine ⟨key .restaurants, key .museums, ?_⟩
    have := key .cinemas
    rwa [show first.docs .cinemas ++ spotSeeds rs ms .cinemas = first.docs .cinemas from List.append_nil _] at this

end

/-! ### A search that finds the nearest -/

/-- The five nearest that are close, by sorting. -/
def search {P : Type} (dist : P → Nat) (radius : Nat) (pts : List P) : List P :=
  ((pts.filter fun p => decide (dist p ≤ radius)).mergeSort fun p q => decide (dist p ≤ dist q)).take 5

instance : Number Nat := ⟨fun a b => decide (a < b), 0, 0⟩

theorem search_nearest {P : Type} (pid : P → Name) (dist : P → Nat) (radius : Nat) (pts : List P) (hn : (pts.map pid).Nodup) :
    Nearest pid dist (fun p => dist p ≤ radius) 5 (· ∈ pts) (search dist radius pts) := by
  have sorted : ((pts.filter fun p => decide (dist p ≤ radius)).mergeSort fun p q => decide (dist p ≤ dist q)).Pairwise
      fun p q => decide (dist p ≤ dist q) = true :=
    List.pairwise_mergeSort (fun a b c h1 h2 => by simp at *; omega) (fun a b => by simp; omega) _
  have perm := List.mergeSort_perm (pts.filter fun p => decide (dist p ≤ radius)) fun p q => decide (dist p ≤ dist q)
  unfold search
  generalize (pts.filter fun p => decide (dist p ≤ radius)).mergeSort (fun p q => decide (dist p ≤ dist q)) = l at sorted perm
  have mem : ∀ p, p ∈ l ↔ p ∈ pts ∧ dist p ≤ radius := by
    intro p; rw [perm.mem_iff, List.mem_filter]; simp
  have nd : (l.map pid).Nodup := by
    rw [(perm.map pid).nodup_iff]
    exact List.Nodup.sublist (List.filter_sublist.map pid) hn
  refine ⟨by rw [List.length_take]; omega, ?_, ?_, ?_, ?_⟩
  · exact List.Nodup.sublist ((List.take_sublist _ _).map pid) nd
  · intro p hp
    exact (mem p).1 (List.mem_of_mem_take hp)
  · refine List.Pairwise.imp (fun h => ?_) (List.Pairwise.sublist (List.take_sublist 5 l) sorted)
    simp [Number.lt] at *
    exact h
  · intro p h1 h2
    have hp := (mem p).2 ⟨h1, h2⟩
    rw [← List.take_append_drop 5 l] at hp
    rcases List.mem_append.1 hp with hp | hp
    · exact .inl hp
    · refine .inr ⟨?_, fun q hq => ?_⟩
      · rw [List.length_take]
        have : l.drop 5 ≠ [] := fun e => by rw [e] at hp; cases hp
        have : 5 < l.length := by
          apply Classical.byContradiction
          intro h
          exact this (List.drop_eq_nil_of_le (by omega))
        omega
      · rw [← List.take_append_drop 5 l, List.pairwise_append] at sorted
        have := sorted.2.2 q hq p hp
        simp [Number.lt] at *
        exact this

/-- Places on a line. -/
def lineDist (lat _ : Nat) (p : Name × Nat) : Nat := (lat - p.2) + (p.2 - lat)

theorem line_finds : FindsNearest (F := Nat) (·.1) lineDist (fun lat lon p => lineDist lat lon p ≤ 10)
    (fun pts lat lon => search (lineDist lat lon) 10 pts) :=
  fun pts lat lon hn => search_nearest (·.1) (lineDist lat lon) 10 pts hn

/-- The identifiers of the example's documents are different. -/
example : hotelIds.Nodup ∧ hotelIds.length = 80 ∧ spotIds.Nodup ∧ spotIds.length = 6 := by decide +kernel

/-- The example's hotels, one kilometre apart. -/
def lineHotels : List (Name × Nat) := hotelIds.mapIdx fun i n => (n, i + 1)

example : (lineHotels.map (·.1)).Nodup ∧ lineHotels.length = 80 := by decide +kernel

/-- A hotel 99 was in the database before; hotel 4 had been moved to 90.  The first start failed at its 20th insert, the second one succeeded;
the index is as after one start. -/
example :
    let first : Db Unit (Name × Nat) := ⟨fun _ => [("99".toList, 2), ("4".toList, 90)], 0⟩
    let ok := fun i => i != 20
    let db := geoStarts (·.1) ok 0 () lineHotels 1 first
    (newGeo (·.1) ok 0 () lineHotels first).2 = none ∧ (db.docs ()).length = 21 ∧
    (newGeo (·.1) ok 0 () lineHotels db).2.map (Option.map fun m => (m.length, m.take 4)) =
      some (some (81, [("99".toList, 2), ("4".toList, 4), ("1".toList, 1), ("2".toList, 2)])) := by
  decide +kernel

/-- So that searches give what the theorem says. -/
example : ∃ service, (newGeo (·.1) (fun _ => true) 0 () lineHotels (⟨fun _ => [("99".toList, 2)], 0⟩ : Db Unit (Name × Nat))).2 = some service ∧
    ∀ lat lon, ∃ out, nearbyHotels (F := Nat) (·.1) (fun pts lat lon => search (lineDist lat lon) 10 pts) service lat lon = some (out.map (·.1)) ∧
      Nearest (·.1) (lineDist lat lon) (fun p => lineDist lat lon p ≤ 10) 5 (Latest (·.1) ([("99".toList, 2)] ++ lineHotels)) out :=
  (C132_hotels_partial line_finds 0 () lineHotels 0 ⟨fun _ => [("99".toList, 2)], 0⟩).2 fun _ _ => rfl

/-- Reading fails: a service that panics, and one that finds nothing. -/
example :
    let first : Db Unit (Name × Nat) := ⟨fun _ => [], 0⟩
    (newGeo (·.1) (fun i => i != 82) 0 () lineHotels first).2 = some none ∧ (newGeo (·.1) (fun i => i != 83) 0 () lineHotels first).2 = some (some []) := by
  decide +kernel

/-- Attractions: 24 calls, and each has to succeed. -/
example :
    let first : Db Spot (Name × Nat) := ⟨fun | .cinemas => [("7".toList, 5)] | _ => [], 0⟩
    let seeds := spotIds.mapIdx fun i n => (n, i + 1)
    (newAttractions (·.1) (fun i => i != 23) seeds seeds first).2.isNone = true ∧
    (newAttractions (·.1) (fun i => i != 24) seeds seeds first).2.map (fun s => (s.restaurants, s.museums, s.cinemas)) =
      some (seeds, seeds, [("7".toList, 5)]) := by
  decide +kernel

end Verif.Hotel.Geo
