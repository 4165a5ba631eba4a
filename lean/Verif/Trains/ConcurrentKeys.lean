import Verif.Trains.Concurrent
/-
C137: methods that look a key up before they insert, at the same time.
-/
set_option linter.unusedSectionVars false
namespace Verif.Trains
open Verif.NoSQL (Name Doc Value Host Codec Ret deleteOne deleteMany)
variable {F : Type} [Host F] {S R α β T : Type}

theorem Together.trans {s s' s'' : S} {ps qs us : List (Prog S R)} (h : Together s ps s' qs) (h' : Together s' qs s'' us) :
    Together s ps s'' us := by
  induction h with
  | none => exact h'
  | call a b f k s s' ps' _ ih => exact .call a b f k s s'' us (ih h')

/-- The program only reads until it is at `q`. -/
def Reaches (s : S) (p q : Prog S R) : Prop := ∀ a b, Together s (a ++ p :: b) s (a ++ q :: b)

theorem Reaches.refl (s : S) (p : Prog S R) : Reaches s p p := fun _ _ => .none _ _

theorem reaches_coll {s : S} {k q : Prog S R} (h : Reaches s k q) : Reaches s (coll k) q :=
  fun a b => .call a b _ _ s s _ (h a b)

theorem reaches_reading {s : S} {f : S → Ret β} {k : β → Prog S R} {x : β} {q : Prog S R} (hf : f s = .ok x) (h : Reaches s (k x) q) :
    Reaches s (reading f k) q := fun a b => .call a b _ _ s s _ (by simp only [hf]; exact h a b)

/-- Two methods that have both not found a document, and insert one. -/
theorem both_insert {c : Codec F T} {s : List (Doc F)} {l : List T} (hs : Holds c s l) (ok : c.Ok) {p q : Prog (List (Doc F)) R}
    {t u : T} {i j : Nat} {k m : Ret Unit → Prog (List (Doc F)) R} {r : Ret R} (hk : k (.ok ()) = .ret r) (hm : m (.ok ()) = .ret r)
    (hp : Reaches s p (.call (insert c · t i) k)) (hq : Reaches s q (.call (insert c · u j) m)) :
    ∃ s', Together s [p, q] s' [.ret r, .ret r] ∧ Holds c s' (l ++ [t, u]) := by
  obtain ⟨s1, e1, h1⟩ := hs.insert ok t i
  obtain ⟨s2, e2, h2⟩ := h1.insert ok u j
  refine ⟨s2, (hp [] [q]).trans ((hq [_] []).trans ?_), by simpa using h2⟩
  refine .call [] _ _ _ s _ _ ?_
  simp only [e1, hk, List.nil_append]
  refine .call [.ret r] [] _ _ s1 _ _ ?_
  simp only [e2, hm]
  exact .none _ _

namespace Configs

/-- Two calls of `Create` with the same new name at the same time may both succeed: there are then two configurations of that name. -/
theorem C137_create_refuted (ops : List Op) (c d : Config) (i j : Nat) (h : table ops c.name = none) (he : d.name = c.name) :
    ∃ s l, Together (after (F := F) ops) [createP c i, createP d j] s [.ret (.ok ()), .ret (.ok ())] ∧
      findAll (after (F := F) ops) = .ok l ∧ findAll s = .ok (l ++ [c, d]) := by
  have hs := shows (F := F) ops
  have hl : ∀ e : Config, e.name = c.name → (configs.rows (after (F := F) ops)).find? (fun t => e.name == t.name) = none := by
    intro e he
    have := hs.look e.name
    rw [he, h] at this
    rw [he]; exact this
  have hh : Holds configs (after (F := F) ops) _ := ⟨hs.rows, rfl⟩
  obtain ⟨s, h1, h2⟩ := both_insert hh configs_ok (R := Unit) (r := .ok ()) (t := c) (u := d) (i := i) (j := j)
    (p := createP c i) (q := createP d j) (k := .ret) (m := .ret) rfl rfl
    (reaches_coll (reaches_reading (x := none) (by rw [hh.one configs_ok (keyed c.name), hl c rfl]) (.refl _ _)))
    (reaches_coll (reaches_reading (x := none) (by rw [hh.one configs_ok (keyed d.name), hl d he]) (.refl _ _)))
  exact ⟨s, _, h1, hh.all configs_ok, h2.all configs_ok⟩

end Configs

namespace Stations

/-- `CreateStation` with the same new id, twice at the same time. -/
theorem C137_create_refuted (ops : List Op) (c d : Station) (i j : Nat) (h : table ops c.id = none) (he : d.id = c.id) :
    ∃ s l, Together (after (F := F) ops) [createP c i, createP d j] s [.ret (.ok ()), .ret (.ok ())] ∧
      many stations (after (F := F) ops) [] = .ok l ∧ many stations s [] = .ok (l ++ [c, d]) := by
  have hs := shows (F := F) ops
  have hl : ∀ e : Station, e.id = c.id → (stations.rows (after (F := F) ops)).find? (fun t => e.id == t.id) = none := by
    intro e he
    have := hs.look e.id
    rw [he, h] at this
    rw [he]; exact this
  have hh : Holds stations (after (F := F) ops) _ := ⟨hs.rows, rfl⟩
  obtain ⟨s, h1, h2⟩ := both_insert hh stations_ok (R := Unit) (r := .ok ()) (t := c) (u := d) (i := i) (j := j)
    (p := createP c i) (q := createP d j) (k := .ret) (m := .ret) rfl rfl
    (reaches_coll (reaches_reading (x := none) (by rw [hh.one stations_ok (keyed c.id), hl c rfl]) (.refl _ _)))
    (reaches_coll (reaches_reading (x := none) (by rw [hh.one stations_ok (keyed d.id), hl d he]) (.refl _ _)))
  exact ⟨s, _, h1, hh.all stations_ok, h2.all stations_ok⟩

end Stations

namespace FoodStores

/-- `CreateFoodStore` with the same new id, twice at the same time. -/
theorem C137_create_refuted (ops : List (Op F)) (c d : FoodStore F) (i j : Nat) (h : table ops c.id = none) (he : d.id = c.id) :
    ∃ s l, Together (after ops) [createP c i, createP d j] s [.ret (.ok ()), .ret (.ok ())] ∧
      list (after ops) = .ok l ∧ list s = .ok (l ++ [c, d]) := by
  have hs := shows ops
  have hl : ∀ e : FoodStore F, e.id = c.id → (foodStores.rows (after ops)).find? (fun t => e.id == t.id) = none := by
    intro e he
    have := hs.look e.id
    rw [he, h] at this
    rw [he]; exact this
  have hh : Holds foodStores (after ops) _ := ⟨hs.rows, rfl⟩
  obtain ⟨s, h1, h2⟩ := both_insert hh foodStores_ok (R := Unit) (r := .ok ()) (t := c) (u := d) (i := i) (j := j)
    (p := createP c i) (q := createP d j) (k := .ret) (m := .ret) rfl rfl
    (reaches_coll (reaches_reading (x := none) (by rw [hh.one foodStores_ok (keyed c.id), hl c rfl]) (.refl _ _)))
    (reaches_coll (reaches_reading (x := none) (by rw [hh.one foodStores_ok (keyed d.id), hl d he]) (.refl _ _)))
  exact ⟨s, _, h1, hh.all foodStores_ok, h2.all foodStores_ok⟩

end FoodStores

namespace TrainFoods

/-- `CreateTrainFood` for the same new trip, twice at the same time: the trip has two lists of food from then on, where the second was to
replace the first. -/
theorem C137_create_refuted (ops : List (Op F)) (c : TrainFood F) (i j : Nat) (h : table ops c.tripID = none) :
    ∃ s l, Together (after ops) [createP c i, createP c j] s [.ret (.ok c), .ret (.ok c)] ∧
      list (after ops) = .ok l ∧ list s = .ok (l ++ [c, c]) := by
  have hs := shows ops
  have hl : (trainFoods.rows (after ops)).find? (fun t => c.tripID == t.tripID) = none := by
    have := hs.look c.tripID
    rw [h] at this
    exact this
  have hh : Holds trainFoods (after ops) _ := ⟨hs.rows, rfl⟩
  obtain ⟨s, h1, h2⟩ := both_insert hh trainFoods_ok (R := TrainFood F) (r := .ok c) (t := c) (u := c) (i := i) (j := j)
    (p := createP c i) (q := createP c j) (k := orErr fun () => .ret (.ok c)) (m := orErr fun () => .ret (.ok c)) rfl rfl
    (reaches_coll (reaches_reading (x := none) (by rw [hh.one trainFoods_ok (keyed c.tripID), hl]) (.refl _ _)))
    (reaches_coll (reaches_reading (x := none) (by rw [hh.one trainFoods_ok (keyed c.tripID), hl]) (.refl _ _)))
  exact ⟨s, _, h1, hh.all trainFoods_ok, h2.all trainFoods_ok⟩

end TrainFoods

namespace Prices

/-- `CreateNewPriceConfig` with the same new id, twice at the same time. -/
theorem C137_create_refuted (ops : List (Op F)) (c d : PriceConfig F) (i j : Nat) (h : table ops c.id = none) (he : d.id = c.id) :
    ∃ s l, Together (after ops) [createP c i, createP d j] s [.ret (.ok ()), .ret (.ok ())] ∧
      getAll (after ops) = .ok l ∧ getAll s = .ok (l ++ [c, d]) := by
  have hs := shows ops
  have hl : ∀ e : PriceConfig F, e.id = c.id → (priceConfigs.rows (after ops)).find? (fun t => e.id == t.id) = none := by
    intro e he
    have := hs.look e.id
    rw [he, h] at this
    rw [he]; exact this
  have hh : Holds priceConfigs (after ops) _ := ⟨hs.rows, rfl⟩
  have hr : ∀ (e : PriceConfig F) (n : Nat), e.id = c.id → Reaches (after ops) (createP e n) (last (insert priceConfigs · e n)) := by
    intro e n he
    refine reaches_coll fun a b => .call a b _ _ _ _ _ ?_
    refine .call a b _ _ _ _ _ ?_
    simp only [hh.one priceConfigs_ok (keyed e.id), hl e he]
    exact .none _ _
  obtain ⟨s, h1, h2⟩ := both_insert hh priceConfigs_ok (R := Unit) (r := .ok ()) (t := c) (u := d) (i := i) (j := j)
    (p := createP c i) (q := createP d j) (k := .ret) (m := .ret) rfl rfl (hr c i rfl) (hr d j he)
  exact ⟨s, _, h1, hh.all priceConfigs_ok, h2.all priceConfigs_ok⟩

end Prices

namespace Trains

/-- `Create` of train types with the same new name, twice at the same time. -/
theorem C137_create_refuted (ops : List Op) (c d : TrainType) (i j : Nat) (h : ∀ t ∈ stored ops, t.name ≠ c.name) (he : d.name = c.name) :
    ∃ s, Together (after (F := F) ops) [createP c i, createP d j] s [.ret (.ok true), .ret (.ok true)] ∧
      allTrains s = .ok (stored ops ++ [c, d]) := by
  have hh := holds (F := F) ops
  have hl : ∀ e : TrainType, e.name = c.name → (stored ops).find? (fun t => decide (t.name = e.name)) = none := by
    intro e he
    rw [List.find?_eq_none]
    intro t ht
    rw [he]
    simpa using h t ht
  obtain ⟨s, h1, h2⟩ := both_insert hh trainTypes_ok (R := Bool) (r := .ok true) (t := c) (u := d) (i := i) (j := j)
    (p := createP c i) (q := createP d j) (k := orErr fun () => .ret (.ok true)) (m := orErr fun () => .ret (.ok true)) rfl rfl
    (reaches_coll (reaches_reading (x := none) (by rw [hh.one trainTypes_ok (byName c.name), hl c rfl]) (.refl _ _)))
    (reaches_coll (reaches_reading (x := none) (by rw [hh.one trainTypes_ok (byName d.name), hl d he]) (.refl _ _)))
  refine ⟨s, h1, ?_⟩
  rw [allTrains, h2.all trainTypes_ok]
  cases hst : stored ops <;> rfl

end Trains

namespace Contacts

/-- `CreateContacts` with the same new document of the same account, twice at the same time. -/
theorem C137_create_refuted (ops : List Op) (c d : Contact) (i j : Nat) (h : ∀ t ∈ stored ops, ¬ Same c t) (he : Same c d) :
    ∃ s, Together (after (F := F) ops) [createP c i, createP d j] s [.ret (.ok ()), .ret (.ok ())] ∧
      getAll s = .ok (stored ops ++ [c, d]) := by
  have hh := holds (F := F) ops
  have hl : ∀ e : Contact, Same c e → (stored ops).find? (fun t => decide (Same e t)) = none := by
    intro e he
    rw [List.find?_eq_none]
    intro t ht h'
    refine h t ht ?_
    have h' : Same e t := by simpa using h'
    exact ⟨he.1.trans h'.1, he.2.1.trans h'.2.1, he.2.2.trans h'.2.2⟩
  obtain ⟨s, h1, h2⟩ := both_insert hh contacts_ok (R := Unit) (r := .ok ()) (t := c) (u := d) (i := i) (j := j)
    (p := createP c i) (q := createP d j) (k := .ret) (m := .ret) rfl rfl
    (reaches_coll (reaches_reading (x := none) (by rw [hh.one contacts_ok (same c), hl c ⟨rfl, rfl, rfl⟩]) (.refl _ _)))
    (reaches_coll (reaches_reading (x := none) (by rw [hh.one contacts_ok (same d), hl d he]) (.refl _ _)))
  exact ⟨s, h1, h2.all contacts_ok⟩

end Contacts

/-! ### Different keys -/

section different
variable (c : Codec F T) (key : T → Name) (q : T → Doc F) (k : T × Nat → Option T → Prog (List (Doc F)) Unit)

/-- Where a method that creates an entry is. -/
def phase (x : T × Nat) : Nat → Prog (List (Doc F)) Unit
  | 0 => coll (reading (one c · (q x.1)) (k x))
  | 1 => reading (one c · (q x.1)) (k x)
  | 2 => last (insert c · x.1 x.2)
  | _ => .ret (.ok ())

theorem creates {c : Codec F T} {key : T → Name} {q : T → Doc F} {k : T × Nat → Option T → Prog (List (Doc F)) Unit}
    (ok : c.Ok) (asks : ∀ t, c.Asks (q t) fun u => key t == key u) (hk : ∀ x, k x none = last (insert c · x.1 x.2))
    {s s' : List (Doc F)} {ps qs : List (Prog (List (Doc F)) Unit)} (h : Together s ps s' qs) {rs : List (Ret Unit)} (hr : qs = rs.map .ret)
    (xs : List ((T × Nat) × Nat)) (hp : ps = xs.map fun x => phase c q k x.1 x.2) {l : List T} (hs : Holds c s l)
    (hn : ∀ x ∈ xs, x.2 < 3 → ∀ t ∈ l, key t ≠ key x.1.1) (hd : (xs.map fun x => key x.1.1).Nodup) :
    rs = xs.map (fun _ => .ok ()) ∧ ∃ l', Holds c s' (l ++ l') ∧ l'.Perm ((xs.filter fun x => x.2 < 3).map fun x => x.1.1) := by
  induction h generalizing xs l with
  | none s ps =>
    subst hp
    have : ∀ (xs : List ((T × Nat) × Nat)) (rs : List (Ret Unit)), (xs.map fun x => phase c q k x.1 x.2) = rs.map .ret →
        rs = xs.map (fun _ => .ok ()) ∧ xs.filter (fun x => x.2 < 3) = [] := by
      intro xs
      induction xs with
      | nil => intro rs h; cases rs with
        | nil => exact ⟨rfl, rfl⟩
        | cons _ _ => cases h
      | cons x xs ih =>
        intro rs h
        cases rs with
        | nil => cases h
        | cons r rs =>
          simp only [List.map_cons, List.cons.injEq] at h
          obtain ⟨h1, h2⟩ := h
          obtain ⟨e1, e2⟩ := ih rs h2
          obtain ⟨x, n⟩ := x
          match n, h1 with
          | n + 3, h1 =>
            cases h1
            exact ⟨by rw [e1]; rfl, by simp [e2]⟩
    obtain ⟨e1, e2⟩ := this xs rs hr
    exact ⟨e1, [], by simpa using hs, by rw [e2]; exact .nil⟩
  | call a b f g s s' qs _ ih =>
    obtain ⟨xa, xr, rfl, h1, h2⟩ := List.map_eq_append_iff.1 hp.symm
    obtain ⟨x, xb, rfl, h3, h4⟩ := List.map_eq_cons_iff.1 h2
    subst h1 h4
    obtain ⟨x, n⟩ := x
    have others : ∀ m, m ≤ 2 → n ≤ 2 → ∀ y ∈ xa ++ (x, m) :: xb, y.2 < 3 → ∀ t ∈ l, key t ≠ key y.1.1 := by
      intro m _ hn' y hy h3
      rcases List.mem_append.1 hy with hy | hy
      · exact hn y (List.mem_append.2 (.inl hy)) h3
      · rcases List.mem_cons.1 hy with rfl | hy
        · exact hn (x, n) (by simp) (by show n < 3; omega)
        · exact hn y (by simp [hy]) h3
    have same : ∀ m, ((xa ++ (x, m) :: xb).map fun x => key x.1.1).Nodup := by
      intro m; simpa using hd
    match n, h3 with
    | 0, h3 =>
      cases h3
      have := ih hr (xa ++ (x, 1) :: xb) (by simp [phase, orErr]) hs (others 1 (by omega) (by omega)) (same 1)
      simpa using this
    | 1, h3 =>
      cases h3
      have hnone : l.find? (fun u => key x.1 == key u) = none := by
        rw [List.find?_eq_none]
        intro t ht h'
        exact hn (x, 1) (by simp) (by show 1 < 3; decide) t ht (by simpa using (eq_of_beq h').symm)
      have := ih hr (xa ++ (x, 2) :: xb) (by simp [phase, orErr, hs.one ok (asks x.1), hnone, hk]) hs
        (others 2 (by omega) (by omega)) (same 2)
      simpa using this
    | 2, h3 =>
      cases h3
      obtain ⟨s1, e1, h1⟩ := hs.insert ok x.1 x.2
      simp only [e1] at ih
      have hd' : ∀ y, y ∈ xa ∨ y ∈ xb → key x.1 ≠ key y.1.1 := by
        intro y hy he
        simp only [List.map_append, List.map_cons, List.nodup_append, List.nodup_cons, List.mem_map, List.mem_cons] at hd
        rcases hy with hy | hy
        · exact hd.2.2 _ ⟨y, hy, rfl⟩ _ (.inl rfl) he.symm
        · exact hd.2.1.1 ⟨y, hy, he.symm⟩
      obtain ⟨e, l', h2, h3⟩ := ih hr (xa ++ (x, 3) :: xb) (by simp [phase]) h1 (by
        intro y hy h3 t ht
        have hy' : y ∈ xa ∨ y ∈ xb := by
          rcases List.mem_append.1 hy with hy | hy
          · exact .inl hy
          · rcases List.mem_cons.1 hy with rfl | hy
            · exact absurd (show 3 < 3 from h3) (by decide)
            · exact .inr hy
        rcases List.mem_append.1 ht with ht | ht
        · refine hn y ?_ h3 t ht
          rcases hy' with hy | hy <;> simp [hy]
        · obtain rfl := List.mem_singleton.1 ht
          exact hd' y hy') (same 3)
      refine ⟨by simpa using e, x.1 :: l', by simpa using h2, ?_⟩
      simp only [List.filter_append, List.filter_cons, List.map_append] at h3 ⊢
      simp at h3 ⊢
      exact (h3.cons x.1).trans List.perm_middle.symm
    | n + 3, h3 => cases h3

/-- From the start: all methods have been called and none has used the database yet. -/
theorem creates_all {c : Codec F T} {key : T → Name} {q : T → Doc F} {k : T × Nat → Option T → Prog (List (Doc F)) Unit}
    (ok : c.Ok) (asks : ∀ t, c.Asks (q t) fun u => key t == key u) (hk : ∀ x, k x none = last (insert c · x.1 x.2))
    {s s' : List (Doc F)} (xs : List (T × Nat)) {rs : List (Ret Unit)}
    (h : Together s (xs.map fun x => coll (reading (one c · (q x.1)) (k x))) s' (rs.map .ret)) {l : List T} (hs : Holds c s l)
    (hn : ∀ x ∈ xs, l.find? (fun u => key x.1 == key u) = none) (hd : (xs.map fun x => key x.1).Nodup) :
    rs = xs.map (fun _ => .ok ()) ∧ ∃ l', Holds c s' (l ++ l') ∧ l'.Perm (xs.map (·.1)) := by
  obtain ⟨e, l', h1, h2⟩ := creates ok asks hk h rfl (xs.map fun x => (x, 0)) (by simp [phase]) hs (by
    intro y hy _ t ht he
    obtain ⟨x, hx, rfl⟩ := List.mem_map.1 hy
    have := List.find?_eq_none.1 (hn x hx) t ht
    exact this (by simp [he])) (by simpa [Function.comp_def] using hd)
  refine ⟨by simpa [Function.comp_def] using e, l', h1, ?_⟩
  have : (xs.map fun x => ((x, 0) : (T × Nat) × Nat)).filter (fun x => x.2 < 3) = xs.map fun x => (x, 0) :=
    List.filter_eq_self.2 fun y hy => by
      obtain ⟨x, _, rfl⟩ := List.mem_map.1 hy
      exact decide_eq_true (show 0 < 3 by decide)
  rw [this] at h2
  simpa [Function.comp_def] using h2

end different

namespace Configs

/-- Calls of `Create` at the same time, with names that differ from each other and are all new: all succeed, and all the configurations are
there, once each. -/
theorem C137_create_partial (ops : List Op) (xs : List (Config × Nat)) {s : List (Doc F)} {rs : List (Ret Unit)}
    (hn : ∀ x ∈ xs, table ops x.1.name = none) (hd : (xs.map fun x => x.1.name).Nodup)
    (h : Together (after (F := F) ops) (xs.map fun x => createP x.1 x.2) s (rs.map .ret)) :
    rs = xs.map (fun _ => .ok ()) ∧
      ∃ l l', findAll (after (F := F) ops) = .ok l ∧ findAll s = .ok (l ++ l') ∧ l'.Perm (xs.map (·.1)) := by
  have hs := shows (F := F) ops
  have hh : Holds configs (after (F := F) ops) _ := ⟨hs.rows, rfl⟩
  obtain ⟨e, l', h1, h2⟩ := creates_all configs_ok (fun t : Config => keyed t.name) (fun _ => rfl) xs h hh (fun x hx => by
    have := hs.look x.1.name
    rw [hn x hx] at this
    exact this) hd
  exact ⟨e, _, l', hh.all configs_ok, h1.all configs_ok, h2⟩

end Configs

namespace Stations

/-- The same for `CreateStation`. -/
theorem C137_create_partial (ops : List Op) (xs : List (Station × Nat)) {s : List (Doc F)} {rs : List (Ret Unit)}
    (hn : ∀ x ∈ xs, table ops x.1.id = none) (hd : (xs.map fun x => x.1.id).Nodup)
    (h : Together (after (F := F) ops) (xs.map fun x => createP x.1 x.2) s (rs.map .ret)) :
    rs = xs.map (fun _ => .ok ()) ∧
      ∃ l l', many stations (after (F := F) ops) [] = .ok l ∧ many stations s [] = .ok (l ++ l') ∧ l'.Perm (xs.map (·.1)) := by
  have hs := shows (F := F) ops
  have hh : Holds stations (after (F := F) ops) _ := ⟨hs.rows, rfl⟩
  obtain ⟨e, l', h1, h2⟩ := creates_all stations_ok (fun t : Station => keyed t.id) (fun _ => rfl) xs h hh (fun x hx => by
    have := hs.look x.1.id
    rw [hn x hx] at this
    exact this) hd
  exact ⟨e, _, l', hh.all stations_ok, h1.all stations_ok, h2⟩

end Stations

namespace FoodStores

/-- The same for `CreateFoodStore`. -/
theorem C137_create_partial (ops : List (Op F)) (xs : List (FoodStore F × Nat)) {s : List (Doc F)} {rs : List (Ret Unit)}
    (hn : ∀ x ∈ xs, table ops x.1.id = none) (hd : (xs.map fun x => x.1.id).Nodup)
    (h : Together (after ops) (xs.map fun x => createP x.1 x.2) s (rs.map .ret)) :
    rs = xs.map (fun _ => .ok ()) ∧
      ∃ l l', list (after ops) = .ok l ∧ list s = .ok (l ++ l') ∧ l'.Perm (xs.map (·.1)) := by
  have hs := shows ops
  have hh : Holds foodStores (after ops) _ := ⟨hs.rows, rfl⟩
  obtain ⟨e, l', h1, h2⟩ := creates_all foodStores_ok (fun t : FoodStore F => keyed t.id) (fun _ => rfl) xs h hh (fun x hx => by
    have := hs.look x.1.id
    rw [hn x hx] at this
    exact this) hd
  exact ⟨e, _, l', hh.all foodStores_ok, h1.all foodStores_ok, h2⟩

end FoodStores

namespace Stations

/-- C137 refuted: a lookup of several keys is several lookups.  `FindByIDs` with an id twice, at the same time as `UpdateStation` for that id,
may return the old station and the new one; on its own it never does (`C137_lookup_alone`). -/
theorem C137_lookup_refuted (ops : List Op) (old new : Station) (h : table ops old.id = some old) (he : new.id = old.id) (i : Nat) :
    ∃ s, Together (after (F := F) ops) [findByIDsP [] [old.id, old.id], (updateP new i).bind fun _ => .ret (.ok [])] s
      [.ret (.ok [old, new]), .ret (.ok [])] := by
  have hs := shows (F := F) ops
  have h1 : one stations (after (F := F) ops) [(fId, .str old.id)] = .ok (some old) := by rw [hs.one stations_ok keyed, h]
  obtain ⟨s, e, h2⟩ := hs.upserted stations_ok keyed new i
  have h3 : one stations s [(fId, .str old.id)] = .ok (some new) := by
    rw [h2.one stations_ok keyed, ← he]
    simp [Table.put]
  refine ⟨s, .call [] _ _ _ _ _ _ (.call [] _ _ _ _ _ _ ?_)⟩
  simp only [h1]
  refine .call [_] _ _ _ _ _ _ (.call [_] _ _ _ _ _ _ ?_)
  simp only [e]
  refine .call [] _ _ _ _ _ _ (.call [] _ _ _ _ _ _ ?_)
  simp only [h3]
  exact .none _ _

/-- C137: on its own, `FindByIDs` with an id twice returns the same station twice, whatever is stored. -/
theorem C137_lookup_alone (s : List (Doc F)) (id : Name) (a b : Station) (h : ((findByIDsP [] [id, id]).run works s).2 = .ok [a, b]) : a = b := by
  have hr : ∀ l, (findByIDsP (F := F) l [id, id]).run works s = match one stations s [(fId, .str id)] with
      | .ok (some t) => (s, .ok (l ++ [t] ++ [t]))
      | .panic => (s, .panic)
      | _ => (s, .ok (l ++ [zero] ++ [zero] ++ [zero] ++ [zero])) := by
    intro l
    simp only [findByIDsP, findByIDP, finding, coll, reading, Prog.bind, Prog.run, works, orErr]
    cases ho : one stations s [(fId, .str id)] with
    | ok o => cases o <;> simp [orAbsent, Prog.bind, Prog.run, orErr, ho]
    | _ => simp [Prog.bind, Prog.run, orErr, ho]
  rw [hr] at h
  revert h
  cases one stations s [(fId, .str id)] with
  | ok o =>
    cases o with
    | none => intro h; simp at h
    | some t => intro h; simp at h; rw [← h.1, ← h.2]
  | error => intro h; simp at h
  | panic => intro h; simp at h

end Stations

namespace Payments

/-- C137 refuted: `InitPayment` with the same new id, twice at the same time: both payments are stored. -/
theorem C137_init_refuted (v : Service) (ops : List Op) (p q : Payment) (i j : Nat) (h : ∀ u ∈ (stored v ops).1, u.id ≠ p.id) (he : q.id = p.id) :
    ∃ s l, Together (after (F := F) v ops) [initPaymentP v p i, initPaymentP v q j] s [.ret (.ok ()), .ret (.ok ())] ∧
      query v (after (F := F) v ops) = .ok l ∧ query v s = .ok (l ++ [p, q]) := by
  have hs := ok (F := F) v ops
  have hf : ∀ e : Payment, e.id = p.id → one payments ((after (F := F) v ops) v.paymentDB).payment [(fId, .str e.id)] = .ok none := by
    intro e he
    rw [hs.pays.one payments_ok (byId e.id)]
    congr 1
    rw [List.find?_eq_none]
    intro u hu
    simpa [he] using h u hu
  obtain ⟨d1, e1, h1⟩ := hs.pays.insert payments_ok p i
  obtain ⟨d2, e2, h2⟩ := h1.insert payments_ok q j
  generalize after (F := F) v ops = s0 at hs hf e1 ⊢
  have o1 : onPayment v.paymentDB (insert payments · p i) s0 = (s0.set v.paymentDB { s0 v.paymentDB with payment := d1 }, .ok ()) := by
    simp only [onPayment, e1]
  generalize hs1 : s0.set v.paymentDB { s0 v.paymentDB with payment := d1 } = s1 at o1
  have hd : (s1 v.paymentDB).payment = d1 := by rw [← hs1, set_same]
  have o2 : onPayment v.paymentDB (insert payments · q j) s1 = (s1.set v.paymentDB { s1 v.paymentDB with payment := d2 }, .ok ()) := by
    simp only [onPayment, hd, e2]
  refine ⟨s1.set v.paymentDB { s1 v.paymentDB with payment := d2 }, (stored v ops).1, .call [] _ _ _ _ _ _ (.call [] _ _ _ _ _ _ ?_),
    hs.pays.all payments_ok, ?_⟩
  · simp only [hf p rfl]
    refine .call [_] _ _ _ _ _ _ (.call [_] _ _ _ _ _ _ ?_)
    simp only [hf q he]
    refine .call [] _ _ _ _ _ _ ?_
    simp only [o1]
    refine .call [_] _ _ _ _ _ _ ?_
    simp only [o2]
    exact .none _ _
  · have := h2.all payments_ok
    rw [query, set_same]
    simpa using this
end Payments

namespace Consign

/-- C137 refuted: the first two calls of `CreateAndModifyPriceConfig` at the same time: both succeed and both configurations are stored,
although one call after the other would leave one. -/
theorem C137_set_refuted (a b : ConsignPrice F) (i j : Nat) : ∃ s : List (Doc F),
    Together [] [setP a i, setP b j] s [.ret (.ok { a with index := 0 }), .ret (.ok { b with index := 0 })] ∧
      many consignPrices s [] = .ok [{ a with index := 0 }, { b with index := 0 }] := by
  have h0 : Holds (consignPrices (F := F)) [] [] := Holds.nil
  obtain ⟨d1, e1, h1⟩ := h0.insert consignPrices_ok { a with index := 0 } i
  obtain ⟨d2, e2, h2⟩ := h1.insert consignPrices_ok { b with index := 0 } j
  refine ⟨d2, .call [] _ _ _ _ _ _ (.call [] _ _ _ _ _ _ ?_), h2.all consignPrices_ok⟩
  refine .call [_] _ _ _ _ _ _ (.call [_] _ _ _ _ _ _ ?_)
  refine .call [] _ _ _ _ _ _ ?_
  simp only [e1]
  refine .call [_] _ _ _ _ _ _ ?_
  simp only [e2]
  exact .none _ _

end Consign

namespace Assurances

/-- C137 refuted: `Modify` and `DeleteById` of the same assurance at the same time: `DeleteById` succeeds and `Modify` returns an error, and
afterwards the modified assurance is stored. One call after the other, in either order, leaves none. -/
theorem C137_modify_refuted (k : Kinds F) (ops : List (Op F)) (a : Assurance F) (i : Nat)
    (h : (stored k ops).countP (fun u => u.id = a.id) = 1) : ∃ s : List (Doc F),
    Together (after k ops) [modifyP a i, (deleteByIdP a.id).bind (orErr fun () => .ret (.ok a))] s [.ret .error, .ret (.ok a)] ∧
      findById s a.id = .ok a := by
  have hs : Holds assurances (after k ops) (stored k ops) := holds k ops
  have hx : ∃ b, (stored k ops).find? (fun u => decide (u.id = a.id)) = some b := by
    obtain ⟨t, ht, hp⟩ := List.countP_pos_iff.1 (by rw [h]; exact Nat.one_pos)
    exact Option.isSome_iff_exists.1 (List.find?_isSome.2 ⟨t, ht, hp⟩)
  obtain ⟨b, hb⟩ := hx
  have h1 := hs.one assurances_ok (byId a.id)
  rw [hb] at h1
  obtain ⟨d1, e1, hd1⟩ := hs.delete assurances_ok (byId a.id)
  have hn := remove_last (fun u : Assurance F => decide (u.id = a.id)) (stored k ops) (Nat.le_of_eq h)
  obtain ⟨d2, e2, hd2⟩ := hd1.upserted assurances_ok (byId a.id) a i
  have ha : (removeFirst (fun u : Assurance F => decide (u.id = a.id)) (stored k ops)).any (fun u => decide (u.id = a.id)) = false := by
    rw [any_find, hn]; rfl
  rw [ha] at e2
  rw [replaceOrAdd, ha] at hd2
  refine ⟨d2, .call [] _ _ _ _ _ _ (.call [] _ _ _ _ _ _ ?_), ?_⟩
  · simp only [h1]
    refine .call [_] _ _ _ _ _ _ (.call [_] _ _ _ _ _ _ ?_)
    simp only [e1]
    refine .call [] _ _ _ _ _ _ (.call [] _ _ _ _ _ _ ?_)
    simp only [e2]
    exact .none _ _
  · rw [findById, hd2.one assurances_ok (byId a.id)]
    simp [hn, found]

/-- One call after the other, in either order: none is stored afterwards. -/
theorem C137_modify_alone (k : Kinds F) (ops : List (Op F)) (a : Assurance F) (i : Nat)
    (h : (stored k ops).countP (fun u => u.id = a.id) = 1) :
    findById (after k (ops ++ [.modify a i, .deleteById a.id])) a.id = .error ∧
      findById (after k (ops ++ [.deleteById a.id, .modify a i])) a.id = .error := by
  have hr : ∀ l : List (Assurance F), (replaceFirst (fun u => decide (u.id = a.id)) a l).countP (fun u => decide (u.id = a.id)) =
      l.countP (fun u => decide (u.id = a.id)) := by
    intro l
    induction l with
    | nil => rfl
    | cons b l ih =>
      rw [replaceFirst]
      by_cases hb : b.id = a.id
      · simp [hb]
      · simp [hb, ih]
  have h1 := remove_last (fun u : Assurance F => decide (u.id = a.id)) (replaceFirst (fun u => decide (u.id = a.id)) a (stored k ops))
    (by rw [hr]; exact Nat.le_of_eq h)
  have h2 := remove_last (fun u : Assurance F => decide (u.id = a.id)) (stored k ops) (Nat.le_of_eq h)
  constructor
  · have hs := holds k (ops ++ [.modify a i, .deleteById a.id])
    rw [findById, hs.one assurances_ok (byId a.id), stored, List.foldl_append]
    simp only [List.foldl_cons, List.foldl_nil, effect]
    exact congrArg (fun x => found (.ok x)) h1
  · have hs := holds k (ops ++ [.deleteById a.id, .modify a i])
    rw [findById, hs.one assurances_ok (byId a.id), stored, List.foldl_append]
    simp only [List.foldl_cons, List.foldl_nil, effect]
    have h3 : ∀ l : List (Assurance F), l.find? (fun u => decide (u.id = a.id)) = none →
        (replaceFirst (fun u => decide (u.id = a.id)) a l).find? (fun u => decide (u.id = a.id)) = none := by
      intro l hl
      rw [← Option.isNone_iff_eq_none, ← Option.not_isSome, Bool.not_eq_true', ← any_find, List.any_eq_false] at *
      intro x hx
      have hc : 0 < (replaceFirst (fun u => decide (u.id = a.id)) a l).countP (fun u => decide (u.id = a.id)) ∨ ¬ x.id = a.id := by
        by_cases he : x.id = a.id
        · exact .inl (List.countP_pos_iff.2 ⟨x, hx, by simpa using he⟩)
        · exact .inr he
      rcases hc with hc | hc
      · rw [hr] at hc
        obtain ⟨y, hy, hp⟩ := List.countP_pos_iff.1 hc
        exact absurd hp (hl y hy)
      · simpa using hc
    exact congrArg (fun x => found (.ok x)) (h3 _ h2)

end Assurances

namespace Routes

/-- C137 refuted: `CreateAndModify` of a route with a new id of at least 32 characters, twice at the same time: both calls succeed and the
route is stored twice. -/
theorem C137_create_refuted (ops : List Op) (hf : Fresh ops) (info : Info) (stations : List Name) (ds : List Int)
    (hs : IsPieces info.stationList stations) (hd : IsNumbers info.distanceList ds) (hl : stations.length = ds.length)
    (hi : 32 ≤ info.id.length) (h : table F ops info.id = none) (u v : Name) (i j : Nat) :
    ∃ s l r, Together (after (F := F) ops) [createAndModifyP info u i, createAndModifyP info v j] s [.ret (.ok r), .ret (.ok r)] ∧
      r.id = info.id ∧ many routes (after (F := F) ops) [] = .ok l ∧ getAll s = .ok (l ++ [r, r]) := by
  have hh := shows (F := F) ops hf
  have hr : Holds routes (after (F := F) ops) _ := ⟨hh.rows, rfl⟩
  have hn : one routes (after (F := F) ops) [(fId, .str info.id)] = .ok none := by
    rw [hh.one routes_ok keyed, h]
  have e2 : distances (Prices.split ',' info.distanceList) = some ds := by
    rw [split_pieces _ _ hd.1, distances_render _ hd.2]
  have hp : ∀ (w : Name) (n : Nat), Reaches (after (F := F) ops) (createAndModifyP info w n)
      (writing (insert routes · ⟨info.id, stations, ds, info.startStation, info.endStation⟩ n)
        ⟨info.id, stations, ds, info.startStation, info.endStation⟩) := by
    intro w n
    unfold createAndModifyP
    refine reaches_coll ?_
    have hi' : ¬ (info.id = [] ∨ info.id.length < 32) := by
      rintro (h | h)
      · rw [h] at hi; cases hi
      · omega
    simp only [e2, split_pieces _ _ hs, hl, ne_eq, not_true_eq_false, if_false, if_neg hi']
    exact reaches_reading hn (.refl _ _)
  obtain ⟨s, h1, h2⟩ := both_insert hr routes_ok (R := Route)
    (r := .ok ⟨info.id, stations, ds, info.startStation, info.endStation⟩)
    (k := orErr fun () => .ret (.ok ⟨info.id, stations, ds, info.startStation, info.endStation⟩))
    (m := orErr fun () => .ret (.ok ⟨info.id, stations, ds, info.startStation, info.endStation⟩)) rfl rfl (hp u i) (hp v j)
  refine ⟨s, _, _, h1, rfl, hr.all routes_ok, ?_⟩
  rw [getAll, h2.all routes_ok]
  simp

end Routes

end Verif.Trains
