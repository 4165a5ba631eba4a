import Verif.Trains.Data
/-
Lemmas: storing and reading back, and lists used as tables.
-/
set_option linter.unusedSectionVars false
namespace Verif.Trains
open Verif.NoSQL
variable {F : Type}

private theorem back {α β : Type} (f : α → β) (g : β → α) (h : ∀ a, g (f a) = a) (l : List α) : (l.map f).map g = l := by
  induction l with
  | nil => rfl
  | cons a l ih => rw [List.map_cons, List.map_cons, h, ih]

theorem foods_back [Host F] (l : List (Food F)) :
    ((l.map fun f => Value.doc (foods.enc f)).map fun v => foods.dec (docOf v)) = l := back _ _ (fun _ => rfl) l

theorem strs_back (l : List Name) : (l.map Value.str).map (strOf (F := F)) = l := back _ _ (fun _ => rfl) l

theorem ints_back (l : List Int) : (l.map (Value.int .int64)).map (intOf (F := F)) = l := back _ _ (fun _ => rfl) l

theorem configs_ok [Host F] : (configs (F := F)).Ok := by
  refine ⟨fun t => ?_, fun t n => ?_, fun t => ?_⟩
  · rfl
  · rfl
  · show kId ∉ [fName, fValue, fDescription]
    decide

theorem stations_ok [Host F] : (stations (F := F)).Ok := by
  refine ⟨fun t => ?_, fun t n => ?_, fun t => ?_⟩
  · rfl
  · rfl
  · show kId ∉ [fId, fName, fStaytime]
    decide

theorem trainTypes_ok [Host F] : (trainTypes (F := F)).Ok := by
  refine ⟨fun t => ?_, fun t n => ?_, fun t => ?_⟩
  · rfl
  · rfl
  · show kId ∉ [fId, fName, fEconomyclass, fComfortclass, fAvgspeed]
    decide

theorem priceConfigs_ok [Host F] : (priceConfigs (F := F)).Ok := by
  refine ⟨fun t => ?_, fun t n => ?_, fun t => ?_⟩
  · rfl
  · rfl
  · show kId ∉ [fId, fTraintype, fRouteid, fBasicpricerate, fFirstclasspricerate]
    decide

theorem foods_ok [Host F] : (foods (F := F)).Ok := by
  refine ⟨fun t => ?_, fun t n => ?_, fun t => ?_⟩
  · rfl
  · rfl
  · show kId ∉ [fName, fPrice]
    decide

theorem trainFoods_ok [Host F] : (trainFoods (F := F)).Ok := by
  refine ⟨fun t => ?_, fun t n => ?_, fun t => ?_⟩
  · show (⟨t.id, t.tripID, (t.foods.map fun f => Value.doc (foods.enc f)).map fun v => foods.dec (docOf v)⟩ : TrainFood F) = t
    rw [foods_back]
  · show (⟨t.id, t.tripID, (t.foods.map fun f => Value.doc (foods.enc f)).map fun v => foods.dec (docOf v)⟩ : TrainFood F) = t
    rw [foods_back]
  · show kId ∉ [fId, fTripid, fFoods]
    decide

theorem foodStores_ok [Host F] : (foodStores (F := F)).Ok := by
  refine ⟨fun t => ?_, fun t n => ?_, fun t => ?_⟩
  · show (⟨t.id, t.stationName, t.storeName, t.telephone, t.businessTime, t.deliveryFee, (t.foods.map fun f => Value.doc (foods.enc f)).map fun v => foods.dec (docOf v)⟩ : FoodStore F) = t
    rw [foods_back]
  · show (⟨t.id, t.stationName, t.storeName, t.telephone, t.businessTime, t.deliveryFee, (t.foods.map fun f => Value.doc (foods.enc f)).map fun v => foods.dec (docOf v)⟩ : FoodStore F) = t
    rw [foods_back]
  · show kId ∉ [fId, fStationname, fStorename, fTelephone, fBusinesstime, fDeliveryfee, fFoods]
    decide

theorem routes_ok [Host F] : (routes (F := F)).Ok := by
  refine ⟨fun t => ?_, fun t n => ?_, fun t => ?_⟩
  · show (⟨t.id, (t.stations.map Value.str).map (strOf (F := F)), (t.distances.map (Value.int .int64)).map (intOf (F := F)), t.startStation, t.endStation⟩ : Route) = t
    rw [strs_back, ints_back]
  · show (⟨t.id, (t.stations.map Value.str).map (strOf (F := F)), (t.distances.map (Value.int .int64)).map (intOf (F := F)), t.startStation, t.endStation⟩ : Route) = t
    rw [strs_back, ints_back]
  · show kId ∉ [fId, fStations, fDistances, fStartstation, fEndstation]
    decide

theorem payments_ok [Host F] : (payments (F := F)).Ok := by
  refine ⟨fun t => ?_, fun t n => ?_, fun t => ?_⟩
  · rfl
  · rfl
  · show kId ∉ [fId, fOrderid, fUserid, fPrice]
    decide

theorem moneys_ok [Host F] : (moneys (F := F)).Ok := by
  refine ⟨fun t => ?_, fun t n => ?_, fun t => ?_⟩
  · rfl
  · rfl
  · show kId ∉ [fId, fUserid, fPrice]
    decide

theorem consignPrices_ok [Host F] : (consignPrices (F := F)).Ok := by
  refine ⟨fun t => ?_, fun t n => ?_, fun t => ?_⟩
  · rfl
  · rfl
  · show kId ∉ [fId, fIndex, fInitialweight, fInitialprice, fWithinprice, fBeyondprice]
    decide

theorem assuranceTypes_ok [Host F] : (assuranceTypes (F := F)).Ok := by
  refine ⟨fun t => ?_, fun t n => ?_, fun t => ?_⟩
  · rfl
  · rfl
  · show kId ∉ [fIndex, fName, fPrice]
    decide

theorem assurances_ok [Host F] : (assurances (F := F)).Ok := by
  refine ⟨fun t => ?_, fun t n => ?_, fun t => ?_⟩
  · rfl
  · rfl
  · show kId ∉ [fId, fOrderid, fAt]
    decide

theorem users_ok [Host F] : (users (F := F)).Ok := by
  refine ⟨fun t => ?_, fun t n => ?_, fun t => ?_⟩
  · rfl
  · rfl
  · show kId ∉ [fUserid, fUsername, fPassword, fGender, fDocumenttype, fDocumentnum, fEmail]
    decide

theorem contacts_ok [Host F] : (contacts (F := F)).Ok := by
  refine ⟨fun t => ?_, fun t n => ?_, fun t => ?_⟩
  · rfl
  · rfl
  · show kId ∉ [fId, fAccountid, fName, fDocumenttype, fDocumentnumber, fPhonenumber]
    decide

theorem deliveries_ok [Host F] : (deliveries (F := F)).Ok := by
  refine ⟨fun t => ?_, fun t n => ?_, fun t => ?_⟩
  · rfl
  · rfl
  · show kId ∉ [fId, fOrderid, fFoodname, fStorename, fStationname]
    decide

/-! ### Lists as tables -/

variable {T : Type} (key : T → Name)

/-- The entry with a key. -/
def look (l : List T) (k : Name) : Option T := l.find? fun t => k == key t

/-- No two entries have the same key. -/
def Distinct (l : List T) : Prop := (l.map key).Nodup

variable {key}

theorem look_append (l : List T) (t : T) (hn : look key l (key t) = none) (k : Name) :
    look key (l ++ [t]) k = if k = key t then some t else look key l k := by
  unfold look at *
  rw [List.find?_append]
  by_cases h : k = key t
  · subst h; simp [hn]
  · simp [h]

theorem look_key {l : List T} {k : Name} {t : T} (h : look key l k = some t) : t ∈ l ∧ key t = k := by
  unfold look at h
  refine ⟨List.mem_of_find?_eq_some h, ?_⟩
  have := List.find?_some h
  simpa using (beq_iff_eq.1 this).symm

theorem look_none {l : List T} {k : Name} (h : look key l k = none) : k ∉ l.map key := by
  intro hm
  obtain ⟨t, ht, rfl⟩ := List.mem_map.1 hm
  unfold look at h
  have := List.find?_eq_none.1 h t ht
  simp at this

theorem distinct_append {l : List T} (h : Distinct key l) {t : T} (hn : look key l (key t) = none) : Distinct key (l ++ [t]) := by
  unfold Distinct at *
  rw [List.map_append, List.nodup_append]
  refine ⟨h, by simp, ?_⟩
  intro a ha b hb e
  rw [List.map_cons, List.map_nil, List.mem_singleton] at hb
  subst hb; subst e
  exact look_none hn ha

theorem any_look (l : List T) (k : Name) : l.any (fun t => k == key t) = (look key l k).isSome := by
  unfold look
  rw [Bool.eq_iff_iff, List.find?_isSome, List.any_eq_true]

theorem look_mem {l : List T} (h : Distinct key l) (t : T) : t ∈ l ↔ look key l (key t) = some t := by
  constructor
  · intro hm
    unfold look Distinct at *
    induction l with
    | nil => cases hm
    | cons a l ih =>
      rw [List.map_cons, List.nodup_cons] at h
      rw [List.find?_cons]
      rcases List.mem_cons.1 hm with rfl | hm
      · simp
      · have : key t ≠ key a := by
          intro e
          exact h.1 (e ▸ List.mem_map.2 ⟨t, hm, rfl⟩)
        simp only [show (key t == key a) = false by simpa using this]
        exact ih h.2 hm
  · intro e
    exact (look_key e).1

theorem map_replace (t : T) (l : List T) : (replaceFirst (fun u => key t == key u) t l).map key = l.map key := by
  induction l with
  | nil => rfl
  | cons a l ih =>
    rw [replaceFirst]
    split
    · rename_i h
      rw [beq_iff_eq] at h
      simp [h]
    · simp [ih]

theorem look_replace (t : T) (l : List T) (h : (look key l (key t)).isSome) (k : Name) :
    look key (replaceFirst (fun u => key t == key u) t l) k = if k = key t then some t else look key l k := by
  unfold look at *
  induction l with
  | nil => cases h
  | cons a l ih =>
    rw [replaceFirst]
    by_cases ha : key t = key a
    · rw [if_pos (by simpa using ha), List.find?_cons, List.find?_cons]
      by_cases hk : k = key t
      · subst hk; simp
      · rw [if_neg hk, ← ha, show (k == key t) = false by simpa using hk]
    · have ha' : (key t == key a) = false := by simpa using ha
      rw [List.find?_cons, ha'] at h
      rw [if_neg (by simp [ha']), List.find?_cons, List.find?_cons]
      by_cases hk : k = key a
      · subst hk; simp [Ne.symm ha]
      · rw [show (k == key a) = false by simpa using hk]
        exact ih h

theorem look_erase {l : List T} (h : Distinct key l) (k0 k : Name) :
    look key (l.eraseP fun t => k0 == key t) k = if k = k0 then none else look key l k := by
  unfold look Distinct at *
  induction l with
  | nil => simp
  | cons a l ih =>
    rw [List.map_cons, List.nodup_cons] at h
    rw [List.eraseP_cons]
    by_cases ha : k0 = key a
    · subst ha
      simp only [beq_self_eq_true, cond_true, List.find?_cons]
      by_cases hk : k = key a
      · subst hk
        rw [if_pos rfl]
        refine List.find?_eq_none.2 ?_
        intro b hb e
        rw [beq_iff_eq] at e
        exact h.1 (e ▸ List.mem_map.2 ⟨b, hb, rfl⟩)
      · rw [if_neg hk, show (k == key a) = false by simpa using hk]
    · simp only [show (k0 == key a) = false by simpa using ha, cond_false, List.find?_cons, ih h.2]
      by_cases hk : k = k0
      · subst hk; rw [show (k == key a) = false by simpa using ha]
      · rw [if_neg hk, if_neg hk]

theorem distinct_erase {l : List T} (h : Distinct key l) (p : T → Bool) : Distinct key (l.eraseP p) :=
  List.Nodup.sublist (List.eraseP_sublist.map key) h

end Verif.Trains
