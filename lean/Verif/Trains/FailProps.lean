import Verif.Trains.FailSpec
import Verif.Trains.More
/-
C136: the services of the train ticket example when calls of the database fail.
-/
set_option linter.unusedSectionVars false
namespace Verif.Trains
open Verif.NoSQL (Name Doc Value Host Codec Ret deleteOne deleteMany)
variable {F : Type} [Host F] {S α β T : Type}

abbrev works : Nat → Reply := fun _ => .works

/-! ### Programs -/

theorem run_unhit (p : Prog S α) (o : Nat → Reply) (s : S) (h : p.hit o s = false) : p.run o s = p.run works s := by
  induction p generalizing o s with
  | ret r => rfl
  | call f k ih =>
    simp only [Prog.hit] at h
    cases ho : o 0 with
    | works => rw [ho] at h; simp only [Prog.run, ho]; exact ih _ _ _ h
    | fails => rw [ho] at h; cases h
    | lost => rw [ho] at h; cases h

/-- Nothing is written before the last call, and every error of a call is returned. -/
inductive Careful : Prog S α → Prop where
  | ret (r : Ret α) : Careful (.ret r)
  | read {β : Type} (f : S → S × Ret β) (k : Ret β → Prog S α) (hf : ∀ s, (f s).1 = s) (he : k .error = .ret .error)
      (hk : ∀ r, Careful (k r)) : Careful (.call f k)
  | write {β : Type} (f : S → S × Ret β) (k : Ret β → Prog S α) (he : k .error = .ret .error)
      (hk : ∀ r, ∃ r', k r = .ret r') : Careful (.call f k)

theorem Careful.hit {p : Prog S α} (h : Careful p) (o : Nat → Reply) (s : S) (hh : p.hit o s = true) :
    (p.run o s).2 = .error ∧ ((p.run o s).1 = s ∨ (p.run o s).1 = (p.run works s).1 ∧ ∃ i, o i = .lost) := by
  induction h generalizing o s with
  | ret r => cases hh
  | read f k hf he hk ih =>
    cases ho : o 0 with
    | works =>
      simp only [Prog.hit, ho] at hh
      obtain ⟨h1, h2⟩ := ih _ _ _ hh
      simp only [Prog.run, ho]
      refine ⟨h1, ?_⟩
      rcases h2 with h2 | ⟨h2, i, hi⟩
      · left; rw [h2, hf]
      · exact .inr ⟨h2, i + 1, hi⟩
    | fails => simp [Prog.run, ho, he]
    | lost => simp [Prog.run, ho, he, hf]
  | write f k he hk =>
    obtain ⟨r', hr⟩ := hk (f s).2
    cases ho : o 0 with
    | works => simp only [Prog.hit, ho, hr] at hh; cases hh
    | fails => simp [Prog.run, ho, he]
    | lost => simpa [Prog.run, ho, he, hr] using .inr ⟨0, ho⟩

theorem Careful.faithful {p : Prog S α} (h : Careful p) {f : S → S × Ret α} (hf : ∀ s, p.run works s = f s) : Faithful p f where
  fine o s hh := by rw [run_unhit p o s hh, hf]
  all_or_nothing o s hh := by rw [← hf]; exact h.hit o s hh

theorem Faithful.step {p : Prog S α} {f : S → S × Ret α} (h : Faithful p f) (o : Nat → Reply) (s : S) :
    (done (p.run o s)).1 = (f s).1 ∨ (done (p.run o s)).1 = s ∧ (done (p.run o s)).2 = false := by
  cases hh : p.hit o s with
  | false => left; rw [h.fine o s hh]; rfl
  | true =>
    obtain ⟨h1, h2⟩ := h.all_or_nothing o s hh
    rcases h2 with h2 | ⟨h2, -⟩
    · right; exact ⟨h2, by simp [done, h1]⟩
    · exact .inl h2

/-- Histories. -/
theorem asIf {Op : Type} {step : S → Op → S} {stepF : S → Op → (Nat → Reply) → S × Bool}
    (h : ∀ s op o, (stepF s op o).1 = step s op ∨ (stepF s op o).1 = s ∧ (stepF s op o).2 = false) (s : S)
    (history : List (Op × (Nat → Reply))) : AsIf (fun ops => ops.foldl step s) history (withFailures stepF s history) := by
  induction history generalizing s with
  | nil => exact ⟨[], rfl, .slnil, .slnil⟩
  | cons c rest ih =>
    obtain ⟨op, o⟩ := c
    obtain ⟨ops, h1, h2, h3⟩ := ih (stepF s op o).1
    simp only [withFailures]
    by_cases e : (stepF s op o).1 = step s op
    · refine ⟨op :: ops, ?_, ?_, ?_⟩
      · rw [h1, e]; rfl
      · exact h2.cons_cons op
      · cases (stepF s op o).2
        · exact h3.cons op
        · exact h3.cons_cons op
    · rcases h s op o with h | ⟨h, h'⟩
      · exact absurd h e
      · rw [h] at h1
        refine ⟨ops, by simp only [h]; exact h1, h2.cons op, ?_⟩
        rw [h']; exact h3

/-! ### When everything works -/

theorem run_coll (k : Prog S α) (s : S) : (coll k).run works s = k.run works s := rfl

theorem run_last (f : S → S × Ret α) (s : S) : (last f).run works s = f s := rfl

theorem run_ret (r : Ret α) (s : S) : (Prog.ret r).run works s = (s, r) := rfl

theorem run_reading (f : S → Ret β) (k : β → Prog S α) (s : S) : (reading f k).run works s = match f s with
    | .ok b => (k b).run works s
    | .error => (s, .error)
    | .panic => (s, .panic) := by
  simp only [reading, Prog.run]
  cases f s <;> rfl

theorem run_writing (f : List (Doc F) → List (Doc F) × Ret Unit) (a : α) (s : List (Doc F)) :
    (writing f a).run works s = andReturn a (f s) := by
  simp only [writing, Prog.run]
  generalize f s = r
  obtain ⟨d, r⟩ := r
  cases r <;> rfl

theorem run_replacing (f : List (Doc F) → List (Doc F) × Ret Bool) (a : α) (s : List (Doc F)) :
    (replacing f (.ret (.ok a))).run works s = mustReplace a (f s) := by
  simp only [replacing, Prog.run]
  generalize f s = r
  obtain ⟨d, r⟩ := r
  rcases r with b | _ | _
  · cases b <;> rfl
  · rfl
  · rfl

theorem run_finding (c : Codec F T) (q : Doc F) (g : T → α) (s : List (Doc F)) :
    (finding c q g).run works s = (s, match found (one c s q) with
      | .ok t => .ok (g t)
      | .error => .error
      | .panic => .panic) := by
  rw [finding, run_coll, run_reading]
  rcases one c s q with t | _ | _
  · cases t <;> rfl
  · rfl
  · rfl

theorem run_finding_id (c : Codec F T) (q : Doc F) (s : List (Doc F)) :
    (finding c q id).run works s = (s, found (one c s q)) := by
  rw [run_finding]; cases found (one c s q) <;> rfl

theorem run_listing (c : Codec F T) (q : Doc F) (s : List (Doc F)) : (listing c q).run works s = (s, many c s q) := by
  rw [listing, run_coll, run_reading]
  cases many c s q <;> rfl

theorem run_bind (p : Prog S α) (k : Ret α → Prog S β) (s : S) :
    (p.bind k).run works s = (k (p.run works s).2).run works (p.run works s).1 := by
  induction p generalizing s with
  | ret r => rfl
  | call f j ih => exact ih (f s).2 (f s).1

/-! ### Which programs are careful -/

theorem careful_coll {k : Prog S α} (h : Careful k) : Careful (coll k) :=
  .read _ _ (fun _ => rfl) rfl fun r => by
    rcases r with _ | _ | _
    · exact h
    · exact .ret _
    · exact .ret _

theorem careful_reading (f : S → Ret β) {k : β → Prog S α} (h : ∀ b, Careful (k b)) : Careful (reading f k) :=
  .read _ _ (fun _ => rfl) rfl fun r => by
    rcases r with b | _ | _
    · exact h b
    · exact .ret _
    · exact .ret _

theorem careful_last (f : S → S × Ret α) : Careful (last f) := .write _ _ rfl fun r => ⟨r, rfl⟩

theorem careful_writing (f : S → S × Ret Unit) (a : α) : Careful (writing f a) :=
  .write _ _ rfl fun r => by
    rcases r with _ | _ | _ <;> exact ⟨_, rfl⟩

theorem careful_replacing (f : S → S × Ret Bool) (r : Ret α) : Careful (replacing f (.ret r)) :=
  .write _ _ rfl fun r => by
    rcases r with b | _ | _
    · cases b <;> exact ⟨_, rfl⟩
    · exact ⟨_, rfl⟩
    · exact ⟨_, rfl⟩

theorem careful_absent (g : T → α) (t : Option T) : Careful (orAbsent (S := S) g t) := by
  cases t <;> exact .ret _

theorem careful_finding (c : Codec F T) (q : Doc F) (g : T → α) : Careful (finding c q g) :=
  careful_coll (careful_reading _ (careful_absent g))

theorem careful_listing (c : Codec F T) (q : Doc F) : Careful (listing c q) := careful_coll (careful_reading _ fun _ => .ret _)

theorem careful_finding_then (c : Codec F T) (q : Doc F) (g : T → α) {k : α → Prog (List (Doc F)) β} (h : ∀ a, Careful (k a)) :
    Careful ((finding c q g).bind (orErr k)) :=
  .read _ _ (fun _ => rfl) rfl fun r => by
    rcases r with _ | _ | _
    · refine .read _ _ (fun _ => rfl) rfl fun r => ?_
      rcases r with t | _ | _
      · cases t with
        | none => exact .ret _
        | some t => exact h (g t)
      · exact .ret _
      · exact .ret _
    · exact .ret _
    · exact .ret _

/-- A method that lists documents, one that finds one, one that ends with its only call, -/
theorem faithful_listing (c : Codec F T) (q : Doc F) : Faithful (listing c q) fun s => (s, many c s q) :=
  (careful_listing c q).faithful (run_listing c q)

theorem faithful_finding (c : Codec F T) (q : Doc F) : Faithful (finding c q id) fun s => (s, found (one c s q)) :=
  (careful_finding c q id).faithful (run_finding_id c q)

theorem faithful_last (f : S → S × Ret α) : Faithful (coll (last f)) f := (careful_coll (careful_last f)).faithful fun _ => rfl

theorem faithful_writing (f : List (Doc F) → List (Doc F) × Ret Unit) (a : α) : Faithful (coll (writing f a)) fun s => andReturn a (f s) :=
  (careful_coll (careful_writing f a)).faithful fun s => by rw [run_coll, run_writing]

/-- and one that inserts a document unless it finds one. -/
theorem faithful_create (c : Codec F T) (q : Doc F) {f : List (Doc F) → List (Doc F) × Ret Unit} {k : Option T → Prog (List (Doc F)) Unit}
    {g : List (Doc F) → Option T → List (Doc F) × Ret Unit} (h1 : ∀ t, k (some t) = .ret .error) (h2 : k none = last f)
    (g1 : ∀ s t, g s (some t) = (s, .error)) (g2 : ∀ s, g s none = f s) :
    Faithful (coll (reading (one c · q) k)) fun s => onOk s (one c s q) (g s) :=
  (careful_coll (careful_reading _ fun t => by
    cases t
    · rw [h2]; exact careful_last f
    · rw [h1]; exact .ret _)).faithful fun s => by
      rw [run_coll, run_reading]
      rcases one c s q with t | _ | _
      · cases t
        · simp only [h2, onOk, g2]; rfl
        · simp only [h1, onOk, g1]; rfl
      · rfl
      · rfl

/-! ### The services -/

namespace Configs

/-- `Create`, `Update`, `Find`, `Delete` and `FindAll` of the configurations. -/
theorem C136_configs (c : Config) (newId : Nat) (name : Name) :
    Faithful (createP (F := F) c newId) (create · c newId) ∧ Faithful (updateP (F := F) c newId) (update · c newId) ∧
    Faithful (deleteP (F := F) name) (delete · name) ∧ Faithful (findP (F := F) name) (fun s => (s, find s name)) ∧
    Faithful (findAllP (F := F)) (fun s => (s, findAll s)) :=
  ⟨faithful_create configs [(fName, .str c.name)] (fun _ => rfl) rfl (fun _ _ => rfl) (fun _ => rfl), faithful_last _, faithful_last _, faithful_finding _ _,
    faithful_listing _ _⟩

/-- After a history with failing calls the configurations are as after a history without failures that leaves out only calls that
returned an error. -/
theorem C136_configs_history (history : List (Op × (Nat → Reply))) :
    AsIf after history (withFailures (stepF (F := F)) [] history) :=
  asIf (fun s op o => by
    cases op with
    | create c i => exact (C136_configs c i []).1.step o s
    | update c i => exact (C136_configs c i []).2.1.step o s
    | delete n => exact (C136_configs ⟨[], [], []⟩ 0 n).2.2.1.step o s) [] history

end Configs

namespace Stations

/-- `CreateStation`, `UpdateStation`, `DeleteStation`, `FindByID`, `FindID` and `Exists`. -/
theorem C136_stations (st : Station) (newId : Nat) (id name : Name) :
    Faithful (createP (F := F) st newId) (create · st newId) ∧ Faithful (updateP (F := F) st newId) (update · st newId) ∧
    Faithful (deleteP (F := F) id) (delete · id) ∧ Faithful (findByIDP (F := F) id) (fun s => (s, findByID s id)) ∧
    Faithful (findIDP (F := F) name) (fun s => (s, findID s name)) ∧ Faithful (existP (F := F) name) (fun s => (s, exist s name)) := by
  refine ⟨faithful_create stations [(fId, .str st.id)] (fun _ => rfl) rfl (fun _ _ => rfl) (fun _ => rfl), faithful_last _, faithful_last _, faithful_finding _ _,
    ?_, ?_⟩
  · exact (careful_finding _ _ _).faithful fun s => by
      rw [run_finding, findID]; cases found (one stations s [(fName, .str name)]) <;> rfl
  · refine (careful_coll (careful_reading _ fun _ => .ret _)).faithful fun s => ?_
    rw [run_coll, run_reading, exist]
    cases one stations s [(fName, .str name)] <;> rfl

theorem C136_stations_history (history : List (Op × (Nat → Reply))) :
    AsIf after history (withFailures (stepF (F := F)) [] history) :=
  asIf (fun s op o => by
    cases op with
    | create c i => exact (C136_stations c i [] []).1.step o s
    | update c i => exact (C136_stations c i [] []).2.1.step o s
    | delete n => exact (C136_stations zero 0 n []).2.2.1.step o s) [] history

end Stations

namespace Trains

/-- `Create`, `Update`, `Delete`, `Retrieve`, `RetrieveByName` and `AllTrains`. -/
theorem C136_trains (tt : TrainType) (newId : Nat) (id name : Name) :
    Faithful (createP (F := F) tt newId) (create · tt newId) ∧ Faithful (updateP (F := F) tt newId) (update · tt newId) ∧
    Faithful (deleteP (F := F) id) (delete · id) ∧ Faithful (retrieveP (F := F) id) (fun s => (s, retrieve s id)) ∧
    Faithful (retrieveByNameP (F := F) name) (fun s => (s, retrieveByName s name)) ∧
    Faithful (allTrainsP (F := F)) (fun s => (s, allTrains s)) := by
  refine ⟨?_, faithful_last _, faithful_writing _ _, faithful_finding _ _, faithful_finding _ _, ?_⟩
  · refine (careful_coll (careful_reading _ fun t => ?_)).faithful fun s => ?_
    · cases t
      · exact careful_writing _ _
      · exact .ret _
    · rw [run_coll, run_reading, create]
      rcases one trainTypes s [(fName, .str tt.name)] with t | _ | _
      · cases t
        · exact run_writing _ _ _
        · rfl
      · rfl
      · rfl
  · refine (careful_coll (careful_reading _ fun t => ?_)).faithful fun s => ?_
    · cases t <;> exact .ret _
    · rw [run_coll, run_reading, allTrains]
      rcases many trainTypes s [] with t | _ | _
      · cases t <;> rfl
      · rfl
      · rfl

theorem C136_trains_history (history : List (Op × (Nat → Reply))) :
    AsIf after history (withFailures (stepF (F := F)) [] history) :=
  asIf (fun s op o => by
    cases op with
    | create c i => exact (C136_trains c i [] []).1.step o s
    | update c i => exact (C136_trains c i [] []).2.1.step o s
    | delete n => exact (C136_trains zero 0 n []).2.2.1.step o s) [] history

end Trains

namespace Prices

/-- `UpdatePriceConfig`, `DeletePriceConfig`, `FindByID`, `GetAllPriceConfig` and `FindByRouteIDAndTrainType`.  Missing are
`CreateNewPriceConfig` and `FindByRouteIDsAndTrainTypes`: see the theorems below. -/
theorem C136_prices_partial (pc : PriceConfig F) (newId : Nat) (id route type : Name) :
    Faithful (updateP pc newId) (update · pc newId) ∧ Faithful (deleteP (F := F) id) (delete · id) ∧
    Faithful (findByIDP (F := F) id) (fun s => (s, findByID s id)) ∧ Faithful (getAllP (F := F)) (fun s => (s, getAll s)) ∧
    Faithful (findByRouteAndTypeP (F := F) route type) (fun s => (s, findByRouteAndType s route type)) :=
  ⟨faithful_last _, faithful_last _, faithful_finding _ _, faithful_listing _ _, faithful_finding _ _⟩

end Prices

namespace TrainFoods

/-- All methods. -/
theorem C136_train_food (tf : TrainFood F) (newId : Nat) (trip : Name) :
    Faithful (createP tf newId) (create · tf newId) ∧ Faithful (cleanupP (F := F)) cleanup ∧
    Faithful (listP (F := F)) (fun s => (s, list s)) ∧ Faithful (listByTripP (F := F) trip) (fun s => (s, listByTrip s trip)) := by
  refine ⟨?_, faithful_last _, faithful_listing _ _, ?_⟩
  · refine (careful_coll (careful_reading _ fun t => ?_)).faithful fun s => ?_
    · cases t
      · exact careful_writing _ _
      · exact careful_replacing _ _
    · rw [run_coll, run_reading, create]
      rcases one trainFoods s [(fTripid, .str tf.tripID)] with t | _ | _
      · cases t
        · exact run_writing _ _ _
        · exact run_replacing _ _ _
      · rfl
      · rfl
  · exact (careful_finding _ _ _).faithful fun s => by
      rw [run_finding, listByTrip]; cases found (one trainFoods s [(fTripid, .str trip)]) <;> rfl

theorem C136_train_food_history (history : List (Op F × (Nat → Reply))) : AsIf after history (withFailures stepF [] history) :=
  asIf (fun s op o => by
    cases op with
    | create c i => exact (C136_train_food c i []).1.step o s
    | cleanup => exact (faithful_last _).step o s) [] history

end TrainFoods

namespace FoodStores

/-- All methods. -/
theorem C136_food_stores (store : FoodStore F) (newId : Nat) (id station : Name) (names : List Name) :
    Faithful (createP store newId) (create · store newId) ∧ Faithful (cleanupP (F := F)) cleanup ∧
    Faithful (listP (F := F)) (fun s => (s, list s)) ∧
    Faithful (listByStationP (F := F) station) (fun s => (s, listByStation s station)) ∧
    Faithful (listByStationsP (F := F) names) (fun s => (s, listByStations s names)) ∧
    Faithful (getByIDP (F := F) id) (fun s => (s, getByID s id)) :=
  ⟨faithful_create foodStores [(fId, .str store.id)] (fun _ => rfl) rfl (fun _ _ => rfl) (fun _ => rfl), faithful_last _, faithful_listing _ _, faithful_listing _ _, faithful_listing _ _, faithful_finding _ _⟩

theorem C136_food_stores_history (history : List (Op F × (Nat → Reply))) : AsIf after history (withFailures stepF [] history) :=
  asIf (fun s op o => by
    cases op with
    | create c i => exact (C136_food_stores c i [] [] []).1.step o s
    | cleanup => exact (faithful_last _).step o s) [] history

end FoodStores

namespace Routes

/-- `CreateAndModify`, `DeleteRoute`, `GetAllRoutes`, `GetRouteById` and `GetRouteByStartAndEnd`. -/
theorem C136_routes (info : Info) (uuid : Name) (newId : Nat) (id start stop : Name) :
    Faithful (createAndModifyP (F := F) info uuid newId) (createAndModify · info uuid newId) ∧
    Faithful (deleteP (F := F) id) (delete · id) ∧ Faithful (getAllP (F := F)) (fun s => (s, getAll s)) ∧
    Faithful (getByIdP (F := F) id) (fun s => (s, getById s id)) ∧
    Faithful (getByStartAndEndP (F := F) start stop) (fun s => (s, getByStartAndEnd s start stop)) := by
  refine ⟨?_, faithful_last _, ?_, faithful_finding _ _, faithful_finding _ _⟩
  · refine (careful_coll ?_).faithful fun s => ?_
    · split
      · exact .ret _
      · split
        · exact .ret _
        · split
          · exact careful_writing _ _
          · refine careful_reading _ fun t => ?_
            cases t
            · exact careful_writing _ _
            · exact careful_replacing _ _
    · simp only [run_coll, createAndModify]
      cases distances (Prices.split ',' info.distanceList) with
      | none => rfl
      | some ds =>
        by_cases h1 : (Prices.split ',' info.stationList).length ≠ ds.length
        · simp only [if_pos h1]; rfl
        · by_cases h2 : info.id = [] ∨ info.id.length < 32
          · simp only [if_neg h1, if_pos h2]; exact run_writing _ _ _
          · simp only [if_neg h1, if_neg h2, run_reading]
            rcases one routes s [(fId, .str info.id)] with t | _ | _
            · cases t
              · exact run_writing _ _ _
              · exact run_replacing _ _ _
            · rfl
            · rfl
  · refine (careful_coll (careful_reading _ fun t => ?_)).faithful fun s => ?_
    · cases t <;> exact .ret _
    · rw [run_coll, run_reading, getAll]
      rcases many routes s [] with t | _ | _
      · cases t <;> rfl
      · rfl
      · rfl

end Routes

namespace Payments

/-- `InitPayment`, `Pay`, `AddMoney` and `Query`.  Missing is `Cleanup`: see below. -/
theorem C136_payments_partial (v : Service) (p : Payment) (uuid : Name) (newId : Nat) :
    Faithful (initPaymentP (F := F) v p newId) (initPayment v · p newId) ∧ Faithful (payP (F := F) v p newId) (pay v · p newId) ∧
    Faithful (addMoneyP (F := F) v p uuid newId) (addMoney v · p uuid newId) ∧ Faithful (queryP (F := F) v) (fun s => (s, query v s)) := by
  have same : ∀ s : State F, s = s.set v.paymentDB { s v.paymentDB with payment := (s v.paymentDB).payment } := by
    intro s; funext j; simp only [State.set]; split
    · rename_i h; rw [h]
    · rfl
  refine ⟨?_, ?_, faithful_last _, ?_⟩
  · refine (careful_coll (careful_reading _ fun t => ?_)).faithful fun s => ?_
    · cases t
      · exact careful_last _
      · exact .ret _
    · rw [run_coll, run_reading, initPayment]
      rcases one payments (s v.paymentDB).payment [(fId, .str p.id)] with t | _ | _
      · cases t
        · rfl
        · exact Prod.ext (same s) rfl
      · exact Prod.ext (same s) rfl
      · exact Prod.ext (same s) rfl
  · refine (careful_coll (careful_replacing _ _)).faithful fun s => ?_
    simp only [run_coll, replacing, Prog.run, onPayment, pay]
    generalize upserted payments (s v.paymentDB).payment [(fOrderid, .str p.orderID)] p newId = r
    obtain ⟨d, r⟩ := r
    rcases r with b | _ | _
    · cases b <;> rfl
    · rfl
    · rfl
  · refine (careful_coll (careful_reading _ fun t => .ret _)).faithful fun s => ?_
    rw [run_coll, run_reading, query]
    cases many payments (s v.paymentDB).payment [] <;> rfl

end Payments

namespace Consign

/-- `GetPriceConfig` and `GetPriceByWeightAndRegion`.  Missing is `CreateAndModifyPriceConfig`: see below. -/
theorem C136_consign_partial [Arith F] (weight : F) (within : Bool) :
    Faithful (getConfigP (F := F)) (fun s => (s, getConfig s)) ∧
    Faithful (priceP weight within) (fun s => (s, price s weight within)) := by
  refine ⟨faithful_finding _ _, (careful_finding_then _ _ _ fun cp => ?_).faithful fun s => ?_⟩
  · split
    · exact .ret _
    · split <;> exact .ret _
  · rw [run_bind, run_finding_id, price, getConfig]
    rcases found (one consignPrices s [(fIndex, .int .int 0)]) with cp | _ | _
    · simp only [orErr]
      split
      · rfl
      · split <;> rfl
    · rfl
    · rfl

end Consign

namespace Assurances

/-- All methods that use the database. -/
theorem C136_assurances (k : Kinds F) (type : Int) (order uuid id : Name) (a : Assurance F) (newId : Nat) :
    Faithful (createP k type order uuid newId) (create k · type order uuid newId) ∧
    Faithful (modifyP a newId) (modify · a newId) ∧ Faithful (deleteByIdP (F := F) id) (deleteById · id) ∧
    Faithful (deleteByOrderP (F := F) order) (deleteByOrder · order) ∧ Faithful (getAllP (F := F)) (fun s => (s, getAll s)) ∧
    Faithful (findByIdP (F := F) id) (fun s => (s, findById s id)) ∧
    Faithful (findByOrderP (F := F) order) (fun s => (s, findByOrder s order)) := by
  refine ⟨?_, ?_, faithful_last _, faithful_last _, faithful_listing _ _, faithful_finding _ _, faithful_finding _ _⟩
  · unfold createP create
    cases getType k type with
    | none => exact (Careful.ret _).faithful fun _ => rfl
    | some t => exact faithful_writing _ _
  · refine (careful_finding_then _ _ _ fun _ => careful_coll (careful_replacing _ _)).faithful fun s => ?_
    rw [run_bind, run_finding_id, modify, findById]
    rcases found (one assurances s [(fId, .str a.id)]) with cp | _ | _
    · simp only [orErr, run_coll, onOk]; exact run_replacing _ _ _
    · rfl
    · rfl

theorem C136_assurances_history (k : Kinds F) (history : List (Op F × (Nat → Reply))) :
    AsIf (after k) history (withFailures (stepF k) [] history) :=
  asIf (fun s op o => by
    have a : Assurance F := ⟨[], [], k.traffic⟩
    cases op with
    | create type order uuid i => exact (C136_assurances k type order uuid [] a i).1.step o s
    | modify a i => exact (C136_assurances k 0 [] [] [] a i).2.1.step o s
    | deleteById id => exact (faithful_last _).step o s
    | deleteByOrder order => exact (faithful_last _).step o s) [] history

end Assurances

namespace Users

/-- All methods. -/
theorem C136_users (u : User) (newId : Nat) (id name : Name) :
    Faithful (saveP (F := F) u newId) (save · u newId) ∧ Faithful (updateP (F := F) u newId) (update · u newId) ∧
    Faithful (deleteP (F := F) id) (delete · id) ∧ Faithful (findByIDP (F := F) id) (fun s => (s, findByID s id)) ∧
    Faithful (findByUsernameP (F := F) name) (fun s => (s, findByUsername s name)) ∧
    Faithful (getAllP (F := F)) (fun s => (s, getAll s)) := by
  refine ⟨faithful_last _, faithful_last _, ?_, faithful_finding _ _, faithful_finding _ _, faithful_listing _ _⟩
  refine (careful_coll (careful_writing _ _)).faithful fun s => ?_
  rw [run_coll, run_writing, delete]
  generalize deleteOne s [(fUserid, .str id)] = r
  obtain ⟨d, r⟩ := r
  cases r <;> rfl

theorem C136_users_history (history : List (Op × (Nat → Reply))) :
    AsIf after history (withFailures (stepF (F := F)) [] history) :=
  asIf (fun s op o => by
    cases op with
    | save u i => exact (faithful_last _).step o s
    | update u i => exact (faithful_last _).step o s
    | delete n => exact (C136_users ⟨[], [], [], 0, 0, [], []⟩ 0 n []).2.2.1.step o s) [] history

end Users

namespace Contacts

/-- All methods. -/
theorem C136_contacts (c : Contact) (newId : Nat) (id account : Name) :
    Faithful (createP (F := F) c newId) (create · c newId) ∧ Faithful (modifyP (F := F) c newId) (modify · c newId) ∧
    Faithful (deleteP (F := F) c) (delete · c) ∧ Faithful (findByIdP (F := F) id) (fun s => (s, findById s id)) ∧
    Faithful (findByAccountP (F := F) account) (fun s => (s, findByAccount s account)) ∧
    Faithful (getAllP (F := F)) (fun s => (s, getAll s)) :=
  ⟨faithful_create contacts _ (fun _ => rfl) rfl (fun _ _ => rfl) (fun _ => rfl), faithful_last _, faithful_last _, faithful_finding _ _, faithful_listing _ _,
    faithful_listing _ _⟩

theorem C136_contacts_history (history : List (Op × (Nat → Reply))) :
    AsIf after history (withFailures (stepF (F := F)) [] history) :=
  asIf (fun s op o => by
    cases op with
    | create c i => exact (C136_contacts c i [] []).1.step o s
    | modify c i => exact (C136_contacts c i [] []).2.1.step o s
    | delete c => exact (C136_contacts c 0 [] []).2.2.1.step o s) [] history

end Contacts

end Verif.Trains
