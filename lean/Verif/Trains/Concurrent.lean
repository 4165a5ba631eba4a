import Verif.Trains.FailProps
/-
C137: calls of the services of the train ticket example at the same time.  The database executes one of their calls after the other, in any
order; each method is the program of `Trains/Programs.lean`.
-/
set_option linter.unusedSectionVars false
namespace Verif.Trains
open Verif.NoSQL (Name Doc Value Host Codec Ret deleteOne deleteMany)
variable {F : Type} [Host F] {S R α β T : Type}

/-- The program with its result turned into a common type of results. -/
def Prog.map (g : Ret α → Ret R) (p : Prog S α) : Prog S R := p.bind fun r => .ret (g r)

/-- Methods at the same time: as long as one of them has not returned, one that has not makes its next call of the database.  The databases
become `s'` and the methods are where they are in `ps'`. -/
inductive Together : S → List (Prog S R) → S → List (Prog S R) → Prop where
  | none (s : S) (ps : List (Prog S R)) : Together s ps s ps
  | call {β : Type} (a b : List (Prog S R)) (f : S → S × Ret β) (k : Ret β → Prog S R) (s s' : S) (ps' : List (Prog S R)) :
      Together (f s).1 (a ++ k (f s).2 :: b) s' ps' → Together s (a ++ .call f k :: b) s' ps'

/-- Methods one at a time, in some order: one of them runs to its end, then another.  They return `rs`. -/
inductive Serially : S → List (Prog S R) → S → List (Ret R) → Prop where
  | none (s : S) (rs : List (Ret R)) : Serially s (rs.map .ret) s rs
  | method (a b : List (Prog S R)) (p : Prog S R) (s s' : S) (rs : List (Ret R)) :
      Serially (p.run (fun _ => .works) s).1 (a ++ .ret (p.run (fun _ => .works) s).2 :: b) s' rs → Serially s (a ++ p :: b) s' rs

/-- The calls of methods that use the database once, besides `GetCollection`, and what is made of their results. -/
inductive Single : Prog (List (Doc F)) R → Prop where
  | configUpdate (c i g) : Single ((Configs.updateP c i).map g)
  | configDelete (n g) : Single ((Configs.deleteP n).map g)
  | configFind (n g) : Single ((Configs.findP n).map g)
  | configFindAll (g) : Single (Configs.findAllP.map g)
  | stationUpdate (st i g) : Single ((Stations.updateP st i).map g)
  | stationDelete (n g) : Single ((Stations.deleteP n).map g)
  | stationFindID (n g) : Single ((Stations.findIDP n).map g)
  | stationFindByID (n g) : Single ((Stations.findByIDP n).map g)
  | stationExists (n g) : Single ((Stations.existP n).map g)
  | trainUpdate (t i g) : Single ((Trains.updateP t i).map g)
  | trainDelete (n g) : Single ((Trains.deleteP n).map g)
  | trainRetrieve (n g) : Single ((Trains.retrieveP n).map g)
  | trainRetrieveByName (n g) : Single ((Trains.retrieveByNameP n).map g)
  | trainAll (g) : Single (Trains.allTrainsP.map g)
  | priceUpdate (pc i g) : Single ((Prices.updateP pc i).map g)
  | priceDelete (n g) : Single ((Prices.deleteP n).map g)
  | priceFind (n g) : Single ((Prices.findByIDP n).map g)
  | priceAll (g) : Single (Prices.getAllP.map g)
  | priceRoute (r t g) : Single ((Prices.findByRouteAndTypeP r t).map g)
  | trainFoodList (g) : Single (TrainFoods.listP.map g)
  | trainFoodTrip (n g) : Single ((TrainFoods.listByTripP n).map g)
  | trainFoodCleanup (g) : Single (TrainFoods.cleanupP.map g)
  | storeList (g) : Single (FoodStores.listP.map g)
  | storeListStation (n g) : Single ((FoodStores.listByStationP n).map g)
  | storeListStations (ns g) : Single ((FoodStores.listByStationsP ns).map g)
  | storeFind (n g) : Single ((FoodStores.getByIDP n).map g)
  | storeCleanup (g) : Single (FoodStores.cleanupP.map g)
  | routeDelete (n g) : Single ((Routes.deleteP n).map g)
  | routeAll (g) : Single (Routes.getAllP.map g)
  | routeFind (n g) : Single ((Routes.getByIdP n).map g)
  | routeEnds (a b g) : Single ((Routes.getByStartAndEndP a b).map g)
  | consignGet (g) : Single (Consign.getConfigP.map g)
  | assuranceAll (g) : Single (Assurances.getAllP.map g)
  | assuranceFind (n g) : Single ((Assurances.findByIdP n).map g)
  | assuranceOrder (n g) : Single ((Assurances.findByOrderP n).map g)
  | assuranceDelete (n g) : Single ((Assurances.deleteByIdP n).map g)
  | assuranceDeleteOrder (n g) : Single ((Assurances.deleteByOrderP n).map g)
  | assuranceCreate (k t o u i g) : Single ((Assurances.createP k t o u i).map g)
  | userSave (u i g) : Single ((Users.saveP u i).map g)
  | userUpdate (u i g) : Single ((Users.updateP u i).map g)
  | userDelete (n g) : Single ((Users.deleteP n).map g)
  | userFind (n g) : Single ((Users.findByIDP n).map g)
  | userFindName (n g) : Single ((Users.findByUsernameP n).map g)
  | userAll (g) : Single (Users.getAllP.map g)
  | contactModify (c i g) : Single ((Contacts.modifyP c i).map g)
  | contactDelete (c g) : Single ((Contacts.deleteP c).map g)
  | contactFind (n g) : Single ((Contacts.findByIdP n).map g)
  | contactAccount (n g) : Single ((Contacts.findByAccountP n).map g)
  | contactAll (g) : Single (Contacts.getAllP.map g)

/-- The same for the payments. -/
inductive SinglePay (v : Payments.Service) : Prog (Payments.State F) R → Prop where
  | query (g) : SinglePay v ((Payments.queryP v).map g)
  | pay (p i g) : SinglePay v ((Payments.payP v p i).map g)
  | addMoney (p u i g) : SinglePay v ((Payments.addMoneyP v p u i).map g)

/-! ### Programs with one access -/

/-- Besides calls that do not touch the databases, the program makes one call, and then it returns. -/
inductive OneAccess : Prog S R → Prop where
  | ret (r : Ret R) : OneAccess (.ret r)
  | skip {β : Type} (f : S → S × Ret β) (k : Ret β → Prog S R) (a : Ret β) (h : ∀ s, f s = (s, a)) (hk : OneAccess (k a)) :
      OneAccess (.call f k)
  | access {β : Type} (f : S → S × Ret β) (k : Ret β → Prog S R) (hk : ∀ r, ∃ r', k r = .ret r') : OneAccess (.call f k)

/-- Pointwise the same effect when run alone. -/
inductive Alike : List (Prog S R) → List (Prog S R) → Prop where
  | nil : Alike [] []
  | cons {p q : Prog S R} {ps qs : List (Prog S R)} (h : ∀ s, p.run works s = q.run works s) (t : Alike ps qs) : Alike (p :: ps) (q :: qs)

theorem Alike.refl (ps : List (Prog S R)) : Alike ps ps := by
  induction ps with
  | nil => exact .nil
  | cons p ps ih => exact .cons (fun _ => rfl) ih

theorem Alike.append {a b c d : List (Prog S R)} (h : Alike a b) (h' : Alike c d) : Alike (a ++ c) (b ++ d) := by
  induction h with
  | nil => exact h'
  | cons e _ ih => exact .cons e ih

theorem Alike.split {ps a b : List (Prog S R)} {p : Prog S R} (h : Alike ps (a ++ p :: b)) :
    ∃ a' p' b', ps = a' ++ p' :: b' ∧ Alike a' a ∧ (∀ s, p'.run works s = p.run works s) ∧ Alike b' b := by
  induction a generalizing ps with
  | nil =>
    cases h with
    | cons e t => exact ⟨[], _, _, rfl, .nil, e, t⟩
  | cons q a ih =>
    cases h with
    | cons e t =>
      obtain ⟨a', p', b', rfl, h1, h2, h3⟩ := ih t
      exact ⟨_ :: a', p', b', rfl, .cons e h1, h2, h3⟩

theorem serially_ret {ps : List (Prog S R)} {rs : List (Ret R)} (h : Alike ps (rs.map .ret)) (s : S) (done : List (Ret R)) :
    Serially s (done.map .ret ++ ps) s (done ++ rs) := by
  induction rs generalizing ps done with
  | nil =>
    cases h
    simpa using Serially.none s done
  | cons r rs ih =>
    cases h with
    | cons e t =>
      refine .method _ _ _ s s _ ?_
      rw [e s]
      have := ih t (done ++ [r])
      simpa [Prog.run] using this

theorem Serially.alike {s s' : S} {ps qs : List (Prog S R)} {rs : List (Ret R)} (h : Serially s qs s' rs) (e : Alike ps qs) :
    Serially s ps s' rs := by
  induction h generalizing ps with
  | none s rs => simpa using serially_ret e s []
  | method a b p s s' rs _ ih =>
    obtain ⟨a', p', b', rfl, h1, h2, h3⟩ := e.split
    refine .method a' b' p' s s' rs ?_
    rw [h2]
    exact ih (h1.append (.cons (fun _ => rfl) h3))

theorem serially_of_oneAccess {s s' : S} {ps qs : List (Prog S R)} (h : Together s ps s' qs) (ho : ∀ p ∈ ps, OneAccess p)
    {rs : List (Ret R)} (hr : qs = rs.map .ret) : Serially s ps s' rs := by
  induction h with
  | none s ps => subst hr; exact .none s rs
  | call a b f k s s' qs _ ih =>
    have hp := ho (.call f k) (by simp)
    have others : ∀ p, OneAccess p → ∀ q ∈ a ++ p :: b, OneAccess q := by
      intro p h1 q hq
      rcases List.mem_append.1 hq with hq | hq
      · exact ho q (by simp [hq])
      · rcases List.mem_cons.1 hq with rfl | hq
        · exact h1
        · exact ho q (by simp [hq])
    cases hp with
    | skip _ _ x hx hk =>
      have := ih (others _ (by rw [hx]; exact hk)) hr
      rw [hx] at this
      exact this.alike ((Alike.refl a).append (.cons (fun s => by simp only [Prog.run, hx]) (Alike.refl b)))
    | access _ _ hk =>
      obtain ⟨r', e⟩ := hk (f s).2
      have := ih (others _ (by rw [e]; exact .ret _)) hr
      refine .method a b _ s s' rs ?_
      simp only [Prog.run, e]
      rw [e] at this
      exact this

theorem oneAccess_coll {k : Prog S α} (g : Ret α → Ret R) (h : OneAccess (k.map g)) : OneAccess ((coll k).map g) :=
  .skip _ _ (.ok ()) (fun _ => rfl) h

theorem oneAccess_last (f : S → S × Ret α) (g : Ret α → Ret R) : OneAccess ((last f).map g) := .access _ _ fun _ => ⟨_, rfl⟩

theorem oneAccess_writing (f : S → S × Ret Unit) (a : α) (g : Ret α → Ret R) : OneAccess ((writing f a).map g) :=
  .access _ _ fun r => by
    rcases r with _ | _ | _ <;> exact ⟨_, rfl⟩

theorem oneAccess_replacing (f : S → S × Ret Bool) (r : Ret α) (g : Ret α → Ret R) : OneAccess ((replacing f (.ret r)).map g) :=
  .access _ _ fun r => by
    rcases r with b | _ | _
    · cases b <;> exact ⟨_, rfl⟩
    · exact ⟨_, rfl⟩
    · exact ⟨_, rfl⟩

theorem oneAccess_reading (f : S → Ret β) (k : β → Prog S α) (g : Ret α → Ret R) (h : ∀ b, ∃ r, k b = .ret r) :
    OneAccess ((reading f k).map g) :=
  .access _ _ fun r => by
    rcases r with b | _ | _
    · obtain ⟨r, e⟩ := h b
      exact ⟨g r, by simp only [orErr, e]; rfl⟩
    · exact ⟨_, rfl⟩
    · exact ⟨_, rfl⟩

theorem oneAccess_finding (c : Codec F T) (q : Doc F) (h : T → α) (g : Ret α → Ret R) : OneAccess ((finding c q h).map g) :=
  oneAccess_coll g (oneAccess_reading _ _ g fun t => by cases t <;> exact ⟨_, rfl⟩)

theorem oneAccess_listing (c : Codec F T) (q : Doc F) (g : Ret (List T) → Ret R) : OneAccess ((listing c q).map g) :=
  oneAccess_coll g (oneAccess_reading _ _ g fun _ => ⟨_, rfl⟩)

theorem Single.one {p : Prog (List (Doc F)) R} (h : Single p) : OneAccess p := by
  cases h
  case assuranceCreate k t o u i g =>
    unfold Assurances.createP
    split
    · exact .ret _
    · exact oneAccess_coll g (oneAccess_writing _ _ g)
  case stationExists => exact oneAccess_coll _ (oneAccess_reading _ _ _ fun _ => ⟨_, rfl⟩)
  case trainAll => exact oneAccess_coll _ (oneAccess_reading _ _ _ fun t => by cases t <;> exact ⟨_, rfl⟩)
  case routeAll => exact oneAccess_coll _ (oneAccess_reading _ _ _ fun t => by cases t <;> exact ⟨_, rfl⟩)
  all_goals first
    | exact oneAccess_finding _ _ _ _
    | exact oneAccess_listing _ _ _
    | exact oneAccess_coll _ (oneAccess_last _ _)
    | exact oneAccess_coll _ (oneAccess_writing _ _ _)

/-- Calls at the same time of methods that use the database once: when all have returned, the database and the results are those of the same
calls one after the other, in some order. -/
theorem C137_single_partial {s s' : List (Doc F)} {ps : List (Prog (List (Doc F)) R)} {rs : List (Ret R)} (h : ∀ p ∈ ps, Single p)
    (ht : Together s ps s' (rs.map .ret)) : Serially s ps s' rs :=
  serially_of_oneAccess ht (fun p hp => (h p hp).one) rfl

/-- The same for `Query`, `Pay` and `AddMoney`. -/
theorem C137_payments_partial (v : Payments.Service) {s s' : Payments.State F} {ps : List (Prog (Payments.State F) R)} {rs : List (Ret R)}
    (h : ∀ p ∈ ps, SinglePay v p) (ht : Together s ps s' (rs.map .ret)) : Serially s ps s' rs :=
  serially_of_oneAccess ht (fun p hp => by
    cases h p hp with
    | query g => exact oneAccess_coll _ (oneAccess_reading _ _ _ fun _ => ⟨_, rfl⟩)
    | pay p i g => exact oneAccess_coll _ (oneAccess_replacing _ _ _)
    | addMoney p u i g => exact oneAccess_coll _ (oneAccess_last _ _)) rfl

end Verif.Trains
