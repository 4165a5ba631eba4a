import Verif.Trains.FailProps
/-
C136: the methods of the train ticket example that make half of a change, or hide a failure, when calls of the database fail; and what still
holds for them.
-/
set_option linter.unusedSectionVars false
namespace Verif.Trains
open Verif.NoSQL (Name Doc Value Host Codec Ret deleteOne deleteMany)
variable {F : Type} [Host F] {S α β T : Type}

theorem run_works (f : S → S × Ret β) (k : Ret β → Prog S α) (o : Nat → Reply) (s : S) (h : o 0 = .works) :
    (Prog.call f k).run o s = (k (f s).2).run (fun i => o (i + 1)) (f s).1 := by simp only [Prog.run, h]

theorem run_fails (f : S → S × Ret β) (k : Ret β → Prog S α) (o : Nat → Reply) (s : S) (h : o 0 = .fails) :
    (Prog.call f k).run o s = (k .error).run (fun i => o (i + 1)) s := by simp only [Prog.run, h]

theorem run_read_fails (f : S → Ret β) (k : Ret β → Prog S α) (o : Nat → Reply) (s : S) (h : o 0 ≠ .works) :
    (Prog.call (fun s => (s, f s)) k).run o s = (k .error).run (fun i => o (i + 1)) s := by
  cases ho : o 0 with
  | works => exact absurd ho h
  | fails => simp only [Prog.run, ho]
  | lost => simp only [Prog.run, ho]

namespace Prices

/-- `CreateNewPriceConfig` takes any error of `FindByID` to mean that there is no such configuration.  If the id has one and its lookup fails,
the new one is stored beside it: the call returns without an error, and `FindByID` goes on returning the old one. -/
theorem C136_create_price_refuted (ops : List (Op F)) (pc old : PriceConfig F) (newId : Nat) (h : table ops pc.id = some old)
    (o : Nat → Reply) (h0 : o 0 = .works) (h1 : o 1 = .works) (h2 : o 2 ≠ .works) (h3 : o 3 = .works) :
    ∃ docs, (createP pc newId).run o (after ops) = (docs, .ok ()) ∧ docs.length = (after ops).length + 1 ∧
      findByID docs pc.id = .ok old := by
  have hs := shows ops
  obtain ⟨docs, e1, e2⟩ := (⟨hs.rows, rfl⟩ : Holds priceConfigs (after ops) _).insert priceConfigs_ok pc newId
  refine ⟨docs, ?_, ?_, ?_⟩
  · rw [createP, coll, run_works _ _ _ _ h0]
    simp only [orErr, findByIDP, finding, coll, Prog.bind]
    rw [run_works _ _ _ _ h1]
    simp only [orErr, reading, Prog.bind]
    rw [run_read_fails _ _ _ _ h2]
    simp only [orErr, Prog.bind, last]
    rw [run_works _ _ _ _ h3]
    simp only [Prog.run, e1]
  · have e := congrArg List.length e2.eq
    simpa [Codec.rows] using e
  · rw [findByID, e2.one priceConfigs_ok (keyed pc.id), List.find?_append]
    have hl := hs.look pc.id
    rw [h] at hl
    have : (priceConfigs.rows (after ops)).find? (fun t => pc.id == t.id) = some old := hl
    rw [this]; rfl

end Prices

namespace Consign

/-- `CreateAndModifyPriceConfig` replaces the configuration and then inserts it too.  If the insertion fails the call returns an error, and
yet the new prices are the ones that are charged. -/
theorem C136_set_consign_refuted (calls : List (ConsignPrice F × Nat)) (hc : calls ≠ []) (pc : ConsignPrice F) (newId : Nat)
    (o : Nat → Reply) (h0 : o 0 = .works) (h1 : o 1 = .works) (h2 : o 2 = .works) (h3 : o 3 = .fails) :
    ∃ docs, (setP pc newId).run o (after calls) = (docs, .error) ∧ getConfig docs = .ok { pc with index := 0 } := by
  obtain ⟨l, hl, hi, hn, -⟩ := holds calls
  cases l with
  | nil => exact absurd (List.length_eq_zero_iff.1 hn.symm) hc
  | cons a l =>
    have ha : (0 == a.index) = true := by rw [hi a (by simp)]; rfl
    obtain ⟨docs', e1, e2⟩ := hl.upserted consignPrices_ok atZero (indexed pc) newId
    have e : replaceOrAdd (fun t : ConsignPrice F => (0 : Int) == t.index) (indexed pc) (a :: l) = indexed pc :: l := by
      simp [replaceOrAdd, ha, replaceFirst]
    rw [e] at e2
    refine ⟨docs', ?_, ?_⟩
    · rw [setP, coll, run_works _ _ _ _ h0]
      simp only [orErr, reading]
      rw [run_works _ _ _ _ h1]
      simp only [hl.one consignPrices_ok atZero, List.find?_cons, ha, orErr, replacing]
      rw [run_works _ _ _ _ h2]
      rw [show ({ pc with index := 0 } : ConsignPrice F) = indexed pc from rfl, e1]
      simp only [List.any_cons, ha, Bool.true_or, orErr, writing]
      rw [run_fails _ _ _ _ h3]
      rfl
    · rw [getConfig, e2.one consignPrices_ok atZero]
      rfl

/-- Whatever fails, the price that is charged is the one of before the call or the new one. -/
theorem C136_set_consign_partial (calls : List (ConsignPrice F × Nat)) (pc : ConsignPrice F) (newId : Nat) (o : Nat → Reply) :
    getConfig ((setP pc newId).run o (after calls)).1 = getConfig (after calls) ∨
    getConfig ((setP pc newId).run o (after calls)).1 = .ok { pc with index := 0 } := by
  obtain ⟨l, hl, hi, hn, -⟩ := holds calls
  have get : ∀ {docs : List (Doc F)} {a : ConsignPrice F} {l}, Holds consignPrices docs (a :: l) → a.index = 0 → getConfig docs = .ok a := by
    intro docs a l h ha
    rw [getConfig, h.one consignPrices_ok atZero, List.find?_cons, show ((0 : Int) == a.index) = true by rw [ha]; rfl]
    rfl
  simp only [setP, coll]
  cases h0 : o 0 with
  | fails => left; simp only [Prog.run, h0, orErr]
  | lost => left; simp only [Prog.run, h0, orErr]
  | works =>
    rw [run_works _ _ _ _ h0]
    simp only [orErr, reading]
    by_cases h1 : o 1 = .works
    · rw [run_works _ _ _ _ h1]
      simp only [hl.one consignPrices_ok atZero]
      rw [show ({ pc with index := 0 } : ConsignPrice F) = indexed pc from rfl]
      cases l with
      | nil =>
        obtain ⟨docs', e1, e2⟩ := hl.insert consignPrices_ok (indexed pc) newId
        simp only [List.find?_nil, orErr, writing, Prog.run, e1]
        cases o (0 + 1 + 1) with
        | works => right; exact get e2 rfl
        | fails => left; rfl
        | lost => right; exact get e2 rfl
      | cons a l =>
        have ha : (0 == a.index) = true := by rw [hi a (by simp)]; rfl
        obtain ⟨docs', e1, e2⟩ := hl.upserted consignPrices_ok atZero (indexed pc) newId
        have e : replaceOrAdd (fun t : ConsignPrice F => (0 : Int) == t.index) (indexed pc) (a :: l) = indexed pc :: l := by
          simp [replaceOrAdd, ha, replaceFirst]
        rw [e] at e2
        obtain ⟨docs'', e3, e4⟩ := e2.insert consignPrices_ok (indexed pc) newId
        simp only [List.find?_cons, ha, orErr, replacing, Prog.run, e1, List.any_cons, Bool.true_or, writing, e3]
        cases o (0 + 1 + 1) with
        | works =>
          right
          cases o (0 + 1 + 1 + 1) with
          | works => exact get e4 rfl
          | fails => exact get e2 rfl
          | lost => exact get e4 rfl
        | fails => left; rfl
        | lost => right; exact get e2 rfl
    · rw [run_read_fails _ _ _ _ h1]
      left; rfl

end Consign

namespace Payments

/-- `Cleanup` with the two databases being one: if the second half fails the payments are gone and the money is not. -/
theorem C136_cleanup_refuted (ops : List Op) (d : Nat) (o : Nat → Reply) (h0 : o 0 = .works) (h1 : o 1 = .works) (h2 : o 2 = .works)
    (h3 : o 3 = .fails) :
    ∃ s, (cleanupP ⟨d, d⟩).run o (after (F := F) ⟨d, d⟩ ops) = (s, .error) ∧ query ⟨d, d⟩ s = .ok [] ∧
      many moneys (s d).money [] = .ok (stored ⟨d, d⟩ ops).2 := by
  have hk := ok (F := F) ⟨d, d⟩ ops
  obtain ⟨docs', e1, e2⟩ := hk.pays.clean payments_ok
  refine ⟨(after (F := F) ⟨d, d⟩ ops).set d { after (F := F) ⟨d, d⟩ ops d with payment := docs' }, ?_, ?_, ?_⟩
  · rw [cleanupP, coll, run_works _ _ _ _ h0]
    simp only [orErr]
    rw [run_works _ _ _ _ h1]
    simp only [onPayment, e1, orErr, coll]
    rw [run_works _ _ _ _ h2]
    simp only [orErr, last]
    rw [run_fails _ _ _ _ h3]
    rfl
  · rw [query, set_same]
    exact e2.all payments_ok
  · rw [set_same]
    exact hk.money.all moneys_ok

end Payments

/-! ### Methods that look up many keys -/

/-- Nothing is written. -/
inductive Reads : Prog S α → Prop where
  | ret (r : Ret α) : Reads (.ret r)
  | call {β : Type} (f : S → S × Ret β) (k : Ret β → Prog S α) (hf : ∀ s, (f s).1 = s) (hk : ∀ r, Reads (k r)) : Reads (.call f k)

theorem Reads.run {p : Prog S α} (h : Reads p) (o : Nat → Reply) (s : S) : (p.run o s).1 = s := by
  induction h generalizing o with
  | ret r => rfl
  | call f k hf hk ih =>
    simp only [Prog.run]
    cases o 0 with
    | works => simp only [hf]; exact ih _ _
    | fails => exact ih _ _
    | lost => simp only [hf]; exact ih _ _

theorem Reads.bind {p : Prog S α} (h : Reads p) {k : Ret α → Prog S β} (hk : ∀ r, Reads (k r)) : Reads (p.bind k) := by
  induction h with
  | ret r => exact hk r
  | call f j hf _ ih => exact .call f _ hf ih

theorem reads_finding (c : Codec F T) (q : Doc F) (g : T → α) : Reads (finding c q g) :=
  .call _ _ (fun _ => rfl) fun r => by
    rcases r with _ | _ | _
    · refine .call _ _ (fun _ => rfl) fun r => ?_
      rcases r with t | _ | _
      · cases t <;> exact .ret _
      · exact .ret _
      · exact .ret _
    · exact .ret _
    · exact .ret _

/-- A database that does not answer: what finds a document returns an error, after one call. -/
theorem find_outage (c : Codec F T) (q : Doc F) (g : T → α) (k : Ret α → Prog (List (Doc F)) β) (s : List (Doc F)) :
    ((finding c q g).bind k).run (fun _ => .fails) s = (k .error).run (fun _ => .fails) s := rfl

namespace Stations

/-- `FindIDs` during an outage of the database: it returns no error but, as if no station had any of the names, empty identifiers (two for each
name). -/
theorem C136_find_ids_refuted (docs : List (Doc F)) (names : List Name) :
    (findIDsP [] names).run (fun _ => .fails) docs = (docs, .ok (List.replicate (2 * names.length) [])) := by
  have : ∀ ids, (findIDsP ids names).run (fun _ => .fails) docs = (docs, .ok (ids ++ List.replicate (2 * names.length) [])) := by
    induction names with
    | nil => intro ids; simp [findIDsP, Prog.run]
    | cons n names ih =>
      intro ids
      rw [findIDsP, findIDP, find_outage]
      simp only
      rw [ih, show 2 * (n :: names).length = 2 * names.length + 1 + 1 by simp; omega]
      simp [List.replicate_succ]
  simpa using this []

/-- `FindByIDs` in the same way. -/
theorem C136_find_by_ids_refuted (docs : List (Doc F)) (ids : List Name) :
    (findByIDsP [] ids).run (fun _ => .fails) docs = (docs, .ok (List.replicate (2 * ids.length) ⟨[], [], 0⟩)) := by
  have : ∀ sts, (findByIDsP sts ids).run (fun _ => .fails) docs = (docs, .ok (sts ++ List.replicate (2 * ids.length) zero)) := by
    induction ids with
    | nil => intro sts; simp [findByIDsP, Prog.run]
    | cons n ids ih =>
      intro sts
      rw [findByIDsP, findByIDP, find_outage]
      simp only
      rw [ih, show 2 * (n :: ids).length = 2 * ids.length + 1 + 1 by simp; omega]
      simp [List.replicate_succ]
  simpa [zero] using this []

theorem run_findIDs (docs : List (Doc F)) (names ids : List Name) :
    (findIDsP ids names).run works docs = (docs, match findIDs docs names with
      | .ok l => .ok (ids ++ l)
      | .error => .error
      | .panic => .panic) := by
  induction names generalizing ids with
  | nil => simp [findIDsP, Prog.run, findIDs]
  | cons n names ih =>
    rw [findIDsP, run_bind, findIDP, run_finding, findIDs, findID]
    rcases found (one stations docs [(fName, .str n)]) with st | _ | _
    · simp only
      rw [ih]
      cases findIDs docs names <;> simp
    · simp only
      rw [ih]
      cases findIDs docs names <;> simp
    · rfl

theorem run_findByIDs (docs : List (Doc F)) (ids : List Name) (sts : List Station) :
    (findByIDsP sts ids).run works docs = (docs, match findByIDs docs ids with
      | .ok l => .ok (sts ++ l)
      | .error => .error
      | .panic => .panic) := by
  induction ids generalizing sts with
  | nil => simp [findByIDsP, Prog.run, findByIDs]
  | cons n ids ih =>
    rw [findByIDsP, run_bind, findByIDP, run_finding_id, findByIDs, findByID]
    rcases found (one stations docs [(fId, .str n)]) with st | _ | _
    · simp only
      rw [ih]
      cases findByIDs docs ids <;> simp
    · simp only
      rw [ih]
      cases findByIDs docs ids <;> simp
    · rfl

theorem reads_findIDs (names ids : List Name) : Reads (findIDsP (F := F) ids names) := by
  induction names generalizing ids with
  | nil => exact .ret _
  | cons n names ih =>
    refine (reads_finding _ _ _).bind fun r => ?_
    rcases r with _ | _ | _
    · exact ih _
    · exact ih _
    · exact .ret _

theorem reads_findByIDs (ids : List Name) (sts : List Station) : Reads (findByIDsP (F := F) sts ids) := by
  induction ids generalizing sts with
  | nil => exact .ret _
  | cons n names ih =>
    refine (reads_finding _ _ _).bind fun r => ?_
    rcases r with _ | _ | _
    · exact ih _
    · exact ih _
    · exact .ret _

/-- `FindIDs` and `FindByIDs` change nothing, and are what they are without failures if every call works.  Missing: that they return an error
otherwise. -/
theorem C136_lookups_partial (docs : List (Doc F)) (names : List Name) (o : Nat → Reply) :
    ((findIDsP [] names).run o docs).1 = docs ∧ ((findByIDsP [] names).run o docs).1 = docs ∧
    ((findIDsP [] names).hit o docs = false → ((findIDsP [] names).run o docs).2 = findIDs docs names) ∧
    ((findByIDsP [] names).hit o docs = false → ((findByIDsP [] names).run o docs).2 = findByIDs docs names) := by
  refine ⟨(reads_findIDs names []).run o docs, (reads_findByIDs names []).run o docs, fun h => ?_, fun h => ?_⟩
  · rw [run_unhit _ _ _ h, run_findIDs]
    cases findIDs docs names <;> rfl
  · rw [run_unhit _ _ _ h, run_findByIDs]
    cases findByIDs docs names <;> rfl

end Stations

namespace Trains

/-- `RetrieveByNames` during an outage: it returns no error but empty train types. -/
theorem C136_retrieve_by_names_refuted (docs : List (Doc F)) (names : List Name) :
    (retrieveByNamesP [] names).run (fun _ => .fails) docs = (docs, .ok (List.replicate names.length ⟨[], [], 0, 0, 0⟩)) := by
  have : ∀ tts, (retrieveByNamesP tts names).run (fun _ => .fails) docs = (docs, .ok (tts ++ List.replicate names.length zero)) := by
    induction names with
    | nil => intro tts; simp [retrieveByNamesP, Prog.run]
    | cons n names ih =>
      intro tts
      rw [retrieveByNamesP, retrieveByNameP, find_outage]
      simp only
      rw [ih]
      simp [List.replicate_succ]
  simpa [zero] using this []

theorem run_retrieveByNames (docs : List (Doc F)) (names : List Name) (tts : List TrainType) :
    (retrieveByNamesP tts names).run works docs = (docs, match retrieveByNames docs names with
      | .ok l => .ok (tts ++ l)
      | .error => .error
      | .panic => .panic) := by
  induction names generalizing tts with
  | nil => simp [retrieveByNamesP, Prog.run, retrieveByNames]
  | cons n names ih =>
    rw [retrieveByNamesP, run_bind, retrieveByNameP, run_finding_id, retrieveByNames, retrieveByName]
    rcases found (one trainTypes docs [(fName, .str n)]) with st | _ | _
    · simp only
      rw [ih]
      cases retrieveByNames docs names <;> simp
    · simp only
      rw [ih]
      cases retrieveByNames docs names <;> simp
    · rfl

theorem reads_retrieveByNames (names : List Name) (tts : List TrainType) : Reads (retrieveByNamesP (F := F) tts names) := by
  induction names generalizing tts with
  | nil => exact .ret _
  | cons n names ih =>
    refine (reads_finding _ _ _).bind fun r => ?_
    rcases r with _ | _ | _
    · exact ih _
    · exact ih _
    · exact .ret _

/-- `RetrieveByNames` changes nothing, and is what it is without failures if every call works. -/
theorem C136_lookups_partial (docs : List (Doc F)) (names : List Name) (o : Nat → Reply) :
    ((retrieveByNamesP [] names).run o docs).1 = docs ∧
    ((retrieveByNamesP [] names).hit o docs = false → ((retrieveByNamesP [] names).run o docs).2 = retrieveByNames docs names) := by
  refine ⟨(reads_retrieveByNames names []).run o docs, fun h => ?_⟩
  rw [run_unhit _ _ _ h, run_retrieveByNames]
  cases retrieveByNames docs names <;> rfl

end Trains

namespace Routes

/-- `GetRouteByIds` during an outage: it returns no error but empty routes. -/
theorem C136_get_by_ids_refuted (docs : List (Doc F)) (ids : List Name) :
    (getByIdsP [] ids).run (fun _ => .fails) docs = (docs, .ok (List.replicate ids.length ⟨[], [], [], [], []⟩)) := by
  have : ∀ rs, (getByIdsP rs ids).run (fun _ => .fails) docs = (docs, .ok (rs ++ List.replicate ids.length zero)) := by
    induction ids with
    | nil => intro rs; simp [getByIdsP, Prog.run]
    | cons n names ih =>
      intro rs
      rw [getByIdsP, getByIdP, find_outage]
      simp only
      rw [ih]
      simp [List.replicate_succ]
  simpa [zero] using this []

theorem run_getByIds (docs : List (Doc F)) (ids : List Name) (rs : List Route) :
    (getByIdsP rs ids).run works docs = (docs, match getByIds docs ids with
      | .ok l => .ok (rs ++ l)
      | .error => .error
      | .panic => .panic) := by
  induction ids generalizing rs with
  | nil => simp [getByIdsP, Prog.run, getByIds]
  | cons n names ih =>
    rw [getByIdsP, run_bind, getByIdP, run_finding_id, getByIds, getById]
    rcases found (one routes docs [(fId, .str n)]) with st | _ | _
    · simp only
      rw [ih]
      cases getByIds docs names <;> simp
    · simp only
      rw [ih]
      cases getByIds docs names <;> simp
    · rfl

theorem reads_getByIds (ids : List Name) (rs : List Route) : Reads (getByIdsP (F := F) rs ids) := by
  induction ids generalizing rs with
  | nil => exact .ret _
  | cons n names ih =>
    refine (reads_finding _ _ _).bind fun r => ?_
    rcases r with _ | _ | _
    · exact ih _
    · exact ih _
    · exact .ret _

/-- `GetRouteByIds` changes nothing, and is what it is without failures if every call works. -/
theorem C136_lookups_partial (docs : List (Doc F)) (ids : List Name) (o : Nat → Reply) :
    ((getByIdsP [] ids).run o docs).1 = docs ∧
    ((getByIdsP [] ids).hit o docs = false → ((getByIdsP [] ids).run o docs).2 = getByIds docs ids) := by
  refine ⟨(reads_getByIds ids []).run o docs, fun h => ?_⟩
  rw [run_unhit _ _ _ h, run_getByIds]
  cases getByIds docs ids <;> rfl

end Routes

namespace Prices

/-- `FindByRouteIDsAndTrainTypes` during an outage: it returns no error and no prices. -/
theorem C136_find_by_routes_and_types_refuted (docs : List (Doc F)) (rts : List Name) (h : ∀ rt ∈ rts, ':' ∈ rt) :
    (findByRoutesAndTypesP [] rts).run (fun _ => .fails) docs = (docs, .ok []) := by
  induction rts with
  | nil => rfl
  | cons rt rts ih =>
    obtain ⟨route, type, hn⟩ := names_exists rt (h rt (by simp))
    obtain ⟨ps, hp⟩ := split_names hn
    rw [findByRoutesAndTypesP, hp]
    simp only
    rw [findByRouteAndTypeP, find_outage]
    exact ih fun rt' h' => h rt' (by simp [h'])

theorem run_findByRoutesAndTypes (docs : List (Doc F)) (rts : List Name) (res : List (Name × PriceConfig F)) :
    (findByRoutesAndTypesP res rts).run works docs = (docs, pricesLoop docs res rts) := by
  induction rts generalizing res with
  | nil => rfl
  | cons rt rts ih =>
    rw [findByRoutesAndTypesP, pricesLoop]
    cases split ':' rt with
    | nil => rfl
    | cons route rest =>
      cases rest with
      | nil => rfl
      | cons type rest =>
        simp only
        rw [run_bind, findByRouteAndTypeP, run_finding_id, findByRouteAndType]
        rcases found (one priceConfigs docs
          [(Verif.NoSQL.kAnd, .arr [.doc [(fRouteid, .str route)], .doc [(fTraintype, .str type)]] [])]) with pc | _ | _
        · exact ih _
        · exact ih _
        · rfl

theorem reads_findByRoutesAndTypes (rts : List Name) (res : List (Name × PriceConfig F)) : Reads (findByRoutesAndTypesP res rts) := by
  induction rts generalizing res with
  | nil => exact .ret _
  | cons rt rts ih =>
    rw [findByRoutesAndTypesP]
    split
    · refine (reads_finding _ _ _).bind fun r => ?_
      rcases r with _ | _ | _
      · exact ih _
      · exact ih _
      · exact .ret _
    · exact .ret _

/-- `FindByRouteIDsAndTrainTypes` changes nothing, and is what it is without failures if every call works. -/
theorem C136_lookups_partial (docs : List (Doc F)) (rts : List Name) (o : Nat → Reply) :
    ((findByRoutesAndTypesP [] rts).run o docs).1 = docs ∧
    ((findByRoutesAndTypesP [] rts).hit o docs = false → ((findByRoutesAndTypesP [] rts).run o docs).2 = findByRoutesAndTypes docs rts) := by
  refine ⟨(reads_findByRoutesAndTypes rts []).run o docs, fun h => ?_⟩
  rw [run_unhit _ _ _ h, run_findByRoutesAndTypes]
  rfl

/-- `CreateNewPriceConfig` does what it does without failures if every call works; and if its lookup works, it returns an error when another
call does not, and all has changed or nothing.  Missing: what it does when the lookup fails. -/
theorem C136_create_price_partial (docs : List (Doc F)) (pc : PriceConfig F) (newId : Nat) (o : Nat → Reply) :
    ((createP pc newId).hit o docs = false → (createP pc newId).run o docs = create docs pc newId) ∧
    ((createP pc newId).hit o docs = true → o 1 = .works → o 2 = .works → ((createP pc newId).run o docs).2 = .error ∧
      (((createP pc newId).run o docs).1 = docs ∨
        ((createP pc newId).run o docs).1 = (create docs pc newId).1 ∧ ∃ i, o i = .lost)) := by
  have hw : (createP pc newId).run works docs = create docs pc newId := by
    rw [createP, run_coll, run_bind, findByIDP, run_finding_id, create, findByID]
    rcases found (one priceConfigs docs [(fId, .str pc.id)]) with t | _ | _
    · exact run_replacing _ _ _
    · rfl
    · rfl
  refine ⟨fun h => by rw [run_unhit _ _ _ h, hw], fun h h1 h2 => ?_⟩
  rw [← hw]
  have careful : ∀ r : Ret (Option (PriceConfig F)), Careful ((orErr (orAbsent _root_.id) r).bind fun
      | .error => last (insert priceConfigs · pc newId)
      | .ok _ => replacing (upserted priceConfigs · [(fId, .str pc.id)] pc newId) (.ret (.ok ()))
      | .panic => .ret .panic) := by
    intro r
    rcases r with t | _ | _
    · cases t
      · exact careful_last _
      · exact careful_replacing _ _
    · exact careful_last _
    · exact .ret _
  cases h0 : o 0 with
  | fails => simp [createP, coll, Prog.run, h0, orErr]
  | lost => simp [createP, coll, Prog.run, h0, orErr]
  | works =>
    have hc := (careful (one priceConfigs docs [(fId, .str pc.id)])).hit (fun i => o (i + 1 + 1 + 1)) docs
    simp only [createP, coll, Prog.hit, h0, orErr, findByIDP, finding, Prog.bind, reading, h1, h2] at h
    simp only [createP, coll, Prog.run, h0, orErr, findByIDP, finding, Prog.bind, reading, h1, h2]
    generalize one priceConfigs docs [(fId, .str pc.id)] = r at h hc ⊢
    rcases r with t | _ | _
    · cases t <;>
      · obtain ⟨a, b⟩ := hc h
        refine ⟨a, ?_⟩
        rcases b with b | ⟨b, i, hi⟩
        · exact .inl b
        · exact .inr ⟨b, i + 1 + 1 + 1, hi⟩
    · obtain ⟨a, b⟩ := hc h
      refine ⟨a, ?_⟩
      rcases b with b | ⟨b, i, hi⟩
      · exact .inl b
      · exact .inr ⟨b, i + 1 + 1 + 1, hi⟩
    · cases h

end Prices

end Verif.Trains
