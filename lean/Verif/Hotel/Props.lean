import Verif.Hotel.Lemmas
/-
C87: reservations; C88: rates and profiles.
-/
namespace Verif.Hotel

private theorem allRight_bound {cal : Calendar} {cap : Name → Int} {bs bs' : List Booking} {cs : List Call} {os : List (Option (List Name))}
    (h : AllRight cal cap bs cs os bs') (hb : ∀ h x, taken bs h x ≤ cap h) : ∀ h x, taken bs' h x ≤ cap h := by
  induction h with
  | nil => exact hb
  | cons hr _ ih =>
    refine ih ?_
    cases hr with
    | booked hf =>
      intro h x
      rw [taken_append]
      split
      · next hc =>
        simp only [Booking.covers, Bool.and_eq_true, beq_iff_eq, decide_eq_true_eq] at hc
        rw [← hc.1.1]
        exact hf x hc.1.2 hc.2
      · have := hb h x
        omega
    | full _ => exact hb
    | panic => exact hb
    | available _ => exact hb

/-- C87: in every history of calls, one after the other, on a service whose database holds any reservations of one night to begin with,
`MakeReservation` books the rooms exactly if they are free in every night, `CheckAvailability` returns exactly the hotels where they are,
and no hotel ever has more rooms taken than it has.  Missing from the full property: availability checks over nights that were
reserved from the start, lost cache entries, and concurrent calls, where the code does overbook (the `_refuted` theorems). -/
theorem C87_reservations_partial (cal : Calendar) (L : Nat) (hc : cal.Sane L) (numbers : List (Name × Int))
    (start : List (Name × Booking)) (hstart : ∀ e ∈ start, e.2.last = e.2.first + 1 ∧ e.2.last ≤ L)
    (hfree : ∀ h x, taken (start.map (·.2)) h x ≤ (numbers.lookup h).getD 0)
    (cs : List Call) (hcs : ∀ c ∈ cs, Harmless cal (start.map (·.2)) c) :
    ∃ bs, AllRight cal (fun h => (numbers.lookup h).getD 0) (start.map (·.2)) cs (run cal (fresh cal numbers start) cs).2 bs ∧
      ∀ h x, taken bs h x ≤ (numbers.lookup h).getD 0 := by
  obtain ⟨bs, a, -⟩ := run_spec hc cs (fresh_inv hc numbers start (cap := fun h => (numbers.lookup h).getD 0) (fun _ => rfl) hstart) hcs
  exact ⟨bs, a, allRight_bound a hfree⟩

private theorem key_ne {cal : Calendar} {L : Nat} (hc : cal.Sane L) {h : Name} {a b : Nat} (ha : a ≤ L) (hb : b ≤ L) (hab : a ≠ b) :
    nightKey cal h a ≠ nightKey cal h b := fun e => hab (nightKey_inj hc ha hb e).2

/-- C87 refuted: an availability check for two nights, of which the second was reserved from the start, makes the service forget
that reservation: all rooms of the hotel can be reserved again for that night.  (The example does this in hotel 4, with Alice's
reservation of 2015-04-09.) -/
theorem C87_availability_refuted (cal : Calendar) (L : Nat) (hc : cal.Sane L) (h guest other i m o : Name) (n : Nat) (c k : Int)
    (hn : n + 2 ≤ L) (hi : cal.parse i = n) (hm : cal.parse m = n + 1) (ho : cal.parse o = n + 2) (hk : 0 < k) (hkc : k ≤ c) :
    let cs := [.check [h] i o 0, .make other [h] m o c]
    (run cal (fresh cal [(h, c)] [(guest, ⟨h, n + 1, n + 2, k⟩)]) cs).2 = [some [h], some [h]] ∧
    taken ([⟨h, n + 1, n + 2, k⟩] ++ [⟨h, n + 1, n + 2, c⟩]) h (n + 1) > c := by
  have k1 : nightKey cal h (n + 2) ≠ nightKey cal h (n + 1) := key_ne hc (by omega) (by omega) (by omega)
  have k2 := nightKey_ne_cap hc h h (n + 1)
  have k3 := nightKey_ne_cap hc h h (n + 2)
  have t1 : cal.text (n + 1) ≠ cal.text n := fun e => by have := hc.inj _ _ (by omega) (by omega) e; omega
  have c0 : ¬ (0 : Int) > c := by omega
  refine ⟨?_, ?_⟩
  · simp [run, call, check, hi, ho, hm, checkHotel, fresh, reservedCached, counted, t1, capacity, lookup_put, k1, k2, k3,
      Ne.symm k1, Ne.symm k2, Ne.symm k3, c0, make, checkNights, reserved, commit]
  · simp [taken, Booking.covers, List.filter_cons]
    omega

/-- C87 refuted: after a reservation of all rooms for two nights, if the cache loses its entries (a restart, an eviction), all rooms can
be reserved again for the second night: the database has the reservation under the first day only. -/
theorem C87_cache_lost_refuted (cal : Calendar) (L : Nat) (hc : cal.Sane L) (h guest other i m o : Name) (n : Nat) (c : Int)
    (hn : n + 2 ≤ L) (hi : cal.parse i = n) (hm : cal.parse m = n + 1) (ho : cal.parse o = n + 2) (h0 : 0 < c) :
    let r := make cal (fresh cal [(h, c)] []) guest [h] i o c
    r.2 = some [h] ∧ (make cal { r.1 with cache := [] } other [h] m o c).2 = some [h] ∧
    taken ([⟨h, n, n + 2, c⟩] ++ [⟨h, n + 1, n + 2, c⟩]) h (n + 1) > c := by
  have k1 : nightKey cal h (n + 2) ≠ nightKey cal h (n + 1) := key_ne hc (by omega) (by omega) (by omega)
  have k2 := nightKey_ne_cap hc h h (n + 1)
  have k3 := nightKey_ne_cap hc h h (n + 2)
  have t1 : cal.text n ≠ cal.text (n + 1) := fun e => by have := hc.inj _ _ (by omega) (by omega) e; omega
  have c0 : ¬ c > c := by omega
  refine ⟨?_, ?_, ?_⟩
  · simp [make, hi, ho, checkNights, fresh, reserved, counted, capacity, lookup_put, k1, k2, k3]
  · simp [make, hi, hm, ho, checkNights, fresh, reserved, counted, capacity, lookup_put, k1, k2, k3, commit, stored, t1]
  · simp [taken, Booking.covers, List.filter_cons]
    omega

/-- C87 refuted: of two calls of `MakeReservation` that both look before either of them reserves, both get all rooms of the hotel. -/
theorem C87_concurrent_refuted (cal : Calendar) (L : Nat) (hc : cal.Sane L) (h guest other : Name) (n : Nat) (c : Int) (h0 : 0 < c) :
    let look := checkNights cal h c (fresh cal [(h, c)] []) n 1 []
    let look' := checkNights cal h c look.1 n 1 []
    ∃ u u', look.2 = some u ∧ look'.2 = some u' ∧
      let s := commit cal (commit cal look'.1 h guest n 1 c u) h other n 1 c u'
      s.reservations = [⟨h, guest, cal.text n, cal.text (n + 1), c⟩, ⟨h, other, cal.text n, cal.text (n + 1), c⟩] ∧
      (s.reservations.map (·.number)).sum > c := by
  have k2 := nightKey_ne_cap hc h h (n + 1)
  refine ⟨[(nightKey cal h (n + 1), c)], [(nightKey cal h (n + 1), c)], ?_, ?_, ?_, ?_⟩
  · simp [checkNights, fresh, reserved, counted, capacity, put]
  · simp [checkNights, fresh, reserved, counted, capacity, lookup_put, k2, put, List.lookup_cons, beq_eq_false_iff_ne.2 k2]
  · simp [checkNights, fresh, reserved, counted, capacity, lookup_put, k2, commit, stored]
  · simp [checkNights, fresh, reserved, counted, capacity, lookup_put, k2, commit, stored]
    omega

/-- C87 refuted: negative numbers of rooms can be reserved; after that, the hotel takes reservations for more rooms than it has. -/
theorem C87_negative_refuted (cal : Calendar) (L : Nat) (hc : cal.Sane L) (h guest i o : Name) (n : Nat) (c k : Int) (hn : n + 1 ≤ L)
    (hi : cal.parse i = n) (ho : cal.parse o = n + 1) (h0 : 0 ≤ c) (hk : 0 < k) :
    (run cal (fresh cal [(h, c)] []) [.make guest [h] i o (-k), .make guest [h] i o (c + k)]).2 = [some [h], some [h]] := by
  have k2 := nightKey_ne_cap hc h h (n + 1)
  have e1 : ¬ -k > c := by omega
  have e2 : ¬ -k + (c + k) > c := by omega
  have e3 : ¬ c < -k := by omega
  simp [run, call, make, hi, ho, checkNights, fresh, reserved, counted, capacity, lookup_put, k2, commit, putAll, put, Ne.symm k2]
  simp [e1, e2, e3, lookup_put, k2, Ne.symm k2, putAll, List.lookup_cons]

/-- C87 refuted: a reservation for no night at all (the dates in the wrong order, say, or neither of them a date) is made, in any hotel and
for any number of rooms, though nothing is reserved; `CheckAvailability` says that the hotel is not available. -/
theorem C87_no_nights_refuted (cal : Calendar) (s : State) (h guest i o : Name) (rooms : Int) (hio : cal.parse o ≤ cal.parse i) :
    (make cal s guest [h] i o rooms).2 = some [h] ∧ (make cal s guest [h] i o rooms).1 = s ∧ (check cal i o rooms s [h]).2 = [] := by
  have : cal.parse o - cal.parse i = 0 := by omega
  simp [make, check, this, checkNights, checkHotel, commit, stored, putAll]

/-! ### Rates and profiles -/

private theorem cached_spec {α : Type} (db : Name → α) (ids : List Name) : ∀ (cache : List (Name × α)),
    (∀ k a, cache.lookup k = some a → a = db k) →
    (cached db cache ids).2 = ids.map db ∧ ∀ k a, (cached db cache ids).1.lookup k = some a → a = db k := by
  induction ids with
  | nil => intro cache h; exact ⟨rfl, h⟩
  | cons id ids ih =>
    intro cache h
    simp only [cached]
    cases hl : cache.lookup id with
    | some a =>
      obtain ⟨i1, i2⟩ := ih cache h
      simp only []
      exact ⟨by rw [i1, h id a hl, List.map_cons], i2⟩
    | none =>
      obtain ⟨i1, i2⟩ := ih ((id, db id) :: cache) (by
        intro k a hk
        rw [List.lookup_cons] at hk
        by_cases e : k = id
        · subst e
          simpa using hk.symm
        · rw [beq_eq_false_iff_ne.2 e] at hk
          exact h k a hk)
      simp only []
      exact ⟨by rw [i1, List.map_cons], i2⟩

/-- C88: whatever was asked before, `GetRates` returns exactly the rate plans of the hotels, hotel by hotel, and the search returns the
hotels of these plans.  Missing from the full property: the dates, which play no role (`C88_dates_refuted`). -/
theorem C88_rates_partial (plans : List RatePlan) (asked : List (List Name × Name × Name)) (hotels : List Name) (i o : Name) :
    let cache := asked.foldl (fun c q => (getRates plans c q.1 q.2.1 q.2.2).1) []
    (getRates plans cache hotels i o).2 = hotels.flatMap (fun h => plans.filter fun p => p.hotel == h) ∧
    ∀ h, h ∈ (nearby plans cache hotels i o).2 ↔ h ∈ hotels ∧ ∃ p ∈ plans, p.hotel = h := by
  intro cache
  have hcache : ∀ k a, cache.lookup k = some a → a = plans.filter fun p => p.hotel == k := by
    have key : ∀ (asked : List (List Name × Name × Name)) (c : List (Name × List RatePlan)),
        (∀ k a, c.lookup k = some a → a = plans.filter fun p => p.hotel == k) →
        ∀ k a, (asked.foldl (fun c q => (getRates plans c q.1 q.2.1 q.2.2).1) c).lookup k = some a →
          a = plans.filter fun p => p.hotel == k := by
      intro asked
      induction asked with
      | nil => intro c h; exact h
      | cons q asked ih =>
        intro c h
        exact ih _ (cached_spec (fun h => plans.filter fun p : RatePlan => p.hotel == h) q.1 c h).2
    exact key asked [] fun k a h => by cases h
  have e : (getRates plans cache hotels i o).2 = hotels.flatMap (fun h => plans.filter fun p => p.hotel == h) := by
    simp only [getRates]
    rw [(cached_spec (fun h => plans.filter fun p : RatePlan => p.hotel == h) hotels cache hcache).1, List.flatMap_def]
  refine ⟨e, ?_⟩
  intro h
  simp only [nearby, e, List.mem_map, List.mem_flatMap, List.mem_filter, beq_iff_eq]
  constructor
  · rintro ⟨p, ⟨k, h1, h2, h3⟩, rfl⟩
    exact ⟨h3 ▸ h1, p, h2, rfl⟩
  · rintro ⟨h1, p, h2, rfl⟩
    exact ⟨p, ⟨_, h1, h2, rfl⟩, rfl⟩

/-- C88: whatever was asked before, `GetProfiles` returns one profile for each hotel, that of the hotel if it has one. -/
theorem C88_profiles {α : Type} (profiles : List (Name × α)) (zero : α) (asked : List (List Name)) (hotels : List Name) :
    let cache := asked.foldl (fun c q => (getProfiles profiles zero c q).1) []
    (getProfiles profiles zero cache hotels).2 = hotels.map fun h => (profiles.lookup h).getD zero := by
  intro cache
  have hcache : ∀ k a, cache.lookup k = some a → a = (profiles.lookup k).getD zero := by
    have key : ∀ (asked : List (List Name)) (c : List (Name × α)), (∀ k a, c.lookup k = some a → a = (profiles.lookup k).getD zero) →
        ∀ k a, (asked.foldl (fun c q => (getProfiles profiles zero c q).1) c).lookup k = some a → a = (profiles.lookup k).getD zero := by
      intro asked
      induction asked with
      | nil => intro c h; exact h
      | cons q asked ih =>
        intro c h
        exact ih _ (cached_spec (fun h => (profiles.lookup h).getD zero) q c h).2
    exact key asked [] fun k a h => by cases h
  exact (cached_spec (fun h => (profiles.lookup h).getD zero) hotels cache hcache).1

/-- C88 refuted: `GetRates` and the search return the same for all dates, though they promise rates and available hotels for the
dates asked for: hotels whose rate plans are for other dates are returned, and so are fully booked ones. -/
theorem C88_dates_refuted (plans : List RatePlan) (cache : List (Name × List RatePlan)) (hotels : List Name) (i o i' o' : Name) :
    getRates plans cache hotels i o = getRates plans cache hotels i' o' ∧
    nearby plans cache hotels i o = nearby plans cache hotels i' o' := ⟨rfl, rfl⟩

/-! ### Concrete cases -/

/-- A calendar that counts days with strokes. -/
private def strokes : Calendar where
  parse t := min t.length 100
  text n := List.replicate n '|'

private theorem strokes_sane : strokes.Sane 100 := by
  refine ⟨fun t => Nat.min_le_right _ _, ?_, ?_⟩
  · intro a b _ _ h
    simpa [strokes] using congrArg List.length h
  · intro d c h
    rw [(List.mem_replicate.1 h).2]
    decide

private def d (n : Nat) : Name := List.replicate n '|'

-- hotel A has two rooms, one of which is taken in night 3; then three guests come
example : (run strokes (fresh strokes [(['A'], 2)] [([], ⟨['A'], 3, 4, 1⟩)])
    [.make [] [['A']] (d 2) (d 5) 1, .make [] [['A']] (d 2) (d 4) 1, .make [] [['A']] (d 4) (d 6) 1,
      .check [['A'], ['B'], ['A']] (d 5) (d 7) 1, .check [['A']] (d 4) (d 6) 1]).2 =
    [some [['A']], some [], some [['A']], some [['A'], ['A']], some []] := by decide +kernel
example : ∀ c ∈ [Call.make [] [['A']] (d 2) (d 5) 1, .check [['A'], ['B'], ['A']] (d 5) (d 7) 1],
    Harmless strokes [⟨['A'], 3, 4, 1⟩] c := by
  intro c hc
  simp only [List.mem_cons, List.not_mem_nil, or_false] at hc
  rcases hc with rfl | rfl
  · trivial
  · intro b hb _
    rw [List.mem_singleton.1 hb]
    decide
example : ∀ h x, taken [⟨['A'], 3, 4, 1⟩] h x ≤ ((([(['A'], 2)] : List (Name × Int)).lookup h).getD 0) := by
  intro h x
  by_cases e : ['A'] = h
  · subst e
    simp only [taken, Booking.covers, List.filter_cons]
    split <;> simp
  · have : (h == ['A']) = false := beq_eq_false_iff_ne.2 (Ne.symm e)
    have e' : ((['A'] : Name) == h) = false := beq_eq_false_iff_ne.2 e
    simp [taken, Booking.covers, List.lookup_cons, this, e']
-- the refuted theorems
example : strokes.parse (d 2) = 2 ∧ strokes.parse (d 3) = 3 ∧ strokes.parse (d 4) = 4 := by decide
example : (getRates [⟨['A'], d 1, d 2⟩, ⟨['B'], d 1, d 2⟩] [] [['B'], ['C'], ['A']] (d 5) (d 6)).2 = [⟨['B'], d 1, d 2⟩, ⟨['A'], d 1, d 2⟩] := by
  decide

end Verif.Hotel
