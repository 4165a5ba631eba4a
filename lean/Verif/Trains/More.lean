import Verif.Trains.Rows
import Verif.NoSQL.Text
/-
C105 to C109: routes, payments, consign prices, assurances, users and contacts.
-/
set_option linter.unusedSectionVars false
namespace Verif.Trains
open Verif.NoSQL (Name Doc Value Host Codec Ret deleteOne deleteMany atoi digits)
variable {F : Type} [Host F] {T : Type}

/-! ### C105: routes -/
namespace Routes
open Prices (split split_no split_at split_ne_nil)

theorem digits_eq (s : Name) (h : ∀ c ∈ s, c.isDigit = true) (acc : Nat) : digits acc s = some (Nat.ofDigitChars 10 s acc) := by
  induction s generalizing acc with
  | nil => rfl
  | cons c cs ih =>
    rw [digits, if_pos (h c (by simp)), ih (fun d hd => h d (by simp [hd])), Nat.ofDigitChars_cons]

theorem digits_render (n : Nat) : digits 0 (Nat.toDigits 10 n) = some n := by
  rw [digits_eq _ (fun c hc => Nat.isDigit_of_mem_toDigits (b := 10) (by omega) (by omega) hc), Nat.ofDigitChars_ten_toDigits]

theorem render_ne_nil (n : Nat) : Nat.toDigits 10 n ≠ [] := by
  intro h
  have := Nat.length_toDigits_pos (b := 10) (n := n)
  rw [h] at this
  simp at this

theorem render_digit (n : Nat) : ∀ c ∈ Nat.toDigits 10 n, c.isDigit = true :=
  fun _ hc => Nat.isDigit_of_mem_toDigits (b := 10) (by omega) (by omega) hc

theorem atoi_render (n : Int) (h : -2 ^ 63 ≤ n ∧ n < 2 ^ 63) : atoi (render n) = some n := by
  cases n with
  | ofNat n =>
    have hd := render_digit n
    have hn := render_ne_nil n
    have he := digits_render n
    have hlt : n < 2 ^ 63 := by have := h.2; simp at this; omega
    simp only [render]
    generalize hs : Nat.toDigits 10 n = s at *
    unfold atoi
    split
    · exact absurd (hd '-' (by simp)) (by decide)
    · exact absurd (hd '+' (by simp)) (by decide)
    · simp only [if_neg hn, he, Option.bind_some, if_pos hlt]
      rfl
  | negSucc n =>
    have he := digits_render (n + 1)
    have hlt : n + 1 ≤ 2 ^ 63 := by have := h.1; omega
    simp only [render, atoi, if_neg (render_ne_nil (n + 1)), he, Option.bind_some, if_pos hlt]
    rfl

theorem render_comma (n : Int) : ',' ∉ render n := by
  intro h
  cases n with
  | ofNat n => exact absurd (render_digit n ',' h) (by decide)
  | negSucc n =>
    rcases List.mem_cons.1 h with h | h
    · exact absurd h (by decide)
    · exact absurd (render_digit (n + 1) ',' h) (by decide)

theorem split_pieces (text : Name) (ps : List Name) (h : IsPieces text ps) : split ',' text = ps := by
  obtain ⟨hn, hc, rfl⟩ := h
  induction ps with
  | nil => exact (hn rfl).elim
  | cons p ps ih =>
    cases ps with
    | nil => simpa [List.intercalate] using split_no ',' p (hc p (by simp))
    | cons p' ps =>
      have := ih (by simp) (fun q hq => hc q (by simp [hq]))
      have e : List.intercalate [','] (p :: p' :: ps) = p ++ ',' :: List.intercalate [','] (p' :: ps) := by
        simp [List.intercalate, List.intersperse]
      rw [e, split_at _ _ _ (hc p (by simp)), this]

/-- Every text has pieces. -/
theorem pieces_split (text : Name) : IsPieces text (split ',' text) := by
  induction text with
  | nil => exact ⟨by simp [split], by simp [split], by simp [split, List.intercalate]⟩
  | cons c cs ih =>
    obtain ⟨h1, h2, h3⟩ := ih
    by_cases hc : c = ','
    · subst hc
      rw [split, if_pos rfl]
      refine ⟨by simp, ?_, ?_⟩
      · intro p hp
        rcases List.mem_cons.1 hp with rfl | hp
        · simp
        · exact h2 p hp
      · cases hs : split ',' cs with
        | nil => exact (h1 hs).elim
        | cons q qs =>
          rw [hs] at h3
          conv => lhs; rw [h3]
          simp [List.intercalate, List.intersperse]
    · rw [split, if_neg hc]
      cases hs : split ',' cs with
      | nil => exact (h1 hs).elim
      | cons q qs =>
        rw [hs] at h2 h3
        refine ⟨by simp, ?_, ?_⟩
        · intro p hp
          rcases List.mem_cons.1 hp with rfl | hp
          · simp only [List.mem_cons, not_or]
            exact ⟨Ne.symm hc, h2 q (by simp)⟩
          · exact h2 p (by simp [hp])
        · conv => lhs; rw [h3]
          cases qs <;> simp [List.intercalate, List.intersperse]

theorem distances_render (ns : List Int) (h : ∀ n ∈ ns, -2 ^ 63 ≤ n ∧ n < 2 ^ 63) : distances (ns.map render) = some ns := by
  induction ns with
  | nil => rfl
  | cons n ns ih => simp [distances, atoi_render n (h n (by simp)), ih (fun x hx => h x (by simp [hx]))]

theorem distances_length {ps : List Name} {ds : List Int} (h : distances ps = some ds) : ds.length = ps.length := by
  induction ps generalizing ds with
  | nil => cases h; rfl
  | cons p ps ih =>
    rw [distances] at h
    cases ha : atoi p with
    | none => rw [ha] at h; cases h
    | some n =>
      rw [ha] at h
      cases hd : distances ps with
      | none => rw [hd] at h; cases h
      | some ds' => rw [hd] at h; cases h; simp [ih hd]

theorem keyed : KeyField (routes (F := F)) Route.id fId := fun s => Codec.asks_str (by plain) (by decide) (fun _ => rfl) s

theorem endsAt (start stop : Name) : (routes (F := F)).Asks
    [(Verif.NoSQL.kAnd, .arr [.doc [(fStartstation, .str start)], .doc [(fEndstation, .str stop)]] [])]
    fun t => (start == t.startStation) && (stop == t.endStation) :=
  Codec.asks_and (Codec.asks_str (by plain) (by decide) (fun _ => rfl) start)
    (Codec.asks_str (by plain) (by decide) (fun _ => rfl) stop) ⟨[], [], [], [], []⟩ []

/-- The id that the route gets. -/
def idOf (info : Info) (uuid : Name) : Name := if info.id.length < 32 then uuid else info.id

/-- What `CreateAndModify` does. -/
theorem cam_eq {docs : List (Doc F)} {m : Table Route} (h : Shows routes Route.id docs m) (info : Info) (uuid : Name) (newId : Nat)
    (hu : m uuid = none) :
    (∃ ds docs', distances (split ',' info.distanceList) = some ds ∧ (split ',' info.stationList).length = ds.length ∧
      createAndModify docs info uuid newId =
        (docs', .ok ⟨idOf info uuid, split ',' info.stationList, ds, info.startStation, info.endStation⟩) ∧
      Shows routes Route.id docs'
        (m.put (idOf info uuid) ⟨idOf info uuid, split ',' info.stationList, ds, info.startStation, info.endStation⟩)) ∨
    (createAndModify docs info uuid newId = (docs, .error) ∧
      ∀ ds, distances (split ',' info.distanceList) = some ds → (split ',' info.stationList).length ≠ ds.length) := by
  unfold createAndModify
  cases hd : distances (split ',' info.distanceList) with
  | none => exact Or.inr ⟨rfl, fun ds h => by cases h⟩
  | some ds =>
    simp only
    by_cases hl : (split ',' info.stationList).length = ds.length
    · left
      refine ⟨ds, ?_⟩
      rw [if_neg (by simpa using hl)]
      by_cases hs : info.id.length < 32
      · have : info.id = [] ∨ info.id.length < 32 := Or.inr hs
        rw [if_pos this]
        obtain ⟨docs', h1, h2⟩ := h.insert routes_ok
          ⟨uuid, split ',' info.stationList, ds, info.startStation, info.endStation⟩ hu newId
        refine ⟨docs', rfl, hl, ?_, ?_⟩
        · rw [h1, idOf, if_pos hs]; rfl
        · rw [idOf, if_pos hs]; exact h2
      · have : ¬ (info.id = [] ∨ info.id.length < 32) := by
          rintro (e | e)
          · rw [e] at hs; exact hs (by decide)
          · exact hs e
        rw [if_neg this, h.one routes_ok keyed]
        cases hm : m info.id with
        | none =>
          obtain ⟨docs', h1, h2⟩ := h.insert routes_ok
            ⟨info.id, split ',' info.stationList, ds, info.startStation, info.endStation⟩ hm newId
          refine ⟨docs', rfl, hl, ?_, ?_⟩
          · simp only [onOk]; rw [h1, idOf, if_neg hs]; rfl
          · rw [idOf, if_neg hs]; exact h2
        | some old =>
          have ho : old.id = info.id := h.key_of hm
          obtain ⟨docs', h1, h2⟩ := h.upserted routes_ok keyed
            ⟨info.id, split ',' info.stationList, ds, info.startStation, info.endStation⟩ newId
          refine ⟨docs', rfl, hl, ?_, ?_⟩
          · simp only [onOk, ho]
            rw [h1, hm, idOf, if_neg hs]; rfl
          · rw [idOf, if_neg hs]; exact h2
    · right
      rw [if_pos (by simpa using hl)]
      exact ⟨rfl, fun ds' h => by cases h; exact hl⟩

/-- Freshness at the end of a history. -/
def seenAfter : List Name → List Op → List Name
  | seen, [] => seen
  | seen, .createAndModify info uuid _ :: ops => seenAfter (info.id :: uuid :: seen) ops
  | seen, .delete _ :: ops => seenAfter seen ops

theorem run_shows (ops : List Op) (seen : List Name) (docs : List (Doc F)) (m : Table Route) (h : Shows routes Route.id docs m)
    (hm : ∀ k, (m k).isSome → k ∈ seen ∧ 32 ≤ k.length) (hf : FreshFrom seen ops) :
    Shows routes Route.id (ops.foldl step (docs, m)).1 (ops.foldl step (docs, m)).2 ∧
    ∀ k, ((ops.foldl step (docs, m)).2 k).isSome → k ∈ seenAfter seen ops ∧ 32 ≤ k.length := by
  induction ops generalizing seen docs m with
  | nil => exact ⟨h, hm⟩
  | cons op ops ih =>
    rw [List.foldl_cons]
    cases op with
    | createAndModify info uuid i =>
      have hu : m uuid = none := by
        cases e : m uuid with
        | none => rfl
        | some r => exact (hf.1 (hm uuid (by rw [e]; rfl)).1).elim
      rcases cam_eq h info uuid i hu with ⟨ds, docs', h1, h2, h3, h4⟩ | ⟨h1, -⟩
      · simp only [step, h3]
        refine ih (info.id :: uuid :: seen) _ _ h4 ?_ hf.2.2
        intro k hk
        unfold Table.put at hk
        split at hk
        · rename_i e
          subst e
          unfold idOf
          split
          · exact ⟨by simp, hf.2.1⟩
          · exact ⟨by simp, by omega⟩
        · exact ⟨by simp [(hm k hk).1], (hm k hk).2⟩
      · simp only [step, h1]
        exact ih (info.id :: uuid :: seen) _ _ h (fun k hk => ⟨by simp [(hm k hk).1], (hm k hk).2⟩) hf.2.2
    | delete id =>
      obtain ⟨docs', h1, h2⟩ := h.delete routes_ok keyed id
      simp only [step, delete, h1]
      refine ih seen _ _ h2 ?_ hf
      intro k hk
      unfold Table.drop at hk
      split at hk
      · cases hk
      · exact hm k hk

theorem shows (ops : List Op) (hf : Fresh ops) : Shows (routes (F := F)) Route.id (after ops) (table F ops) :=
  (run_shows ops [] [] Table.empty Shows.empty (fun _ h => by cases h) hf).1

theorem long (ops : List Op) (hf : Fresh ops) (k : Name) (h : (table F ops k).isSome) : 32 ≤ k.length :=
  ((run_shows (F := F) ops [] [] Table.empty Shows.empty (fun _ h => by cases h) hf).2 k h).2

theorem fresh_prefix (seen : List Name) (ops ops' : List Op) (h : FreshFrom seen (ops ++ ops')) :
    FreshFrom seen ops ∧ FreshFrom (seenAfter seen ops) ops' := by
  induction ops generalizing seen with
  | nil => exact ⟨trivial, h⟩
  | cons op ops ih =>
    cases op with
    | createAndModify info uuid i =>
      obtain ⟨h1, h2, h3⟩ := h
      obtain ⟨h4, h5⟩ := ih _ h3
      exact ⟨⟨h1, h2, h4⟩, h5⟩
    | delete id => exact ih _ h

theorem fresh_none (ops : List Op) (info : Info) (uuid : Name) (newId : Nat) (hf : Fresh (ops ++ [.createAndModify info uuid newId])) :
    Fresh ops ∧ table F ops uuid = none := by
  obtain ⟨h1, h2⟩ := fresh_prefix [] ops _ hf
  refine ⟨h1, ?_⟩
  cases e : table F ops uuid with
  | none => rfl
  | some r =>
    exact (h2.1 ((run_shows (F := F) ops [] [] Table.empty Shows.empty (fun _ h => by cases h) h1).2 uuid
      (by rw [show (List.foldl step (([] : List (Doc F)), Table.empty) ops).2 uuid = some r from e]; rfl)).1).elim

/-- `GetRouteById` returns the route that the last `CreateAndModify` for that id returned, unless it was deleted since; else an
error. -/
theorem C105_get (ops : List Op) (hf : Fresh ops) (id : Name) : getById (F := F) (after ops) id = answer (table F ops id) := by
  rw [getById, (shows ops hf).one routes_ok keyed]
  cases table F ops id <;> rfl

/-- `CreateAndModify`, given the stations between commas and as many distances, returns a route with exactly these, with the id that was
given if that has at least 32 characters and else with a new one. -/
theorem C105_create_and_modify (ops : List Op) (info : Info) (uuid : Name) (newId : Nat)
    (hf : Fresh (ops ++ [.createAndModify info uuid newId])) (stations : List Name) (ds : List Int)
    (hs : IsPieces info.stationList stations) (hd : IsNumbers info.distanceList ds) (hl : stations.length = ds.length) :
    (createAndModify (F := F) (after ops) info uuid newId).2 =
      .ok ⟨if info.id.length < 32 then uuid else info.id, stations, ds, info.startStation, info.endStation⟩ := by
  obtain ⟨h1, h2⟩ := fresh_none (F := F) ops info uuid newId hf
  have e1 := split_pieces _ _ hs
  have e2 : distances (split ',' info.distanceList) = some ds := by
    rw [split_pieces _ _ hd.1, distances_render _ hd.2]
  rcases cam_eq (shows ops h1) info uuid newId h2 with ⟨ds', docs', h3, h4, h5, h6⟩ | ⟨-, h3⟩
  · rw [e2] at h3; cases h3
    rw [h5, e1]; rfl
  · exact (h3 ds e2 (by rw [e1, hl])).elim

/-- It succeeds only if there are as many distances as stations, and every distance is a number; else nothing is stored. -/
theorem C105_refused (ops : List Op) (info : Info) (uuid : Name) (newId : Nat) (hf : Fresh (ops ++ [.createAndModify info uuid newId]))
    (stations pieces : List Name) (hs : IsPieces info.stationList stations) (hd : IsPieces info.distanceList pieces)
    (hb : stations.length ≠ pieces.length ∨ ∃ p ∈ pieces, ∀ n, ¬ Verif.NoSQL.IsNumber p n) :
    createAndModify (F := F) (after ops) info uuid newId = (after ops, .error) := by
  replace hb : stations.length ≠ pieces.length ∨ ∃ p ∈ pieces, atoi p = none := hb.imp id fun ⟨p, hp, h⟩ =>
    ⟨p, hp, Option.eq_none_iff_forall_ne_some.2 fun n hn => h n ((Verif.NoSQL.C58_number p n).1 hn)⟩
  obtain ⟨h1, h2⟩ := fresh_none (F := F) ops info uuid newId hf
  have e1 := split_pieces _ _ hs
  have e2 := split_pieces _ _ hd
  rcases cam_eq (shows ops h1) info uuid newId h2 with ⟨ds, docs', h3, h4, h5, h6⟩ | ⟨h3, -⟩
  · rw [e2] at h3
    rcases hb with hb | ⟨p, hp, hb⟩
    · rw [e1, distances_length h3] at h4
      exact (hb h4).elim
    · exfalso
      clear hd e2 h4 h5 h6
      induction pieces generalizing ds with
      | nil => cases hp
      | cons q qs ih =>
        rw [distances] at h3
        rcases List.mem_cons.1 hp with rfl | hp
        · rw [hb] at h3; cases h3
        · cases ha : atoi q with
          | none => rw [ha] at h3; cases h3
          | some n =>
            rw [ha] at h3
            cases hd : distances qs with
            | none => rw [hd] at h3; cases h3
            | some ds' => exact ih ds' hd hp
  · exact h3

/-- `GetRouteByIds` returns as many routes as there are ids, in their order, with an empty one for each that is not known. -/
theorem C105_get_many (ops : List Op) (hf : Fresh ops) (ids : List Name) :
    getByIds (F := F) (after ops) ids = .ok (ids.map fun id => (table F ops id).getD ⟨[], [], [], [], []⟩) := by
  induction ids with
  | nil => rfl
  | cons n ns ih =>
    rw [getByIds, C105_get ops hf n, ih]
    cases hs : table F ops n <;> simp [answer, hs, zero]

/-- `GetRouteByStartAndEnd` returns a route between the two stations, and an error if there is none. -/
theorem C105_start_and_end (ops : List Op) (hf : Fresh ops) (start stop : Name) :
    Finds Route.id (table F ops) (fun r => r.startStation = start ∧ r.endStation = stop)
      (getByStartAndEnd (F := F) (after ops) start stop) := by
  have e : (fun r : Route => r.startStation = start ∧ r.endStation = stop) =
      fun r => ((start == r.startStation) && (stop == r.endStation)) = true := by
    funext r
    rw [Bool.and_eq_true, beq_iff_eq, beq_iff_eq, eq_comm (a := start), eq_comm (a := stop)]
  rw [e]
  exact (shows ops hf).finds routes_ok (endsAt start stop)

/-- `GetAllRoutes` returns every route once and nothing else, and an error if there are none. -/
theorem C105_get_all (ops : List Op) (hf : Fresh ops) :
    (getAll (F := F) (after ops) = .error ∧ ∀ k, table F ops k = none) ∨
    ∃ l, l ≠ [] ∧ getAll (F := F) (after ops) = .ok l ∧ Lists Route.id (table F ops) (fun _ => True) l := by
  obtain ⟨l, h1, h2⟩ := (shows (F := F) ops hf).many routes_ok (Codec.asks_all _)
  rw [getAll, h1]
  cases l with
  | nil =>
    refine Or.inl ⟨rfl, fun k => ?_⟩
    cases hk : table F ops k with
    | none => rfl
    | some r =>
      have := (h2.mem r).2 ⟨by rw [(shows (F := F) ops hf).key_of hk, hk], rfl⟩
      cases this
  | cons r l => exact Or.inr ⟨r :: l, by simp, rfl, h2.distinct, fun t => by simpa using h2.mem t⟩

/-- An id of fewer than 32 characters is ignored: whatever was stored under it, `GetRouteById` does not find it. -/
theorem C105_short_id_refuted (ops : List Op) (hf : Fresh ops) (id : Name) (h : id.length < 32) :
    getById (F := F) (after ops) id = .error := by
  rw [C105_get ops hf]
  cases hk : table F ops id with
  | none => rfl
  | some r =>
    have := long (F := F) ops hf id (by rw [hk]; rfl)
    omega

end Routes

/-! ### C106: payments -/
namespace Payments

theorem byId (s : Name) : (payments (F := F)).Asks [(fId, .str s)] fun t => decide (t.id = s) :=
  asks_field (by plain) (by decide) (fun _ => rfl) s

theorem byOrder (s : Name) : (payments (F := F)).Asks [(fOrderid, .str s)] fun t => decide (t.orderID = s) :=
  asks_field (by plain) (by decide) (fun _ => rfl) s

/-- The databases hold the payments and the money, and `moneyDB`'s collection of payments is empty unless it is `paymentDB`. -/
structure Ok (v : Service) (s : State F) (l : List Payment × List Money) : Prop where
  pays : Holds payments (s v.paymentDB).payment l.1
  money : Holds moneys (s v.moneyDB).money l.2
  other : v.paymentDB ≠ v.moneyDB → (s v.moneyDB).payment = []

theorem set_same (s : State F) (i : Nat) (db : Db F) : s.set i db i = db := by simp [State.set]

theorem set_other (s : State F) {i j : Nat} (h : j ≠ i) (db : Db F) : s.set i db j = s j := by simp [State.set, h]

/-- Changing the collection of payments. -/
theorem Ok.setPay {v : Service} {s : State F} {l : List Payment × List Money} (h : Ok v s l) {docs : List (Doc F)} {l1 : List Payment}
    (hd : Holds payments docs l1) : Ok v (s.set v.paymentDB { s v.paymentDB with payment := docs }) (l1, l.2) := by
  refine ⟨by rw [set_same]; exact hd, ?_, ?_⟩
  · by_cases e : v.moneyDB = v.paymentDB
    · rw [e, set_same]; have := h.money; rw [e] at this; exact this
    · rw [set_other _ e]; exact h.money
  · intro e
    rw [set_other _ (Ne.symm e)]; exact h.other e

theorem ok_step (v : Service) (s : State F) (l : List Payment × List Money) (op : Op) (h : Ok v s l) :
    Ok v (step v s op) (effect v l op) := by
  cases op with
  | initPayment p i =>
    simp only [step, effect, initPayment, h.pays.one payments_ok (byId p.id), any_find]
    cases hf : l.1.find? fun u => decide (u.id = p.id) with
    | some _ => exact h.setPay h.pays
    | none =>
      obtain ⟨docs', h1, h2⟩ := h.pays.insert payments_ok p i
      simp only [onOk, h1]
      exact h.setPay h2
  | pay p i =>
    obtain ⟨docs', h1, h2⟩ := h.pays.upserted payments_ok (byOrder p.orderID) p i
    simp only [step, effect, pay, h1]
    have : (mustReplace () (docs', Ret.ok (l.1.any fun t => decide (t.orderID = p.orderID)))).1 = docs' := by
      cases l.1.any fun t => decide (t.orderID = p.orderID) <;> rfl
    rw [this]
    exact h.setPay h2
  | addMoney p uuid i =>
    obtain ⟨docs', h1, h2⟩ := h.money.insert moneys_ok ⟨uuid, p.userID, p.price⟩ i
    simp only [step, effect, addMoney, h1]
    refine ⟨?_, by rw [set_same]; exact h2, ?_⟩
    · by_cases e : v.paymentDB = v.moneyDB
      · rw [e, set_same]; have := h.pays; rw [e] at this; exact this
      · rw [set_other _ e]; exact h.pays
    · intro e
      rw [set_same]; exact h.other e
  | cleanup =>
    by_cases e : v.paymentDB = v.moneyDB
    · obtain ⟨docs', h1, h2⟩ := h.pays.clean payments_ok
      obtain ⟨docs'', h3, h4⟩ := h.money.clean moneys_ok
      rw [e] at h1
      simp only [step, effect, cleanup, h1, set_same, h3, e]
      exact ⟨by rw [e, set_same]; exact h2, by rw [set_same]; exact h4, fun h => (h e).elim⟩
    · obtain ⟨docs'', h3, h4⟩ := h.money.clean moneys_ok
      have h1 : deleteMany (s v.moneyDB).payment [] = ([], .ok ()) := by
        rw [h.other e]; rfl
      simp only [step, effect, cleanup, h1, set_same, h3, e, if_false]
      refine ⟨by rw [set_other _ e, set_other _ e]; exact h.pays, by rw [set_same]; exact h4, fun _ => by rw [set_same]⟩

theorem ok (v : Service) (ops : List Op) : Ok v (after (F := F) v ops) (stored v ops) := by
  have : ∀ (s : State F) l, Ok v s l → Ok v (ops.foldl (step v) s) (ops.foldl (effect v) l) := by
    induction ops with
    | nil => exact fun _ _ h => h
    | cons op ops ih => exact fun s l h => ih _ _ (ok_step v s l op h)
  exact this _ _ ⟨Holds.nil, Holds.nil, fun _ => rfl⟩

theorem stored_snoc (v : Service) (ops : List Op) (op : Op) : stored v (ops ++ [op]) = effect v (stored v ops) op := by
  rw [stored, List.foldl_append]; rfl

/-- `Query` returns the payments that the calls before left, in order. -/
theorem C106_query (v : Service) (ops : List Op) : query (F := F) v (after v ops) = .ok (stored v ops).1 := by
  rw [query, (ok v ops).pays.all payments_ok]

/-- `InitPayment` and `AddMoney` and `Cleanup` always succeed; `Pay` succeeds exactly if there is a payment for the order. -/
theorem C106_write (v : Service) (ops : List Op) (p : Payment) (uuid : Name) (newId : Nat) :
    (initPayment (F := F) v (after v ops) p newId).2 = .ok () ∧ (addMoney (F := F) v (after v ops) p uuid newId).2 = .ok () ∧
    (cleanup (F := F) v (after v ops)).2 = .ok () ∧
    (pay (F := F) v (after v ops) p newId).2 = if ∃ u ∈ (stored v ops).1, u.orderID = p.orderID then .ok () else .error := by
  have h := ok (F := F) v ops
  refine ⟨?_, ?_, ?_, ?_⟩
  · simp only [initPayment, h.pays.one payments_ok (byId p.id)]
    cases hf : (stored v ops).1.find? fun u => decide (u.id = p.id) with
    | some _ => rfl
    | none =>
      obtain ⟨docs', h1, -⟩ := h.pays.insert payments_ok p newId
      simp [onOk, h1]
  · obtain ⟨docs', h1, -⟩ := h.money.insert moneys_ok ⟨uuid, p.userID, p.price⟩ newId
    simp [addMoney, h1]
  · by_cases e : v.paymentDB = v.moneyDB
    · obtain ⟨docs', h1, h2⟩ := h.pays.clean payments_ok
      obtain ⟨docs'', h3, h4⟩ := h.money.clean moneys_ok
      rw [e] at h1
      simp [cleanup, h1, set_same, h3]
    · obtain ⟨docs'', h3, h4⟩ := h.money.clean moneys_ok
      have h1 : deleteMany (after (F := F) v ops v.moneyDB).payment [] = ([], .ok ()) := by
        rw [h.other e]; rfl
      simp [cleanup, h1, set_same, h3]
  · obtain ⟨docs', h1, -⟩ := h.pays.upserted payments_ok (byOrder p.orderID) p newId
    simp only [pay, h1]
    cases ha : (stored v ops).1.any fun u => decide (u.orderID = p.orderID) with
    | true =>
      obtain ⟨u, hu, e⟩ := List.any_eq_true.1 ha
      rw [if_pos ⟨u, hu, by simpa using e⟩]; rfl
    | false =>
      rw [if_neg]
      · rfl
      · rintro ⟨u, hu, e⟩
        rw [List.any_eq_true.2 ⟨u, hu, by simpa using e⟩] at ha; cases ha

/-- `Pay` for an order that has no payment reports that it was not found, and yet stores the payment: `Query` then has it. -/
theorem C106_pay_refuted (v : Service) (ops : List Op) (p : Payment) (newId : Nat)
    (h : ∀ u ∈ (stored v ops).1, u.orderID ≠ p.orderID) :
    (pay (F := F) v (after v ops) p newId).2 = .error ∧
    query (F := F) v (after v (ops ++ [.pay p newId])) = .ok ((stored v ops).1 ++ [p]) := by
  refine ⟨?_, ?_⟩
  · rw [(C106_write v ops p [] newId).2.2.2, if_neg]
    rintro ⟨u, hu, e⟩
    exact h u hu e
  · rw [C106_query, stored_snoc]
    simp only [effect, replaceOrAdd]
    rw [if_neg]
    intro e
    obtain ⟨u, hu, e⟩ := List.any_eq_true.1 e
    exact h u hu (by simpa using e)

/-- A second `Pay` for the order succeeds and replaces the payment, if there is one for the order. -/
theorem C106_pay (v : Service) (ops : List Op) (p : Payment) (newId : Nat)
    (h : ∃ u ∈ (stored v ops).1, u.orderID = p.orderID) :
    (pay (F := F) v (after v ops) p newId).2 = .ok () ∧
    query (F := F) v (after v (ops ++ [.pay p newId])) = .ok (replaceFirst (fun u => u.orderID = p.orderID) p (stored v ops).1) := by
  refine ⟨by rw [(C106_write v ops p [] newId).2.2.2, if_pos h], ?_⟩
  rw [C106_query, stored_snoc]
  simp only [effect, replaceOrAdd]
  rw [if_pos]
  obtain ⟨u, hu, e⟩ := h
  exact List.any_eq_true.2 ⟨u, hu, by simpa using e⟩

/-- After `Cleanup` there are no payments, if the two databases are the same one.  The property asks for this also if they are not. -/
theorem C106_cleanup_partial (v : Service) (ops : List Op) (h : v.paymentDB = v.moneyDB) :
    query (F := F) v (after v (ops ++ [.cleanup])) = .ok [] := by
  rw [C106_query, stored_snoc]
  simp [effect, h]

/-- If they are different, as in the example's wiring (wiring/specs/docker.go lines 80-82), `Cleanup` reports success and removes no
payment. -/
theorem C106_cleanup_refuted (v : Service) (ops : List Op) (h : v.paymentDB ≠ v.moneyDB) :
    (cleanup (F := F) v (after v ops)).2 = .ok () ∧
    query (F := F) v (after v (ops ++ [.cleanup])) = query (F := F) v (after v ops) := by
  refine ⟨(C106_write v ops ⟨[], [], [], []⟩ [] 0).2.2.1, ?_⟩
  rw [C106_query, C106_query, stored_snoc]
  simp [effect, h]

end Payments

/-! ### C107: consign prices -/
namespace Consign

theorem atZero : (consignPrices (F := F)).Asks [(fIndex, .int .int 0)] fun t => (0 : Int) == t.index :=
  Codec.asks_int (by plain) (by decide) (kd := fun _ => .int64) (fun _ => rfl) .int 0

/-- The configuration with the index that it gets. -/
def indexed (pc : ConsignPrice F) : ConsignPrice F := { pc with index := 0 }

theorem set_eq {docs : List (Doc F)} {l : List (ConsignPrice F)} (h : Holds consignPrices docs l) (hi : ∀ pc ∈ l, pc.index = 0)
    (pc : ConsignPrice F) (newId : Nat) :
    ∃ docs', set docs pc newId = (docs', .ok (indexed pc)) ∧
      Holds consignPrices docs' (match l with | [] => [indexed pc] | _ :: l => indexed pc :: l ++ [indexed pc]) := by
  unfold set
  rw [h.one consignPrices_ok atZero]
  cases l with
  | nil =>
    obtain ⟨docs', h1, h2⟩ := h.insert consignPrices_ok (indexed pc) newId
    refine ⟨docs', ?_, h2⟩
    simp only [onOk, List.find?_nil]
    rw [show ({ pc with index := 0 } : ConsignPrice F) = indexed pc from rfl, h1]; rfl
  | cons a l =>
    have ha : (0 == a.index) = true := by rw [hi a (by simp)]; rfl
    obtain ⟨docs', h1, h2⟩ := h.upserted consignPrices_ok atZero (indexed pc) newId
    have e : replaceOrAdd (fun t : ConsignPrice F => (0 : Int) == t.index) (indexed pc) (a :: l) = indexed pc :: l := by
      simp [replaceOrAdd, ha, replaceFirst]
    rw [e] at h2
    obtain ⟨docs'', h3, h4⟩ := h2.insert consignPrices_ok (indexed pc) newId
    refine ⟨docs'', ?_, h4⟩
    simp only [onOk, List.find?_cons, ha]
    rw [show ({ pc with index := 0 } : ConsignPrice F) = indexed pc from rfl, h1]
    simp only [List.any_cons, ha, Bool.true_or]
    rw [h3]; rfl

theorem holds (calls : List (ConsignPrice F × Nat)) :
    ∃ l, Holds consignPrices (after calls) l ∧ (∀ pc ∈ l, pc.index = 0) ∧ l.length = calls.length ∧
      l.head? = calls.getLast?.map fun pc => indexed pc.1 := by
  induction hn : calls.length generalizing calls with
  | zero =>
    rw [List.length_eq_zero_iff] at hn
    subst hn
    exact ⟨[], Holds.nil, by simp, rfl, rfl⟩
  | succ n ih =>
    have hne : calls ≠ [] := by intro e; subst e; simp at hn
    obtain ⟨init, last, rfl⟩ : ∃ init last, calls = init ++ [last] :=
      ⟨calls.dropLast, calls.getLast hne, (List.dropLast_concat_getLast hne).symm⟩
    have hl : init.length = n := by simpa using hn
    obtain ⟨l, h1, h2, h3, h4⟩ := ih init hl
    obtain ⟨docs', h5, h6⟩ := set_eq h1 h2 last.1 last.2
    have ha : after (init ++ [last]) = docs' := by
      rw [after, List.foldl_append, ← after]
      simp [h5]
    rw [ha]
    refine ⟨_, h6, ?_, ?_, ?_⟩
    · intro pc hpc
      cases l with
      | nil =>
        simp only [List.mem_singleton] at hpc
        rw [hpc]; rfl
      | cons a l =>
        simp only [List.cons_append, List.mem_cons, List.mem_append, List.not_mem_nil, or_false] at hpc
        rcases hpc with rfl | hpc | rfl
        · rfl
        · exact h2 pc (by simp [hpc])
        · rfl
    · cases l with
      | nil => simp at h3 ⊢; omega
      | cons a l => simp at h3 ⊢; omega
    · rw [List.getLast?_concat]
      cases l <;> rfl

/-- `GetPriceConfig` returns the configuration of the last call of `CreateAndModifyPriceConfig`, with index 0, and an error before the
first. -/
theorem C107_get (calls : List (ConsignPrice F × Nat)) :
    getConfig (after calls) = answer (calls.getLast?.map fun pc => { pc.1 with index := 0 }) := by
  obtain ⟨l, h1, h2, -, h4⟩ := holds calls
  rw [getConfig, h1.one consignPrices_ok atZero, find_answer]
  have : l.find? (fun t => (0 : Int) == t.index) = l.head? := by
    cases l with
    | nil => rfl
    | cons a l => rw [List.find?_cons, show ((0 : Int) == a.index) = true by rw [h2 a (by simp)]; rfl]; rfl
  rw [this, h4]; rfl

/-- `GetPriceByWeightAndRegion`: the initial price up to the initial weight, and above it what the excess weight costs in addition. -/
theorem C107_price [Arith F] (calls : List (ConsignPrice F × Nat)) (pc : ConsignPrice F) (newId : Nat) (weight : F) (within : Bool) :
    price (after (calls ++ [(pc, newId)])) weight within = .ok (if Host.fle weight pc.initialWeight then pc.initialPrice else
      Host.fadd pc.initialPrice (Arith.mul (Arith.sub weight pc.initialWeight) (if within then pc.withinPrice else pc.beyondPrice))) := by
  rw [price, C107_get, List.getLast?_concat]
  simp only [Option.map_some, answer]
  split
  · rfl
  · cases within <;> rfl

/-- `CreateAndModifyPriceConfig` always succeeds. -/
theorem C107_set (calls : List (ConsignPrice F × Nat)) (pc : ConsignPrice F) (newId : Nat) :
    (set (after calls) pc newId).2 = .ok { pc with index := 0 } := by
  obtain ⟨l, h1, h2, -, -⟩ := holds calls
  obtain ⟨docs', h3, -⟩ := set_eq h1 h2 pc newId
  rw [h3]; rfl

/-- There is to be one configuration, which is replaced.  After a replacement the code also inserts it: the collection has as many
documents as there were calls. -/
theorem C107_grows_refuted (calls : List (ConsignPrice F × Nat)) : (after calls).length = calls.length := by
  obtain ⟨l, h1, -, h3, -⟩ := holds calls
  rw [← h3, ← h1.eq]; simp [Codec.rows]

end Consign

/-! ### C108: assurances -/
namespace Assurances

theorem byId (s : Name) : (assurances (F := F)).Asks [(fId, .str s)] fun t => decide (t.id = s) :=
  asks_field (by plain) (by decide) (fun _ => rfl) s

theorem byOrder (s : Name) : (assurances (F := F)).Asks [(fOrderid, .str s)] fun t => decide (t.orderID = s) :=
  asks_field (by plain) (by decide) (fun _ => rfl) s

theorem modify_eq {docs : List (Doc F)} {l : List (Assurance F)} (h : Holds assurances docs l) (a : Assurance F) (newId : Nat) :
    ∃ docs', modify docs a newId = (docs', if l.any (fun u => u.id = a.id) then .ok a else .error) ∧
      Holds assurances docs' (replaceFirst (fun u => u.id = a.id) a l) := by
  unfold modify findById
  rw [h.one assurances_ok (byId a.id), any_find]
  cases hf : l.find? fun u => decide (u.id = a.id) with
  | none =>
    refine ⟨docs, rfl, ?_⟩
    have : replaceFirst (fun u => decide (u.id = a.id)) a l = l := by
      clear h
      induction l with
      | nil => rfl
      | cons b l ih =>
        rw [List.find?_cons] at hf
        split at hf
        · cases hf
        · rename_i hb
          rw [replaceFirst, if_neg (by rw [hb]; simp), ih hf]
    rw [this]; exact h
  | some b =>
    obtain ⟨docs', h1, h2⟩ := h.upserted assurances_ok (byId a.id) a newId
    have ha : l.any (fun u => decide (u.id = a.id)) = true := by rw [any_find, hf]; rfl
    rw [replaceOrAdd, if_pos ha] at h2
    refine ⟨docs', ?_, h2⟩
    simp [found, onOk, h1, ha, mustReplace]

theorem create_eq (k : Kinds F) {docs : List (Doc F)} {l : List (Assurance F)} (h : Holds assurances docs l) (type : Int)
    (order uuid : Name) (newId : Nat) :
    ∃ docs', create k docs type order uuid newId =
        (docs', if type = 1 then .ok ⟨uuid, order, 1, k.name, k.price⟩ else .error) ∧
      Holds assurances docs' (if type = 1 then l ++ [⟨uuid, order, 1, k.name, k.price⟩] else l) := by
  unfold create getType
  by_cases ht : type = 1
  · obtain ⟨docs', h1, h2⟩ := h.insert assurances_ok ⟨uuid, order, k.traffic⟩ newId
    refine ⟨docs', ?_, by rw [if_pos ht]; exact h2⟩
    rw [if_pos (by rw [ht]; rfl), if_pos ht]
    simp only [h1]; rfl
  · refine ⟨docs, ?_, by rw [if_neg ht]; exact h⟩
    rw [if_neg (by exact ht), if_neg ht]

theorem holds_step (k : Kinds F) (docs : List (Doc F)) (l : List (Assurance F)) (op : Op F) (h : Holds assurances docs l) :
    Holds assurances (step k docs op) (effect k l op) := by
  cases op with
  | create type order uuid i =>
    obtain ⟨docs', h1, h2⟩ := create_eq k h type order uuid i
    simp only [step, h1]; exact h2
  | modify a i =>
    obtain ⟨docs', h1, h2⟩ := modify_eq h a i
    simp only [step, h1]; exact h2
  | deleteById id =>
    obtain ⟨docs', h1, h2⟩ := h.delete assurances_ok (byId id)
    simp only [step, deleteById, h1]; exact h2
  | deleteByOrder order =>
    obtain ⟨docs', h1, h2⟩ := h.delete assurances_ok (byOrder order)
    simp only [step, deleteByOrder, h1]; exact h2

theorem holds (k : Kinds F) (ops : List (Op F)) : Holds assurances (after k ops) (stored k ops) := Holds.history (holds_step k) ops

theorem stored_snoc (k : Kinds F) (ops : List (Op F)) (op : Op F) : stored k (ops ++ [op]) = effect k (stored k ops) op := by
  rw [stored, List.foldl_append]; rfl

/-- The reads: all assurances, the first with the id, and the first of the order. -/
theorem C108_read (k : Kinds F) (ops : List (Op F)) (id order : Name) :
    getAll (after k ops) = .ok (stored k ops) ∧
    findById (after k ops) id = answer ((stored k ops).find? fun a => a.id = id) ∧
    findByOrder (after k ops) order = answer ((stored k ops).find? fun a => a.orderID = order) := by
  refine ⟨(holds k ops).all assurances_ok, ?_, ?_⟩
  · rw [findById, (holds k ops).one assurances_ok (byId id), find_answer]
  · rw [findByOrder, (holds k ops).one assurances_ok (byOrder order), find_answer]

/-- The writes: `Create` succeeds for the one type of assurance that there is, `Modify` for an assurance that is stored, and the
deletions always. -/
theorem C108_write (k : Kinds F) (ops : List (Op F)) (type : Int) (a : Assurance F) (id order uuid : Name) (newId : Nat) :
    (create k (after k ops) type order uuid newId).2 = (if type = 1 then .ok ⟨uuid, order, 1, k.name, k.price⟩ else .error) ∧
    (modify (after k ops) a newId).2 = (if ∃ b ∈ stored k ops, b.id = a.id then .ok a else .error) ∧
    (deleteById (after k ops) id).2 = .ok () ∧ (deleteByOrder (after k ops) order).2 = .ok () := by
  have h := holds k ops
  refine ⟨?_, ?_, ?_, ?_⟩
  · obtain ⟨_, h1, -⟩ := create_eq k h type order uuid newId
    rw [h1]
  · obtain ⟨_, h1, -⟩ := modify_eq h a newId
    rw [h1]
    have : ((stored k ops).any (fun u => decide (u.id = a.id)) = true) ↔ ∃ b ∈ stored k ops, b.id = a.id := by
      simp [List.any_eq_true]
    by_cases hb : ∃ b ∈ stored k ops, b.id = a.id
    · rw [if_pos hb, if_pos (this.2 hb)]
    · rw [if_neg hb, if_neg (fun e => hb (this.1 e))]
  · obtain ⟨_, h1, -⟩ := h.delete assurances_ok (byId id)
    rw [deleteById, h1]
  · obtain ⟨_, h1, -⟩ := h.delete assurances_ok (byOrder order)
    rw [deleteByOrder, h1]

/-- After `DeleteByOrderId` the order has no assurance, if it had at most one.  The property asks for this however many it had. -/
theorem C108_delete_by_order_partial (k : Kinds F) (ops : List (Op F)) (order : Name)
    (h : (stored k ops).countP (fun a => a.orderID = order) ≤ 1) :
    findByOrder (after k (ops ++ [.deleteByOrder order])) order = .error := by
  rw [(C108_read k _ [] order).2.2, stored_snoc]
  simp only [effect, remove_last _ _ h]; rfl

/-- `Create` does not look whether the order has an assurance, and `DeleteByOrderId` removes one: of two, the other stays. -/
theorem C108_delete_by_order_refuted (k : Kinds F) (ops : List (Op F)) (order : Name)
    (h : 2 ≤ (stored k ops).countP (fun a => a.orderID = order)) :
    ∃ a, findByOrder (after k (ops ++ [.deleteByOrder order])) order = .ok a := by
  rw [(C108_read k _ [] order).2.2, stored_snoc]
  obtain ⟨t, ht⟩ := remove_one_of_two _ _ h
  exact ⟨t, by simp only [effect, ht]; rfl⟩

/-- Such a history. -/
example (k : Kinds F) : 2 ≤ (stored k [.create 1 ['o'] ['a'] 1, .create 1 ['o'] ['b'] 2]).countP (fun a => a.orderID = ['o']) := by
  simp [stored, effect]

end Assurances

/-! ### C109: users and contacts -/
namespace Users

theorem byId (s : Name) : (users (F := F)).Asks [(fUserid, .str s)] fun t => decide (t.userID = s) :=
  asks_field (by plain) (by decide) (fun _ => rfl) s

theorem byName (s : Name) : (users (F := F)).Asks [(fUsername, .str s)] fun t => decide (t.username = s) :=
  asks_field (by plain) (by decide) (fun _ => rfl) s

theorem holds_step (docs : List (Doc F)) (l : List User) (op : Op) (h : Holds users docs l) :
    Holds users (step docs op) (effect l op) := by
  cases op with
  | save u i =>
    obtain ⟨docs', h1, h2⟩ := h.insert users_ok u i
    simp only [step, save, h1]; exact h2
  | update u i =>
    obtain ⟨docs', h1, h2⟩ := h.upserted users_ok (byId u.userID) u i
    simp only [step, update, h1]; exact h2
  | delete id =>
    obtain ⟨docs', h1, h2⟩ := h.delete users_ok (byId id)
    simp only [step, delete, h1]; exact h2

theorem holds (ops : List Op) : Holds (users (F := F)) (after ops) (stored ops) := Holds.history holds_step ops

theorem stored_snoc (ops : List Op) (op : Op) : stored (ops ++ [op]) = effect (stored ops) op := by
  rw [stored, List.foldl_append]; rfl

/-- The reads: all users, the first with the id, and the first with the name. -/
theorem C109_users_read (ops : List Op) (id name : Name) :
    getAll (F := F) (after ops) = .ok (stored ops) ∧
    findByID (F := F) (after ops) id = answer ((stored ops).find? fun u => u.userID = id) ∧
    findByUsername (F := F) (after ops) name = answer ((stored ops).find? fun u => u.username = name) := by
  refine ⟨(holds ops).all users_ok, ?_, ?_⟩
  · rw [findByID, (holds ops).one users_ok (byId id), find_answer]
  · rw [findByUsername, (holds ops).one users_ok (byName name), find_answer]

/-- The writes: `SaveUser` and `DeleteUser` always succeed, and `UpdateUser` tells whether there was a user with that id. -/
theorem C109_users_write (ops : List Op) (u : User) (id : Name) (newId : Nat) :
    (save (F := F) (after ops) u newId).2 = .ok () ∧ (delete (F := F) (after ops) id).2 = .ok () ∧
    (update (F := F) (after ops) u newId).2 = .ok (decide (∃ v ∈ stored ops, v.userID = u.userID)) := by
  have h := holds (F := F) ops
  refine ⟨?_, ?_, ?_⟩
  · obtain ⟨_, h1, -⟩ := h.insert users_ok u newId
    rw [save, h1]
  · obtain ⟨_, h1, -⟩ := h.delete users_ok (byId id)
    rw [delete, h1]
  · obtain ⟨_, h1, -⟩ := h.upserted users_ok (byId u.userID) u newId
    rw [update, h1]
    simp only [Ret.ok.injEq]
    rw [Bool.eq_iff_iff, List.any_eq_true, decide_eq_true_iff]
    simp

/-- After `UpdateUser`, `FindByUserID` returns what was given to it. -/
theorem C109_update_then_find (ops : List Op) (u : User) (newId : Nat) :
    findByID (F := F) (after (ops ++ [.update u newId])) u.userID = .ok u := by
  rw [(C109_users_read _ u.userID []).2.1, stored_snoc]
  simp only [effect]
  rw [find_replaceOrAdd _ _ (by simp)]; rfl

/-- After `DeleteUser` no user has the id, if at most one had it.  The property asks for this however many there were. -/
theorem C109_delete_user_partial (ops : List Op) (id : Name) (h : (stored ops).countP (fun u => u.userID = id) ≤ 1) :
    findByID (F := F) (after (ops ++ [.delete id])) id = .error := by
  rw [(C109_users_read _ id []).2.1, stored_snoc]
  simp only [effect, remove_last _ _ h]; rfl

/-- `SaveUser` does not look whether there is a user with that id, and `DeleteUser` removes one: after saving a user twice, `DeleteUser`
reports success and the user is still there. -/
theorem C109_delete_user_refuted (ops : List Op) (u : User) (i j : Nat) :
    ∃ v, findByID (F := F) (after (ops ++ [.save u i, .save u j, .delete u.userID])) u.userID = .ok v := by
  rw [(C109_users_read _ u.userID []).2.1,
    show ops ++ [.save u i, .save u j, .delete u.userID] = (ops ++ [.save u i] ++ [.save u j]) ++ [.delete u.userID] by simp,
    stored_snoc, stored_snoc, stored_snoc]
  simp only [effect]
  obtain ⟨v, hv⟩ := remove_one_of_two (fun v : User => decide (v.userID = u.userID)) (stored ops ++ [u] ++ [u]) (by
    simp [List.countP_append])
  exact ⟨v, by rw [hv]; rfl⟩

end Users

namespace Contacts

theorem byId (s : Name) : (contacts (F := F)).Asks [(fId, .str s)] fun t => decide (t.id = s) :=
  asks_field (by plain) (by decide) (fun _ => rfl) s

theorem byAccount (s : Name) : (contacts (F := F)).Asks [(fAccountid, .str s)] fun t => decide (t.accountID = s) :=
  asks_field (by plain) (by decide) (fun _ => rfl) s

theorem same (c : Contact) : (contacts (F := F)).Asks [(fAccountid, .str c.accountID), (fDocumentnumber, .str c.documentNumber),
    (fDocumenttype, .int .int c.documentType)] fun d => decide (Same c d) := by
  have a := Codec.asks_str (c := contacts (F := F)) (k := fAccountid) (get := Contact.accountID) (by plain) (by decide)
    (fun _ => rfl) c.accountID
  have b := Codec.asks_str (c := contacts (F := F)) (k := fDocumentnumber) (get := Contact.documentNumber) (by plain) (by decide)
    (fun _ => rfl) c.documentNumber
  have d := Codec.asks_int (c := contacts (F := F)) (k := fDocumenttype) (get := Contact.documentType) (by plain) (by decide)
    (kd := fun t => kindOf t.documentType) (fun _ => rfl) .int c.documentType
  have e : (fun x : Contact => decide (Same c x)) = fun x =>
      (c.accountID == x.accountID) && ((c.documentNumber == x.documentNumber) && (c.documentType == x.documentType)) := by
    funext x
    rw [Bool.eq_iff_iff]
    rw [decide_eq_true_iff]
    simp only [Bool.and_eq_true, beq_iff_eq, Same]
  rw [e]
  exact Codec.asks_both a (Codec.asks_both b d c) c

theorem holds_step (docs : List (Doc F)) (l : List Contact) (op : Op) (h : Holds contacts docs l) :
    Holds contacts (step docs op) (effect l op) := by
  cases op with
  | create c i =>
    simp only [step, effect, create, h.one contacts_ok (same c), any_find]
    cases hf : l.find? fun d => decide (Same c d) with
    | some _ => exact h
    | none =>
      obtain ⟨docs', h1, h2⟩ := h.insert contacts_ok c i
      simpa [onOk, h1] using h2
  | modify c i =>
    obtain ⟨docs', h1, h2⟩ := h.upserted contacts_ok (byId c.id) c i
    simp only [step, modify, h1]; exact h2
  | delete c =>
    obtain ⟨docs', h1, h2⟩ := h.delete contacts_ok (byId c.id)
    simp only [step, delete, h1]; exact h2

theorem holds (ops : List Op) : Holds (contacts (F := F)) (after ops) (stored ops) := Holds.history holds_step ops

theorem stored_snoc (ops : List Op) (op : Op) : stored (ops ++ [op]) = effect (stored ops) op := by
  rw [stored, List.foldl_append]; rfl

/-- The reads: all contacts, the first with the id, and exactly those of the account. -/
theorem C109_contacts_read (ops : List Op) (id account : Name) :
    getAll (F := F) (after ops) = .ok (stored ops) ∧
    findById (F := F) (after ops) id = answer ((stored ops).find? fun c => c.id = id) ∧
    findByAccount (F := F) (after ops) account = .ok ((stored ops).filter fun c => c.accountID = account) := by
  refine ⟨(holds ops).all contacts_ok, ?_, ?_⟩
  · rw [findById, (holds ops).one contacts_ok (byId id), find_answer]
  · rw [findByAccount, (holds ops).many contacts_ok (byAccount account)]

/-- The writes: `CreateContacts` fails exactly if the account has a contact with that document; `Modify` tells whether there was a
contact with that id; `Delete` always succeeds. -/
theorem C109_contacts_write (ops : List Op) (c : Contact) (newId : Nat) :
    (create (F := F) (after ops) c newId).2 = (if ∃ d ∈ stored ops, Same c d then .error else .ok ()) ∧
    (modify (F := F) (after ops) c newId).2 = .ok (decide (∃ d ∈ stored ops, d.id = c.id)) ∧
    (delete (F := F) (after ops) c).2 = .ok () := by
  have h := holds (F := F) ops
  refine ⟨?_, ?_, ?_⟩
  · rw [create, h.one contacts_ok (same c)]
    cases hf : (stored ops).find? fun d => decide (Same c d) with
    | some d => rw [if_pos ⟨d, List.mem_of_find?_eq_some hf, by simpa using List.find?_some hf⟩]; rfl
    | none =>
      rw [if_neg]
      · obtain ⟨docs', h1, -⟩ := h.insert contacts_ok c newId
        simp [onOk, h1]
      · rintro ⟨d, hd, e⟩
        simpa [e] using List.find?_eq_none.1 hf d hd
  · obtain ⟨_, h1, -⟩ := h.upserted contacts_ok (byId c.id) c newId
    rw [modify, h1]
    simp only [Ret.ok.injEq]
    rw [Bool.eq_iff_iff, List.any_eq_true, decide_eq_true_iff]
    simp
  · obtain ⟨_, h1, -⟩ := h.delete contacts_ok (byId c.id)
    rw [delete, h1]

/-- After `Modify`, `FindContactsById` returns what was given to it. -/
theorem C109_modify_then_find (ops : List Op) (c : Contact) (newId : Nat) :
    findById (F := F) (after (ops ++ [.modify c newId])) c.id = .ok c := by
  rw [(C109_contacts_read _ c.id []).2.1, stored_snoc]
  simp only [effect]
  rw [find_replaceOrAdd _ _ (by simp)]; rfl

/-- After `Delete` no contact has the id, if at most one had it. -/
theorem C109_delete_contact_partial (ops : List Op) (c : Contact) (h : (stored ops).countP (fun d => d.id = c.id) ≤ 1) :
    findById (F := F) (after (ops ++ [.delete c])) c.id = .error := by
  rw [(C109_contacts_read _ c.id []).2.1, stored_snoc]
  simp only [effect, remove_last _ _ h]; rfl

/-- `CreateContacts` does not look at the id: after creating two contacts with one id and different documents, `Delete` of the first
removes one and the id still finds a contact. -/
theorem C109_delete_contact_refuted (c d : Contact) (h : ¬ Same d c) (hi : c.id = d.id) (i j : Nat) :
    ∃ e, findById (F := F) (after [.create c i, .create d j, .delete c]) c.id = .ok e := by
  rw [(C109_contacts_read _ c.id []).2.1]
  have : stored [.create c i, .create d j, .delete c] = [d] := by
    simp [stored, effect, h, hi, removeFirst]
  rw [this]
  exact ⟨d, by simp [hi, answer]⟩

/-- `CreateContacts` never stores the same document of an account twice, but `Modify` may. -/
theorem C109_documents_refuted : ∃ ops : List Op, ¬ (stored ops).Pairwise fun c d => ¬ Same c d :=
  ⟨[.create ⟨['1'], ['a'], [], 0, ['x'], []⟩ 1, .modify ⟨['2'], ['a'], [], 0, ['x'], []⟩ 2], by decide⟩

end Contacts
/-! ### C110: deliveries -/
namespace Deliver

/-- The database holds a part of what was pushed before what is in the queue. -/
structure Ok (es : List Event) (s : State F) (l : List Delivery) : Prop where
  holds : Holds deliveries s.docs l
  part : (l ++ s.queue).Sublist (pushed es)

theorem pushed_append (es es' : List Event) : pushed (es ++ es') = pushed es ++ pushed es' := by
  induction es with
  | nil => rfl
  | cons e es ih => cases e <;> simp [pushed, ih]

theorem after_snoc (es : List Event) (e : Event) : after (F := F) (es ++ [e]) = step (after es) e := by
  rw [after, List.foldl_append]; rfl

/-- Induction from the end of a list. -/
theorem snoc {P : List Event → Prop} (nil : P []) (step : ∀ es e, P es → P (es ++ [e])) (es : List Event) : P es := by
  induction hn : es.length generalizing es with
  | zero => rw [List.length_eq_zero_iff] at hn; rw [hn]; exact nil
  | succ n ih =>
    have hne : es ≠ [] := by intro e; subst e; simp at hn
    rw [← List.dropLast_concat_getLast hne]
    exact step _ _ (ih _ (by simp [hn]))

theorem ok (es : List Event) : ∃ l, Ok es (after (F := F) es) l := by
  induction es using snoc with
  | nil => exact ⟨[], Holds.nil, by simp [after, pushed]⟩
  | step es e ih =>
    obtain ⟨l, h1, h2⟩ := ih
    rw [after_snoc]
    cases e with
    | push d =>
      refine ⟨l, h1, ?_⟩
      rw [pushed_append]
      simp only [step, pushed]
      rw [← List.append_assoc]
      exact h2.append (List.Sublist.refl _)
    | idle => exact ⟨l, h1, by rw [pushed_append]; simpa [step, pushed] using h2⟩
    | cancel => exact ⟨l, h1, by rw [pushed_append]; simpa [step, pushed] using h2⟩
    | iterate f =>
      have hp : pushed (es ++ [.iterate f]) = pushed es := by rw [pushed_append]; simp [pushed]
      simp only [step]
      split
      · split
        · exact ⟨l, h1, by rw [hp]; exact h2⟩
        · rename_i d q hq
          rw [hq] at h2
          have h3 : (l ++ q).Sublist (pushed es) := (List.Sublist.append (List.Sublist.refl l) (List.sublist_cons_self d q)).trans h2
          cases f with
          | stored i =>
            obtain ⟨docs', h4, h5⟩ := h1.insert deliveries_ok d i
            refine ⟨l ++ [d], by simpa [h4] using h5, ?_⟩
            rw [hp, List.append_assoc]
            exact h2
          | insertFails => exact ⟨l, h1, by rw [hp]; exact h3⟩
          | noCollection => exact ⟨l, h1, by rw [hp]; exact h3⟩
      · exact ⟨l, h1, by rw [hp]; exact h2⟩

/-- Whatever fails, what is in the database and then in the queue was pushed in this order: nothing is invented, stored twice or
overtaken. -/
theorem C110_in_order (es : List Event) : (delivered (after (F := F) es) ++ (after (F := F) es).queue).Sublist (pushed es) := by
  obtain ⟨l, h1, h2⟩ := ok (F := F) es
  rw [show delivered (after (F := F) es) = l from h1.eq]
  exact h2

/-- If no insertion fails, nothing is lost: every delivery that was pushed is in the database or in the queue.  The property asks for
this whatever fails. -/
theorem C110_delivered_partial (es : List Event) (hs : Smooth es) :
    delivered (after (F := F) es) ++ (after (F := F) es).queue = pushed es := by
  induction es using snoc with
  | nil => rfl
  | step es e ih =>
    have ih := ih (fun f hf => hs f (by simp [hf]))
    obtain ⟨l, h1, h2⟩ := ok (F := F) es
    rw [show delivered (after (F := F) es) = l from h1.eq] at ih
    rw [after_snoc, pushed_append]
    have hd : delivered (after (F := F) es) = l := h1.eq
    cases e with
    | push d => simp only [step, pushed, ← List.append_assoc, ← ih]; rw [← hd]; rfl
    | idle => simp only [step, pushed, List.append_nil, ← ih]; rw [← hd]
    | cancel => simp only [step, pushed, List.append_nil, ← ih]; rw [← hd]; rfl
    | iterate f =>
      obtain ⟨i, rfl⟩ := hs f (by simp)
      simp only [step, pushed, List.append_nil]
      split
      · split
        · rw [← ih, ← hd]
        · rename_i d q hq
          obtain ⟨docs', h4, h5⟩ := h1.insert deliveries_ok d i
          rw [hq] at ih
          rw [← ih]
          simp only [h4]
          rw [show delivered (⟨q, docs', (after (F := F) es).running⟩ : State F) = l ++ [d] from h5.eq]
          simp
      · rw [← ih, ← hd]

/-- While `Run` runs, each iteration takes the first delivery from the queue to the end of the database. -/
theorem C110_iteration (es : List Event) (hr : (after (F := F) es).running = true) (d : Delivery) (q : List Delivery)
    (hq : (after (F := F) es).queue = d :: q) (newId : Nat) :
    delivered (after (F := F) (es ++ [.iterate (.stored newId)])) = delivered (after (F := F) es) ++ [d] ∧
    (after (F := F) (es ++ [.iterate (.stored newId)])).queue = q := by
  obtain ⟨l, h1, -⟩ := ok (F := F) es
  obtain ⟨docs', h4, h5⟩ := h1.insert deliveries_ok d newId
  rw [after_snoc]
  simp only [step, hr, if_true, hq, h4]
  rw [show delivered (after (F := F) es) = l from h1.eq]
  exact ⟨h5.eq, trivial⟩

/-- A delivery whose insertion fails is lost: the error is logged, `Run` goes on, and a delivery that was pushed once is never in the
database or the queue again. -/
theorem C110_lost_refuted (es es' : List Event) (hr : (after (F := F) es).running = true) (d : Delivery) (q : List Delivery)
    (hq : (after (F := F) es).queue = d :: q) (ho : (pushed (es ++ es')).count d = 1) :
    (after (F := F) (es ++ [.iterate .insertFails])).running = true ∧
    d ∉ delivered (after (F := F) (es ++ [.iterate .insertFails] ++ es')) ∧
    d ∉ (after (F := F) (es ++ [.iterate .insertFails] ++ es')).queue := by
  refine ⟨by rw [after_snoc]; simp only [step, hr, if_true, hq], ?_⟩
  rw [← not_or, ← List.mem_append]
  have hin := C110_in_order (F := F) es
  rw [hq] at hin
  have h1 : 1 ≤ (pushed es).count d := by
    refine Nat.le_trans ?_ (hin.count_le d)
    simp only [List.count_append, List.count_cons_self]
    omega
  rw [pushed_append, List.count_append] at ho
  have h0 : (pushed es').count d = 0 := by omega
  have h2 : (pushed es).count d = 1 := by omega
  have h3 : (delivered (after (F := F) es) ++ q).count d = 0 := by
    have := hin.count_le d
    simp only [List.count_append, List.count_cons_self] at this ⊢
    omega
  induction es' using snoc with
  | nil =>
    rw [List.append_nil, after_snoc]
    simp only [step, hr, if_true, hq]
    intro hm
    have := List.count_pos_iff.2 hm
    rw [show delivered (⟨q, (after (F := F) es).docs, true⟩ : State F) = delivered (after (F := F) es) from rfl] at this
    omega
  | step es' e ih =>
    rw [pushed_append, List.count_append] at h0
    have ih := ih (by rw [pushed_append, List.count_append] at ho; omega) (by omega)
    rw [← List.append_assoc, after_snoc]
    obtain ⟨l, k1, -⟩ := ok (F := F) (es ++ [.iterate .insertFails] ++ es')
    generalize after (F := F) (es ++ [.iterate .insertFails] ++ es') = s at ih k1
    have hd : delivered s = l := k1.eq
    cases e with
    | push x =>
      have hx : x ≠ d := by
        intro e
        subst e
        simp [pushed] at h0
      simp only [step, List.mem_append, List.mem_singleton, not_or] at ih ⊢
      exact ⟨ih.1, ih.2, Ne.symm hx⟩
    | idle => exact ih
    | cancel => exact ih
    | iterate f =>
      simp only [step]
      split
      · split
        · exact ih
        · rename_i x r hx
          rw [hx] at ih
          simp only [List.mem_append, List.mem_cons, not_or] at ih
          cases f with
          | stored i =>
            obtain ⟨docs', h4, h5⟩ := k1.insert deliveries_ok x i
            simp only [h4]
            rw [show delivered (⟨r, docs', s.running⟩ : State F) = l ++ [x] from h5.eq, ← hd]
            simp only [List.mem_append, List.mem_singleton, not_or]
            exact ⟨⟨ih.1, ih.2.1⟩, ih.2.2⟩
          | insertFails => simp only [List.mem_append, not_or]; exact ⟨ih.1, ih.2.2⟩
          | noCollection => simp only [List.mem_append, not_or]; exact ⟨ih.1, ih.2.2⟩
      · exact ih

/-- If the collection cannot be had, `Run` does not go on: it panics, and nothing is delivered any more. -/
theorem C110_stopped_refuted (es es' : List Event) (d : Delivery) (q : List Delivery) (hr : (after (F := F) es).running = true)
    (hq : (after (F := F) es).queue = d :: q) :
    (after (F := F) (es ++ [.iterate .noCollection])).running = false ∧
    delivered (after (F := F) (es ++ [.iterate .noCollection] ++ es')) = delivered (after (F := F) es) := by
  have h0 : (after (F := F) (es ++ [.iterate .noCollection])).running = false ∧
      (after (F := F) (es ++ [.iterate .noCollection])).docs = (after (F := F) es).docs := by
    rw [after_snoc]; simp only [step, hr, if_true, hq]; exact ⟨trivial, trivial⟩
  refine ⟨h0.1, ?_⟩
  have : (after (F := F) (es ++ [.iterate .noCollection] ++ es')).running = false ∧
      (after (F := F) (es ++ [.iterate .noCollection] ++ es')).docs = (after (F := F) es).docs := by
    induction es' using snoc with
    | nil => rw [List.append_nil]; exact h0
    | step es' e ih =>
      rw [← List.append_assoc, after_snoc]
      cases e with
      | push x => exact ih
      | idle => exact ih
      | cancel => exact ⟨rfl, ih.2⟩
      | iterate f => rw [step, if_neg (by rw [ih.1]; simp)]; exact ih
  unfold delivered
  rw [this.2]

end Deliver
end Verif.Trains
