import Verif.Hotel.ConcSpec
/-
C129: requests for different hotels that overlap.
-/
namespace Verif.Hotel
open Verif.Interleave

/-! ### A request that runs alone -/

private theorem run_rooms (cal : Calendar) (hotel : Name) (day : Nat) (next : Int → Request) (s : State) :
    (roomsThen cal hotel day next).run s = (next (reserved cal s hotel day)).run s := by
  simp only [roomsThen, look, Prog.run, id, reserved]
  cases s.cache.lookup (nightKey cal hotel (day + 1)) <;> rfl

private theorem run_roomsCached (cal : Calendar) (hotel : Name) (first day : Nat) (next : Int → Request) (s : State) :
    (roomsCachedThen cal hotel first day next).run s =
      (next (reservedCached cal s hotel first day).1).run (reservedCached cal s hotel first day).2 := by
  simp only [roomsCachedThen, look, Prog.run, id, reservedCached]
  cases s.cache.lookup (nightKey cal hotel (day + 1)) <;> rfl

private theorem run_capacity (hotel : Name) (next : Int → Request) (s : State) :
    (capacityThen hotel next).run s = (next (capacity s hotel).1).run (capacity s hotel).2 := by
  simp only [capacityThen, look, Prog.run, id, capacity]
  cases s.cache.lookup (capKey hotel) <;> rfl

private theorem run_inserts (next : Request) (rs : List Reservation) : ∀ s : State,
    (insertsThen next rs).run s = next.run { s with reservations := s.reservations ++ rs } := by
  induction rs with
  | nil => intro s; simp [insertsThen]
  | cons r rs ih => intro s; simp [insertsThen, Prog.run, ih]

private theorem run_puts (next : Request) (us : List (Name × Int)) : ∀ s : State,
    (putsThen next us).run s = next.run { s with cache := putAll s.cache us } := by
  induction us with
  | nil => intro s; rfl
  | cons u us ih => intro s; simp [putsThen, putThen, Prog.run, putAll, ih]

private theorem run_make (cal : Calendar) (hotel customer : Name) (rooms : Int) (first all : Nat) (nights : Nat) :
    ∀ (s : State) (day : Nat) (us : List (Name × Int)), (makeLoop cal hotel customer rooms first all day nights us).run s =
      match checkNights cal hotel rooms s day nights us with
      | (s, none) => (s, some [])
      | (s, some us) => (commit cal s hotel customer first all rooms us, some [hotel]) := by
  induction nights with
  | zero =>
    intro s day us
    simp only [makeLoop, checkNights, run_inserts, run_puts, Prog.run, commit]
  | succ nights ih =>
    intro s day us
    simp only [makeLoop, checkNights, run_rooms, run_capacity]
    split
    · rfl
    · exact ih _ _ _

private theorem run_hotel (cal : Calendar) (hotel : Name) (rooms : Int) (first : Nat) (next : Bool → Request) (nights : Nat) :
    ∀ (s : State) (day : Nat), (hotelLoop cal hotel rooms first next day nights).run s =
      (next (checkHotel cal hotel rooms first s day nights).2).run (checkHotel cal hotel rooms first s day nights).1 := by
  induction nights with
  | zero => intro s day; rfl
  | succ nights ih =>
    intro s day
    simp only [hotelLoop, checkHotel, run_roomsCached, run_capacity]
    split
    · rfl
    · split
      · rfl
      · exact ih _ _

private theorem run_check (cal : Calendar) (inDate outDate : Name) (rooms : Int) (hotels : List Name) : ∀ (s : State) (found : List Name),
    (checkLoop cal inDate outDate rooms found hotels).run s =
      ((check cal inDate outDate rooms s hotels).1, some (found ++ (check cal inDate outDate rooms s hotels).2)) := by
  induction hotels with
  | nil => intro s found; simp [checkLoop, check, Prog.run]
  | cons hotel hotels ih =>
    intro s found
    simp only [checkLoop, run_hotel, check, ih]
    cases (checkHotel cal hotel rooms (cal.parse inDate) s (cal.parse inDate) (cal.parse outDate - cal.parse inDate)).2 <;> simp

/-- C129: a request that runs alone is a call of the sequential model. -/
theorem C129_alone (cal : Calendar) (c : Call) (s : State) : (request cal c).run s = call cal s c := by
  cases c with
  | make customer hotels inDate outDate rooms =>
    cases hotels with
    | nil => rfl
    | cons hotel hotels =>
      simp only [request, run_make, call, make]
      rfl
  | check hotels inDate outDate rooms => simp [request, run_check, call]

/-! ### What belongs to a hotel -/

/-- Two states agree on a hotel. -/
structure Agree (cal : Calendar) (L : Nat) (h : Name) (s s' : State) : Prop where
  numbers : s.numbers.lookup h = s'.numbers.lookup h
  cap : s.cache.lookup (capKey h) = s'.cache.lookup (capKey h)
  night : ∀ d, d ≤ L → s.cache.lookup (nightKey cal h d) = s'.cache.lookup (nightKey cal h d)
  booked : s.reservations.filter (fun r => r.hotel == h) = s'.reservations.filter (fun r => r.hotel == h)

private def SameFor (cal : Calendar) (L : Nat) (owner : Name → Option Nat) (q : Option Nat) (s s' : State) : Prop :=
  ∀ h, owner h = q → Agree cal L h s s'

private theorem agree_counted {cal : Calendar} {L : Nat} {h : Name} {s s' : State} (a : Agree cal L h s s') (x y : Name) :
    counted s h x y = counted s' h x y := by
  have key : ∀ rs : List Reservation, rs.filter (fun r => r.hotel == h && r.inDate == x && r.outDate == y) =
      (rs.filter fun r => r.hotel == h).filter fun r => r.inDate == x && r.outDate == y := by
    intro rs
    rw [List.filter_filter]
    refine List.filter_congr fun r _ => ?_
    cases r.hotel == h <;> cases r.inDate == x <;> cases r.outDate == y <;> rfl
  unfold counted
  rw [key, key, a.booked]

section
variable {cal : Calendar} {L : Nat} (hc : cal.Sane L) {owner : Name → Option Nat} {q : Option Nat}
include hc

private theorem within_look {next : State → Request} (h1 : ∀ s s', SameFor cal L owner q s s' → next s = next s')
    (h2 : ∀ s, Within (SameFor cal L owner) q (next s)) : Within (SameFor cal L owner) q (look next) :=
  .act (fun s s' h => ⟨h, h1 s s' h⟩) (fun _ _ _ _ _ => ⟨rfl, rfl, fun _ _ => rfl, rfl⟩) h2

private theorem within_put {k : Name} {v : Int} {h : Name} (hq : owner h = q) (hk : k = capKey h ∨ ∃ d, d ≤ L ∧ k = nightKey cal h d)
    {next : Request} (hn : Within (SameFor cal L owner) q next) : Within (SameFor cal L owner) q (putThen k v next) := by
  refine .act (fun s s' hs => ⟨fun h' e' => ?_, rfl⟩) (fun p hp s h' e' => ?_) (fun _ => hn)
  · have a := hs h' e'
    exact ⟨a.numbers, by simp only [lookup_put, a.cap], fun e he => by simp only [lookup_put, a.night e he], a.booked⟩
  · have hne : h' ≠ h := by rintro rfl; exact hp (e'.symm.trans hq)
    have n1 : k ≠ capKey h' := by
      rcases hk with rfl | ⟨d, -, rfl⟩
      · exact fun e => hne (capKey_inj e).symm
      · exact nightKey_ne_cap hc h h' d
    have n2 : ∀ e, e ≤ L → k ≠ nightKey cal h' e := by
      intro e he
      rcases hk with rfl | ⟨d, hd, rfl⟩
      · exact fun x => nightKey_ne_cap hc h' h e x.symm
      · exact fun x => hne (nightKey_inj hc hd he x).1.symm
    exact ⟨rfl, by simp only [lookup_put, if_neg (Ne.symm n1)], fun e he => by simp only [lookup_put, if_neg (Ne.symm (n2 e he))], rfl⟩

private theorem within_capacity {h : Name} (hq : owner h = q) {next : Int → Request}
    (hn : ∀ c, Within (SameFor cal L owner) q (next c)) : Within (SameFor cal L owner) q (capacityThen h next) := by
  refine within_look hc (fun s s' hs => ?_) (fun s => ?_)
  · rw [(hs h hq).cap]
  · cases s.cache.lookup (capKey h) with
    | some c => exact hn c
    | none =>
      refine within_look hc (fun s s' hs => ?_) (fun s => within_put hc hq (.inl rfl) (hn _))
      rw [(hs h hq).numbers]

private theorem within_rooms {h : Name} (hq : owner h = q) {day : Nat} (hd : day + 1 ≤ L) {next : Int → Request}
    (hn : ∀ c, Within (SameFor cal L owner) q (next c)) : Within (SameFor cal L owner) q (roomsThen cal h day next) := by
  refine within_look hc (fun s s' hs => ?_) (fun s => ?_)
  · rw [(hs h hq).night _ hd]
  · cases s.cache.lookup (nightKey cal h (day + 1)) with
    | some c => exact hn c
    | none => exact within_look hc (fun s s' hs => by rw [agree_counted (hs h hq)]) (fun s => hn _)

private theorem within_roomsCached {h : Name} (hq : owner h = q) {first day : Nat} (hd : day + 1 ≤ L) {next : Int → Request}
    (hn : ∀ c, Within (SameFor cal L owner) q (next c)) : Within (SameFor cal L owner) q (roomsCachedThen cal h first day next) := by
  refine within_look hc (fun s s' hs => ?_) (fun s => ?_)
  · rw [(hs h hq).night _ hd]
  · cases s.cache.lookup (nightKey cal h (day + 1)) with
    | some c => exact hn c
    | none =>
      exact within_look hc (fun s s' hs => by rw [agree_counted (hs h hq)])
        (fun s => within_put hc hq (.inr ⟨_, hd, rfl⟩) (hn _))

omit hc in
private theorem within_inserts {h : Name} (hq : owner h = q) {next : Request} (hn : Within (SameFor cal L owner) q next)
    (rs : List Reservation) (hr : ∀ r ∈ rs, r.hotel = h) : Within (SameFor cal L owner) q (insertsThen next rs) := by
  induction rs with
  | nil => exact hn
  | cons r rs ih =>
    refine .act (fun s s' hs => ⟨fun h' e' => ?_, rfl⟩) (fun p hp s h' e' => ?_) (fun _ => ih fun r hr' => hr r (.tail _ hr'))
    · have a := hs h' e'
      exact ⟨a.numbers, a.cap, a.night, by simp only [List.filter_append, a.booked]⟩
    · have hne : r.hotel ≠ h' := by rw [hr r (.head _)]; rintro rfl; exact hp (e'.symm.trans hq)
      exact ⟨rfl, rfl, fun _ _ => rfl, by simp [List.filter_append, List.filter_cons, hne]⟩

private theorem within_puts {h : Name} (hq : owner h = q) {next : Request} (hn : Within (SameFor cal L owner) q next)
    (us : List (Name × Int)) (hu : ∀ u ∈ us, ∃ d, d ≤ L ∧ u.1 = nightKey cal h d) :
    Within (SameFor cal L owner) q (putsThen next us) := by
  induction us with
  | nil => exact hn
  | cons u us ih =>
    exact within_put hc hq (.inr (hu u (.head _))) (ih fun u hu' => hu u (.tail _ hu'))

private theorem within_make {h customer : Name} (hq : owner h = q) (rooms : Int) (first all : Nat) (nights : Nat) :
    ∀ (day : Nat) (us : List (Name × Int)), day + nights ≤ L → (∀ u ∈ us, ∃ d, d ≤ L ∧ u.1 = nightKey cal h d) →
      Within (SameFor cal L owner) q (makeLoop cal h customer rooms first all day nights us) := by
  induction nights with
  | zero =>
    intro day us _ hu
    exact within_inserts hq (within_puts hc hq .done us hu) _ fun r hr => (mem_stored hr).1
  | succ nights ih =>
    intro day us hd hu
    refine within_rooms hc hq (by omega) fun n => within_capacity hc hq fun c => ?_
    split
    · exact .done
    · refine ih _ _ (by omega) fun u hu' => ?_
      rcases mem_put hu' with rfl | hu'
      · exact ⟨day + 1, by omega, rfl⟩
      · exact hu u hu'

private theorem within_hotel {h : Name} (hq : owner h = q) (rooms : Int) (first : Nat) {next : Bool → Request}
    (hn : ∀ b, Within (SameFor cal L owner) q (next b)) (nights : Nat) :
    ∀ day : Nat, day + nights ≤ L → Within (SameFor cal L owner) q (hotelLoop cal h rooms first next day nights) := by
  induction nights with
  | zero => intro day _; exact hn false
  | succ nights ih =>
    intro day hd
    refine within_roomsCached hc hq (by omega) fun n => within_capacity hc hq fun c => ?_
    split
    · exact hn false
    · split
      · exact hn true
      · exact ih _ (by omega)

private theorem within_check (inDate outDate : Name) (rooms : Int) (hotels : List Name) : ∀ found : List Name,
    (∀ h ∈ hotels, owner h = q) → Within (SameFor cal L owner) q (checkLoop cal inDate outDate rooms found hotels) := by
  induction hotels with
  | nil => intro found _; exact .done
  | cons h hs ih =>
    intro found ho
    have hp := hc.parse inDate
    have hq := hc.parse outDate
    rw [checkLoop]
    refine within_hotel hc (ho h (.head _)) rooms _ (fun b => ih _ fun h' hh => ho h' (.tail _ hh)) _ _ ?_
    by_cases h : cal.parse inDate ≤ cal.parse outDate <;> omega

private theorem within_request (c : Call) (ho : ∀ h ∈ c.hotels, owner h = q) : Within (SameFor cal L owner) q (request cal c) := by
  cases c with
  | make customer hotels inDate outDate rooms =>
    cases hotels with
    | nil => exact .done
    | cons h hs =>
      have hp := hc.parse inDate
      have hq := hc.parse outDate
      refine within_make hc (ho h (by simp [Call.hotels])) rooms _ _ _ _ _ ?_ (by simp)
      omega
  | check hotels inDate outDate rooms => exact within_check hc inDate outDate rooms hotels [] ho

/-! ### A round -/

omit hc in
private theorem taken_app (a b : List Booking) (h : Name) (x : Nat) : taken (a ++ b) h x = taken a h x + taken b h x := by
  unfold taken
  rw [List.filter_append, List.map_append, List.sum_append]

omit hc in
private theorem taken_none {bs : List Booking} {h : Name} (hb : ∀ b ∈ bs, b.hotel ≠ h) (x : Nat) : taken bs h x = 0 := by
  unfold taken
  rw [List.filter_eq_nil_iff.2]
  · rfl
  · intro b hb'
    simp [Booking.covers, hb b hb']

omit hc in
private theorem right_new {cap : Name → Int} {bs bs' : List Booking} {c : Call} {o : Answer} (h : Right cal cap bs c bs' o) :
    ∃ new, bs' = bs ++ new ∧ ∀ b ∈ new, b.hotel ∈ c.hotels := by
  cases h with
  | booked _ => exact ⟨_, rfl, by simp [Call.hotels]⟩
  | full _ => exact ⟨[], by simp, by simp⟩
  | panic => exact ⟨[], by simp, by simp⟩
  | available _ => exact ⟨[], by simp, by simp⟩

omit hc in
private theorem right_bound {cap : Name → Int} {bs bs' : List Booking} {c : Call} {o : Answer} (h : Right cal cap bs c bs' o)
    (hb : ∀ h x, taken bs h x ≤ cap h) : ∀ h x, taken bs' h x ≤ cap h := by
  cases h with
  | booked hf =>
    intro h x
    rw [taken_append]
    split
    · next hc =>
      simp only [Booking.covers, Bool.and_eq_true, beq_iff_eq, decide_eq_true_eq] at hc
      rw [← hc.1.1]
      exact hf x hc.1.2 hc.2
    · have := hb h x
      omega
  | full _ => exact hb
  | panic => exact hb
  | available _ => exact hb

omit hc in
private theorem owner_eq {cs : List Call} (ha : Apart cs) : ∀ {i : Nat} {c : Call} {h : Name}, cs[i]? = some c → h ∈ c.hotels →
    cs.findIdx? (fun c => decide (h ∈ c.hotels)) = some i := by
  induction cs with
  | nil => intro i c h e; simp at e
  | cons d cs ih =>
    obtain ⟨h1, h2⟩ := List.pairwise_cons.1 ha
    intro i c h e hm
    rw [List.findIdx?_cons]
    cases i with
    | zero => simp only [List.getElem?_cons_zero, Option.some.injEq] at e; subst e; simp [hm]
    | succ i =>
      simp only [List.getElem?_cons_succ] at e
      have : h ∉ d.hotels := fun hd => h1 c (List.mem_of_getElem? e) h hd hm
      rw [if_neg (by simpa using this), ih h2 e hm]
      rfl

omit hc in
private theorem owner_some {cs : List Call} : ∀ {i : Nat} {h : Name}, cs.findIdx? (fun c => decide (h ∈ c.hotels)) = some i →
    ∃ c, cs[i]? = some c ∧ h ∈ c.hotels := by
  intro i h e
  rw [List.findIdx?_eq_some_iff_getElem] at e
  obtain ⟨hi, e, -⟩ := e
  exact ⟨cs[i], List.getElem?_eq_getElem hi, by simpa using e⟩

omit hc in
private theorem taken_flat {cs : List Call} (ha : Apart cs) {f : Call → List Booking} (hf : ∀ c ∈ cs, ∀ b ∈ f c, b.hotel ∈ c.hotels)
    {c : Call} (hm : c ∈ cs) {h : Name} (hh : h ∈ c.hotels) (x : Nat) : taken (cs.flatMap f) h x = taken (f c) h x := by
  induction cs with
  | nil => cases hm
  | cons d cs ih =>
    obtain ⟨h1, h2⟩ := List.pairwise_cons.1 ha
    rw [List.flatMap_cons, taken_app]
    rcases List.mem_cons.1 hm with rfl | hm
    · rw [taken_none (bs := cs.flatMap f), Int.add_zero]
      intro b hb e
      obtain ⟨c', hc', hb⟩ := List.mem_flatMap.1 hb
      exact h1 c' hc' h hh (e ▸ hf c' (.tail _ hc') b hb)
    · rw [taken_none (bs := f d), Int.zero_add, ih h2 (fun c hc => hf c (.tail _ hc)) hm]
      intro b hb e
      exact h1 c hm h (e ▸ hf d (.head _) b hb) hh

omit hc in
private theorem run_length (sched : List Nat) : ∀ s : Sys State Answer, (s.run sched).threads.length = s.threads.length := by
  induction sched with
  | nil => intro s; rfl
  | cons i sched ih =>
    intro s
    show ((s.step i).run sched).threads.length = _
    rw [ih]
    unfold Sys.step
    split
    · simp
    · rfl

variable {cap : Name → Int} {start bs : List Booking}

omit hc in
private theorem inv_local {bs' : List Booking} {S : State}
    (H : ∀ h, ∃ bh sh, Inv cal L cap start bh sh ∧ Agree cal L h sh S ∧ ∀ x, taken bs' h x = taken bh h x) :
    Inv cal L cap start bs' S := by
  refine ⟨fun h => ?_, fun h c hl => ?_, fun h x n hx hl => ?_, fun h x hx hl => ?_, fun h x a hx hax hl hs => ?_⟩ <;>
    obtain ⟨bh, sh, i, ag, ht⟩ := H h
  · rw [← ag.numbers]; exact i.numbers h
  · rw [← ag.cap] at hl; exact i.cap h c hl
  · rw [← ag.night _ hx] at hl; rw [ht]; exact i.night h x n hx hl
  · rw [← ag.night _ hx] at hl; rw [ht, ← agree_counted ag]; exact i.here h x hx hl
  · rw [← ag.night _ hx] at hl; rw [ht, ← agree_counted ag]; exact i.before h x a hx hax hl hs

private theorem round_spec {s : State} (hi : Inv cal L cap start bs s) {cs : List Call} (ha : Apart cs)
    (hh : ∀ c ∈ cs, Harmless cal start c) {sched : List Nat} {replies : List Answer}
    (he : (Sys.run ⟨s, cs.map (request cal)⟩ sched).threads = replies.map .done) :
    ∃ news, Together cal cap bs cs replies news ∧ Inv cal L cap start (bs ++ news) (Sys.run ⟨s, cs.map (request cal)⟩ sched).store := by
  let owner : Name → Option Nat := fun h => cs.findIdx? (fun c => decide (h ∈ c.hotels))
  obtain ⟨h1, h2⟩ := C125_isolation (same := SameFor cal L owner) (fun _ _ _ _ => ⟨rfl, rfl, fun _ _ => rfl, rfl⟩)
    (fun q a b c hab hbc h e => by
      have x := hab h e
      have y := hbc h e
      exact ⟨x.numbers.trans y.numbers, x.cap.trans y.cap, fun d hd => (x.night d hd).trans (y.night d hd), x.booked.trans y.booked⟩)
    s (cs.map (request cal)) some (fun i j _ _ e => Option.some.inj e)
    (fun i p hp => by
      rw [List.getElem?_map] at hp
      cases hc' : cs[i]? with
      | none => rw [hc'] at hp; cases hp
      | some c =>
        rw [hc'] at hp
        cases hp
        exact within_request hc c fun h hm => owner_eq ha hc' hm)
    sched (by
      intro t ht
      rw [he] at ht
      obtain ⟨r, -, rfl⟩ := List.mem_map.1 ht
      exact ⟨r, rfl⟩)
  have h1 : ∀ (i : Nat) (c : Call), cs[i]? = some c →
      SameFor cal L owner (some i) (call cal s c).1 (Sys.run ⟨s, cs.map (request cal)⟩ sched).store ∧
      (Sys.run ⟨s, cs.map (request cal)⟩ sched).threads[i]? = some (.done (call cal s c).2) := by
    intro i c hi
    have := h1 i (request cal c) (by rw [List.getElem?_map, hi]; rfl)
    rwa [C129_alone] at this
  have hlen : replies.length = cs.length := by
    have hl := congrArg List.length he
    rw [List.length_map] at hl
    rw [← hl]
    rw [run_length, List.length_map]
  have hrep : replies = cs.map fun c => (call cal s c).2 := by
    refine List.ext_getElem? fun i => ?_
    rw [List.getElem?_map]
    cases hc' : cs[i]? with
    | none =>
      rw [List.getElem?_eq_none_iff] at hc'
      rw [List.getElem?_eq_none (by omega)]
      rfl
    | some c =>
      have := (h1 i c hc').2
      rw [he, List.getElem?_map] at this
      cases hr : replies[i]? with
      | none => rw [hr] at this; cases this
      | some r => rw [hr] at this; cases this; rfl
  have key : ∀ c, ∃ new, c ∈ cs → Right cal cap bs c (bs ++ new) (call cal s c).2 ∧ Inv cal L cap start (bs ++ new) (call cal s c).1 ∧
      ∀ b ∈ new, b.hotel ∈ c.hotels := by
    intro c
    by_cases hm : c ∈ cs
    · obtain ⟨bs', a, b⟩ := call_spec hc hi c (hh c hm)
      obtain ⟨new, rfl, hn⟩ := right_new a
      exact ⟨new, fun _ => ⟨a, b, hn⟩⟩
    · exact ⟨[], fun h => absurd h hm⟩
  obtain ⟨f, hf⟩ := Classical.skolem.1 key
  refine ⟨cs.flatMap f, ?_, ?_⟩
  · rw [hrep]
    have : ∀ l : List Call, (∀ c ∈ l, c ∈ cs) → Together cal cap bs l (l.map fun c => (call cal s c).2) (l.flatMap f) := by
      intro l
      induction l with
      | nil => intro _; exact .nil
      | cons c l ih => intro hl; exact .cons (hf c (hl c (.head _))).1 (ih fun c hc => hl c (.tail _ hc))
    exact this cs fun _ h => h
  · refine inv_local fun h => ?_
    cases ho : owner h with
    | none =>
      refine ⟨bs, s, hi, h2 none (by simp) h ho, fun x => ?_⟩
      rw [taken_app, taken_none (bs := cs.flatMap f), Int.add_zero]
      intro b hb e
      obtain ⟨c, hc', hb⟩ := List.mem_flatMap.1 hb
      have := List.findIdx?_eq_none_iff.1 ho c hc'
      simp only [decide_eq_false_iff_not] at this
      exact this (e ▸ (hf c hc').2.2 b hb)
    | some i =>
      obtain ⟨c, hc', hm⟩ := owner_some ho
      have hmem := List.mem_of_getElem? hc'
      refine ⟨bs ++ f c, (call cal s c).1, (hf c hmem).2.1, (h1 i c hc').1 h ho, fun x => ?_⟩
      rw [taken_app, taken_app, taken_flat ha (fun c hc => (hf c hc).2.2) hmem hm]

omit hc in
private theorem together_bound {cs : List Call} {os : List Answer} {news : List Booking} (h : Together cal cap bs cs os news) (ha : Apart cs)
    (hb : ∀ h x, taken bs h x ≤ cap h) :
    (∀ b ∈ news, ∃ c ∈ cs, b.hotel ∈ c.hotels) ∧ ∀ h x, taken (bs ++ news) h x ≤ cap h := by
  induction h with
  | nil => exact ⟨by simp, by simpa using hb⟩
  | @cons c o new cs os news hr _ ih =>
    obtain ⟨h1, h2⟩ := List.pairwise_cons.1 ha
    obtain ⟨i1, i2⟩ := ih h2
    obtain ⟨new', e, hn⟩ := right_new hr
    cases List.append_cancel_left e
    refine ⟨fun b hb => ?_, fun h x => ?_⟩
    · rcases List.mem_append.1 hb with hb | hb
      · exact ⟨c, .head _, hn b hb⟩
      · obtain ⟨c', m, m'⟩ := i1 b hb
        exact ⟨c', .tail _ m, m'⟩
    · by_cases hm : h ∈ c.hotels
      · have := right_bound hr hb h x
        rw [← List.append_assoc, taken_app, taken_none (bs := news)]
        · omega
        · intro b hb e
          obtain ⟨c', m, m'⟩ := i1 b hb
          exact h1 c' m h hm (e ▸ m')
      · have := i2 h x
        rw [taken_app] at this
        rw [taken_app, taken_app, taken_none (bs := new)]
        · omega
        · intro b hb e
          exact hm (e ▸ hn b hb)

private theorem rounds_spec {s s' : State} {rs : List (List Call × List Answer)} (h : History cal s rs s') :
    ∀ {bs : List Booking}, Inv cal L cap start bs s → (∀ h x, taken bs h x ≤ cap h) →
      (∀ r ∈ rs, Apart r.1 ∧ ∀ c ∈ r.1, Harmless cal start c) →
      ∃ bs', RoundsRight cal cap bs rs bs' ∧ ∀ h x, taken bs' h x ≤ cap h := by
  induction h with
  | nil => intro bs _ hb _; exact ⟨bs, .nil, hb⟩
  | round he _ ih =>
    intro bs hi hb hr
    obtain ⟨ha, hh⟩ := hr _ (.head _)
    obtain ⟨news, t, hi'⟩ := round_spec hc hi ha hh he
    obtain ⟨bs', r, b⟩ := ih hi' (together_bound t ha hb).2 fun r hr' => hr r (.tail _ hr')
    exact ⟨bs', .cons t r, b⟩

end

/-- C129: requests that overlap, in any number and with any schedule of their calls of the cache and the database, but are about different
hotels, all get the right replies, in every round of every history; and no hotel ever has more rooms taken than it has.  Missing from
the full property: requests for the same hotel (`C129_same_hotel_refuted`), and what is missing from `C87_reservations_partial`. -/
theorem C129_different_hotels_partial (cal : Calendar) (L : Nat) (hc : cal.Sane L) (numbers : List (Name × Int))
    (start : List (Name × Booking)) (hstart : ∀ e ∈ start, e.2.last = e.2.first + 1 ∧ e.2.last ≤ L)
    (hfree : ∀ h x, taken (start.map (·.2)) h x ≤ (numbers.lookup h).getD 0)
    (rounds : List (List Call × List Answer)) (s : State) (hrun : History cal (fresh cal numbers start) rounds s)
    (happart : ∀ r ∈ rounds, Apart r.1) (hcs : ∀ r ∈ rounds, ∀ c ∈ r.1, Harmless cal (start.map (·.2)) c) :
    ∃ bs, RoundsRight cal (fun h => (numbers.lookup h).getD 0) (start.map (·.2)) rounds bs ∧
      ∀ h x, taken bs h x ≤ (numbers.lookup h).getD 0 :=
  rounds_spec hc hrun (fresh_inv hc numbers start (cap := fun h => (numbers.lookup h).getD 0) (fun _ => rfl) hstart) hfree
    fun r hr => ⟨happart r hr, hcs r hr⟩

/-- C129: requests end, whatever the others do: there is a number of turns after which all of them have replied, in whatever order the
turns are taken. -/
theorem C129_ends (cal : Calendar) (L : Nat) (hc : cal.Sane L) (s : State) (cs : List Call) (ha : Apart cs) :
    ∃ n, ∀ schedule : List Nat, (∀ i, i < cs.length → n ≤ schedule.count i) →
      ∃ replies : List Answer, (Sys.run ⟨s, cs.map (request cal)⟩ schedule).threads = replies.map .done := by
  let owner : Name → Option Nat := fun h => cs.findIdx? (fun c => decide (h ∈ c.hotels))
  obtain ⟨n, hn⟩ := C125_finishes (same := SameFor cal L owner) (fun _ _ _ _ => ⟨rfl, rfl, fun _ _ => rfl, rfl⟩)
    (fun q a b c hab hbc h e => by
      have x := hab h e
      have y := hbc h e
      exact ⟨x.numbers.trans y.numbers, x.cap.trans y.cap, fun d hd => (x.night d hd).trans (y.night d hd), x.booked.trans y.booked⟩)
    s (cs.map (request cal)) some (fun i j _ _ e => Option.some.inj e)
    (fun i p hp => by
      rw [List.getElem?_map] at hp
      cases hc' : cs[i]? with
      | none => rw [hc'] at hp; cases hp
      | some c =>
        rw [hc'] at hp
        cases hp
        exact within_request hc c fun h hm => owner_eq ha hc' hm)
  refine ⟨n, fun sched hs => ?_⟩
  have := hn sched (by simpa using hs)
  have key : ∀ ts : List Request, (∀ t ∈ ts, ∃ r, t = .done r) → ∃ replies : List Answer, ts = replies.map .done := by
    intro ts
    induction ts with
    | nil => intro _; exact ⟨[], rfl⟩
    | cons t ts ih =>
      intro h
      obtain ⟨r, rfl⟩ := h t (.head _)
      obtain ⟨rs, rfl⟩ := ih fun t ht => h t (.tail _ ht)
      exact ⟨r :: rs, rfl⟩
  exact key _ this

/-- C129 refuted: of two requests for all rooms of a hotel that overlap, both get them. -/
theorem C129_same_hotel_refuted (cal : Calendar) (L : Nat) (hc : cal.Sane L) (h guest other i o : Name) (n : Nat) (c : Int)
    (hi : cal.parse i = n) (ho : cal.parse o = n + 1) (h0 : 0 < c) :
    (∃ schedule, (Sys.run ⟨fresh cal [(h, c)] [], [.make guest [h] i o c, .make other [h] i o c].map (request cal)⟩ schedule).threads =
      [some [h], some [h]].map .done) ∧
    taken ([] ++ [⟨h, n, n + 1, c⟩] ++ [⟨h, n, n + 1, c⟩]) h n > c := by
  have k2 := nightKey_ne_cap hc h h (n + 1)
  refine ⟨⟨[0, 0, 0, 0, 0, 1, 1, 1, 0, 0, 1, 1], ?_⟩, ?_⟩
  · simp [Sys.run, Sys.step, request, hi, ho, makeLoop, roomsThen, capacityThen, look, fresh, putThen, counted,
      insertsThen, putsThen, stored, put, List.lookup_cons, beq_eq_false_iff_ne.2 k2]
  · simp [taken, Booking.covers, List.filter_cons]
    omega

/-! ### Examples -/

/-- A calendar that counts days with strokes. -/
private def tally : Calendar where
  parse t := min t.length 100
  text n := List.replicate n '|'

example : tally.Sane 100 := by
  refine ⟨fun t => Nat.min_le_right _ _, ?_, ?_⟩
  · intro a b _ _ h
    simpa [tally] using congrArg List.length h
  · intro d c h
    rw [(List.mem_replicate.1 h).2]
    decide

private def day (n : Nat) : Name := List.replicate n '|'

private def exCalls : List Call := [.make ['g'] [['A']] (day 2) (day 4) 1, .check [['B'], ['C']] (day 1) (day 3) 2, .make ['k'] [['D']] (day 2) (day 3) 1]

example : Apart exCalls := by simp [Apart, exCalls, Call.hotels]
example : ∀ c ∈ exCalls, Harmless tally [] c := by
  intro c hc
  simp only [exCalls, List.mem_cons, List.not_mem_nil, or_false] at hc
  rcases hc with rfl | rfl | rfl <;> simp [Harmless]
-- the three requests take turns
set_option maxRecDepth 20000 in
example : History tally (fresh tally [(['A'], 1), (['B'], 2), (['D'], 0)] []) [(exCalls, [some [['A']], some [['B']], some []])]
    (Sys.run ⟨fresh tally [(['A'], 1), (['B'], 2), (['D'], 0)] [], exCalls.map (request tally)⟩
      (List.replicate 20 [0, 1, 2]).flatten).store :=
  .round (schedule := (List.replicate 20 [0, 1, 2]).flatten) (by rfl) .nil

end Verif.Hotel
