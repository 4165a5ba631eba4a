import Verif.Hotel.WebSpec
import Verif.Hotel.Props
/-
C116: recommendations.  C117: the front ends.  C118: restarts.
-/
namespace Verif.Hotel

/-! ### C116: recommendations -/

section
variable {F : Type} [Number F] [DecidableEq F]

theorem putOffer_mem {o : Offer F} : ∀ {m : List (Offer F)}, (m.map (·.id)).Nodup → ∀ p, p ∈ putOffer o m ↔ p = o ∨ (p ∈ m ∧ p.id ≠ o.id)
  | [], _, p => by simp [putOffer]
  | q :: m, hn, p => by
    have hn' := List.nodup_cons.1 hn
    unfold putOffer
    split
    · next h =>
      simp only [List.mem_cons]
      constructor
      · rintro (rfl | hp)
        · exact .inl rfl
        · refine .inr ⟨.inr hp, fun e => hn'.1 ?_⟩
          exact List.mem_map.2 ⟨p, hp, e.trans h.symm⟩
      · rintro (rfl | ⟨rfl | hp, hne⟩)
        · exact .inl rfl
        · exact absurd h hne
        · exact .inr hp
    · next h =>
      rw [List.mem_cons, putOffer_mem hn'.2, List.mem_cons]
      constructor
      · rintro (rfl | rfl | ⟨hp, hne⟩)
        · exact .inr ⟨.inl rfl, h⟩
        · exact .inl rfl
        · exact .inr ⟨.inr hp, hne⟩
      · rintro (rfl | ⟨rfl | hp, hne⟩)
        · exact .inr (.inl rfl)
        · exact .inl rfl
        · exact .inr (.inr ⟨hp, hne⟩)

theorem putOffer_nodup {o : Offer F} : ∀ {m : List (Offer F)}, (m.map (·.id)).Nodup → ((putOffer o m).map (·.id)).Nodup
  | [], _ => by simp [putOffer]
  | q :: m, hn => by
    have hn' := List.nodup_cons.1 hn
    unfold putOffer
    split
    · next h =>
      rw [List.map_cons, List.nodup_cons]
      exact ⟨h ▸ hn'.1, hn'.2⟩
    · next h =>
      rw [List.map_cons, List.nodup_cons]
      refine ⟨fun hq => ?_, putOffer_nodup hn'.2⟩
      obtain ⟨p, hp, e⟩ := List.mem_map.1 hq
      rcases (putOffer_mem hn'.2 p).1 hp with rfl | ⟨hp, -⟩
      · exact h e.symm
      · exact hn'.1 (List.mem_map.2 ⟨p, hp, e⟩)

theorem current_concat {docs : List (Offer F)} {o p : Offer F} : Current (docs ++ [o]) p ↔ p = o ∨ (Current docs p ∧ p.id ≠ o.id) := by
  constructor
  · rintro ⟨a, b, e, h⟩
    rcases List.eq_nil_or_concat b with rfl | ⟨b', x, rfl⟩
    · have := List.append_inj_right' e rfl
      injection this with this
      exact .inl this.symm
    · rw [List.concat_eq_append] at e h
      rw [← List.cons_append, ← List.append_assoc] at e
      have e1 := List.append_inj_left' e rfl
      have e2 := List.append_inj_right' e rfl
      injection e2 with e2
      subst e2
      exact .inr ⟨⟨a, b', e1, fun q hq => h q (by simp [hq])⟩, fun e => h o (by simp) e.symm⟩
  · rintro (rfl | ⟨⟨a, b, rfl, h⟩, hne⟩)
    · exact ⟨docs, [], rfl, nofun⟩
    · refine ⟨a, b ++ [o], by simp, fun q hq => ?_⟩
      rcases List.mem_append.1 hq with hq | hq
      · exact h q hq
      · rw [List.mem_singleton.1 hq]
        exact fun e => hne e.symm

theorem foldl_load (docs : List (Offer F)) (o : Offer F) : loadOffers (docs ++ [o]) = putOffer o (loadOffers docs) := by
  simp [loadOffers, List.foldl_append]

theorem load_spec (docs : List (Offer F)) : ((loadOffers docs).map (·.id)).Nodup ∧ ∀ o, o ∈ loadOffers docs ↔ Current docs o := by
  induction hl : docs.length generalizing docs with
  | zero =>
    cases docs with
    | nil => exact ⟨by simp [loadOffers], fun o => ⟨nofun, fun ⟨a, b, e, _⟩ => by simp at e⟩⟩
    | cons => simp at hl
  | succ n ih =>
    rcases List.eq_nil_or_concat docs with rfl | ⟨ds, x, rfl⟩
    · simp at hl
    · rw [List.concat_eq_append] at *
      obtain ⟨h1, h2⟩ := ih ds (by simp at hl; exact hl)
      rw [foldl_load]
      refine ⟨putOffer_nodup h1, fun o => ?_⟩
      rw [putOffer_mem h1, h2, current_concat]

/-- Both searches. -/
def pick (R : F → F → Bool) (f : Offer F → F) (start : F) (visit : List (Offer F)) : F :=
  visit.foldl (fun m o => if R (f o) m then f o else m) start

theorem pick_spec {R : F → F → Bool} (irrefl : ∀ a, R a a = false) (trans : ∀ a b c, R a b = true → R b c = true → R a c = true)
    (total : ∀ a b, R a b = true ∨ a = b ∨ R b a = true) (f : Offer F → F) : ∀ (visit : List (Offer F)) (start : F),
    (pick R f start visit = start ∨ ∃ o ∈ visit, f o = pick R f start visit) ∧ R start (pick R f start visit) = false ∧
      ∀ o ∈ visit, R (f o) (pick R f start visit) = false := by
  intro visit
  induction visit with
  | nil => intro start; exact ⟨.inl rfl, irrefl _, nofun⟩
  | cons o visit ih =>
    intro start
    show (pick R f (if R (f o) start then f o else start) visit = start ∨ ∃ p ∈ o :: visit, f p = pick R f (if R (f o) start then f o else start) visit)
      ∧ R start (pick R f (if R (f o) start then f o else start) visit) = false ∧
      ∀ p ∈ o :: visit, R (f p) (pick R f (if R (f o) start then f o else start) visit) = false
    split
    · next h =>
      obtain ⟨h1, h2, h3⟩ := ih (f o)
      refine ⟨.inr ?_, ?_, ?_⟩
      · rcases h1 with h1 | ⟨p, hp, e⟩
        · exact ⟨o, by simp, h1.symm⟩
        · exact ⟨p, by simp [hp], e⟩
      · rw [Bool.eq_false_iff]
        intro hr
        exact absurd (trans _ _ _ h hr) (by rw [h2]; simp)
      · intro p hp
        rcases List.mem_cons.1 hp with rfl | hp
        · exact h2
        · exact h3 p hp
    · next h =>
      obtain ⟨h1, h2, h3⟩ := ih start
      refine ⟨?_, h2, ?_⟩
      · rcases h1 with h1 | ⟨p, hp, e⟩
        · exact .inl h1
        · exact .inr ⟨p, by simp [hp], e⟩
      · intro p hp
        rcases List.mem_cons.1 hp with rfl | hp
        · rw [Bool.eq_false_iff]
          intro hr
          generalize pick R f start visit = m at hr h2
          rcases total start m with h' | h' | h'
          · rw [h2] at h'; cases h'
          · subst h'; exact h hr
          · exact h (trans _ _ _ hr h')
        · exact h3 p hp

theorem best_spec {R : F → F → Bool} (irrefl : ∀ a, R a a = false) (trans : ∀ a b c, R a b = true → R b c = true → R a c = true)
    (total : ∀ a b, R a b = true ∨ a = b ∨ R b a = true) (f : Offer F → F) (start : F) {docs visit visit' : List (Offer F)}
    (hv : visit.Perm (loadOffers docs)) (hv' : visit'.Perm (loadOffers docs))
    (hs : (∃ o, Current docs o) → ∃ o, Current docs o ∧ R start (f o) = false) :
    AllBest docs (fun p o => R (f p) (f o) = true) (withValue f (pick R f start visit) visit') := by
  obtain ⟨hn, hm⟩ := load_spec docs
  have hmem : ∀ o, o ∈ visit ↔ Current docs o := fun o => (hv.mem_iff).trans (hm o)
  have hmem' : ∀ o, o ∈ visit' ↔ Current docs o := fun o => (hv'.mem_iff).trans (hm o)
  obtain ⟨h1, h2, h3⟩ := pick_spec irrefl trans total f visit start
  constructor
  · have hn' : (visit'.map (·.id)).Nodup := (hv'.map (·.id)).nodup_iff.2 hn
    exact hn'.sublist (List.filter_sublist.map _)
  · intro id
    simp only [withValue, List.mem_map, List.mem_filter, decide_eq_true_eq, hmem']
    constructor
    · rintro ⟨o, ⟨ho, he⟩, rfl⟩
      refine ⟨o, ho, rfl, fun p hp => ?_⟩
      rw [he, h3 p ((hmem p).2 hp)]
      simp
    · rintro ⟨o, ho, rfl, hbest⟩
      refine ⟨o, ⟨ho, ?_⟩, rfl⟩
      have ho' := h3 o ((hmem o).2 ho)
      -- some hotel has the value that was found
      have hex : ∃ p, Current docs p ∧ f p = pick R f start visit := by
        rcases h1 with h1 | ⟨p, hp, e⟩
        · obtain ⟨p, hp, hb⟩ := hs ⟨o, ho⟩
          refine ⟨p, hp, ?_⟩
          have := h3 p ((hmem p).2 hp)
          rw [h1] at this ⊢
          rcases total (f p) start with h | h | h
          · rw [this] at h; cases h
          · exact h
          · rw [hb] at h; cases h
        · exact ⟨p, (hmem p).1 hp, e⟩
      obtain ⟨p, hp, e⟩ := hex
      have hb := hbest p hp
      rcases total (f o) (pick R f start visit) with h | h | h
      · rw [ho'] at h; cases h
      · exact h
      · rw [e] at hb; exact absurd h hb

/-- C116: the recommended hotels are all the nearest, all the best rated, or all the cheapest ones, each once: whatever the documents in the
database are, and in whatever order the program goes through its map.  (Distances and prices must be finite, and some rating must not be
negative.) -/
theorem C116_recommendations (ord : Ordered F) (distance : F → F → Offer F → F) (docs visit visit' : List (Offer F))
    (hv : visit.Perm (loadOffers docs)) (hv' : visit'.Perm (loadOffers docs)) (lat lon : F) :
    ((∀ o, Current docs o → Number.lt Number.big (distance lat lon o) = false) →
      AllBest docs (fun p o => Number.lt (distance lat lon p) (distance lat lon o) = true) (recommend distance visit visit' "dis" lat lon)) ∧
    ((∀ o, Current docs o → Number.lt Number.big o.price = false) →
      AllBest docs (fun p o => Number.lt p.price o.price = true) (recommend distance visit visit' "price" lat lon)) ∧
    ((∀ o, Current docs o → Number.lt o.rate Number.zero = false) →
      AllBest docs (fun p o => Number.lt o.rate p.rate = true) (recommend distance visit visit' "rate" lat lon)) := by
  refine ⟨fun h => ?_, fun h => ?_, fun h => ?_⟩
  · exact best_spec ord.irrefl ord.trans ord.total (distance lat lon) Number.big hv hv' fun ⟨o, ho⟩ => ⟨o, ho, h o ho⟩
  · exact best_spec ord.irrefl ord.trans ord.total (·.price) Number.big hv hv' fun ⟨o, ho⟩ => ⟨o, ho, h o ho⟩
  · exact best_spec (R := fun a b => Number.lt b a) ord.irrefl (fun a b c h h' => ord.trans _ _ _ h' h)
      (fun a b => by rcases ord.total a b with h | h | h <;> simp [h]) (·.rate) Number.zero hv hv' fun ⟨o, ho⟩ => ⟨o, ho, h o ho⟩

/-- C116: if all ratings are negative, no hotel is the best rated. -/
theorem C116_negative_refuted (distance : F → F → Offer F → F) (visit visit' : List (Offer F)) (hv : visit'.Perm visit)
    (ord : Ordered F) (hneg : ∀ o ∈ visit, Number.lt o.rate Number.zero = true) (lat lon : F) :
    recommend distance visit visit' "rate" lat lon = [] := by
  show withValue _ (pick (fun a b => Number.lt b a) (·.rate) Number.zero visit) visit' = []
  obtain ⟨h1, h2, h3⟩ := pick_spec (R := fun a b : F => Number.lt b a) ord.irrefl (fun a b c h h' => ord.trans _ _ _ h' h)
      (fun a b => by rcases ord.total a b with h | h | h <;> simp [h]) (·.rate) visit Number.zero
  have he : pick (fun a b : F => Number.lt b a) (·.rate) Number.zero visit = Number.zero := by
    rcases h1 with h1 | ⟨o, ho, e⟩
    · exact h1
    · rw [← e] at h2
      rw [hneg o ho] at h2
      cases h2
  rw [he]
  unfold withValue
  rw [List.map_eq_nil_iff, List.filter_eq_nil_iff]
  intro o ho
  have := hneg o ((hv.mem_iff).1 ho)
  simp only [decide_eq_true_eq]
  intro e
  rw [e, ord.irrefl] at this
  cases this

/-- C116: anything else than "dis", "rate" and "price" is refused by the front end, and recommends nothing. -/
theorem C116_other {S P R A : Type} (sv : Services S F P R A) (distance : F → F → Offer F → F) (visit visit' : List (Offer F))
    (require : String) (h : require ∉ ["dis", "rate", "price"]) (lat lon : F) (locale : Name) (s : S) :
    recommend distance visit visit' require lat lon = [] ∧
    recommendHandler sv lat lon require locale s = (s, .error ("Invalid require param " ++ require)) := by
  simp only [List.mem_cons, List.not_mem_nil, or_false, not_or] at h
  simp [recommend, recommendHandler, h]

end

/-! ### C117: the front ends -/

theorem digitChar_iff (c : Char) : digitChar c = true ↔ c ∈ "0123456789".toList := by
  have e : "0123456789".toList = (List.range 10).map fun i => Char.ofNat (48 + i) := by decide
  rw [e]
  simp only [digitChar, Bool.and_eq_true, decide_eq_true_eq, List.mem_map, List.mem_range]
  constructor
  · rintro ⟨h1, h2⟩
    have h1 : 48 ≤ c.toNat := h1
    have h2 : c.toNat ≤ 57 := h2
    exact ⟨c.toNat - 48, by omega, by rw [show 48 + (c.toNat - 48) = c.toNat by omega]; exact Char.ofNat_toNat c⟩
  · rintro ⟨i, hi, rfl⟩
    have : ∀ i, i < 10 → '0' ≤ Char.ofNat (48 + i) ∧ Char.ofNat (48 + i) ≤ '9' := by decide
    exact this i hi

/-- C117: the dates that are accepted are those written as YYYY-MM-DD. -/
theorem C117_dates (t : Name) : goodFormat t = true ↔ DateText t := by
  unfold goodFormat DateText
  constructor
  · intro h
    rw [Bool.and_eq_true] at h
    have hl : t.length = 10 := by simpa using h.1
    match t, hl with
    | [c0, c1, c2, c3, c4, c5, c6, c7, c8, c9], _ =>
      have h2 := h.2
      simp [List.zipIdx] at h2
      refine ⟨[c0, c1, c2, c3], [c5, c6], [c8, c9], by simp [h2], rfl, rfl, rfl, ?_⟩
      intro c hc
      rw [← digitChar_iff]
      simp at hc
      rcases hc with rfl | rfl | rfl | rfl | rfl | rfl | rfl | rfl <;> simp [h2]
  · rintro ⟨y, m, d, rfl, hy, hm, hd, hc⟩
    match y, m, d, hy, hm, hd with
    | [c0, c1, c2, c3], [c5, c6], [c8, c9], _, _, _ =>
      have hc : ∀ c ∈ [c0, c1, c2, c3] ++ [c5, c6] ++ [c8, c9], digitChar c = true := fun c h => (digitChar_iff c).2 (hc c h)
      simp [List.zipIdx] at hc ⊢
      simp [hc]

section
variable {S F P R A : Type} (sv : Services S F P R A)

/-- The credentials are given and the user service confirms them. -/
def Confirmed (user password : Name) (s : S) : Prop := user ≠ [] ∧ password ≠ [] ∧ (sv.checkUser user password s).2 = .ok true

theorem confirmed_of {user password : Name} {s s' : S} (h1 : user ≠ []) (h2 : password ≠ []) (h : sv.checkUser user password s = (s', .ok true)) :
    Confirmed sv user password s := ⟨h1, h2, by rw [h]⟩

/-- C117: login succeeds exactly with credentials that the user service confirms. -/
theorem C117_login (user password : Name) (s : S) :
    (userHandler sv user password s).2 = .ok "Login successful" ↔ Confirmed sv user password s := by
  unfold userHandler Confirmed
  split
  · next h =>
    constructor
    · intro e; cases e
    · rintro ⟨h1, h2, -⟩
      rcases h with h | h
      · exact absurd h h1
      · exact absurd h h2
  · next h =>
    have h' := not_or.1 h
    split
    · next s' e => simp [h'.1, h'.2, e]
    · next s' r hr e =>
      constructor
      · intro e; cases e
      · rintro ⟨-, -, h3⟩
        rw [e] at h3
        cases h3
        exact absurd rfl hr

/-- C117: without confirmed credentials no front end call gets to the reservation, review, profile or attraction services: at most the user
service is asked, and the reply is an error. -/
theorem C117_unauthorised (idOf : P → Name) (latOf lonOf : P → F) (user password : Name) (s : S) (h : ¬ Confirmed sv user password s)
    (inDate outDate hotel customer : Name) (rooms : Int) :
    (∀ s' r, reservationHandler sv inDate outDate hotel customer user password rooms s = (s', r) →
      (s' = s ∨ s' = (sv.checkUser user password s).1) ∧ ∃ e, r = .error e) ∧
    (∀ s' r, reviewHandler sv user password hotel s = (s', r) → (s' = s ∨ s' = (sv.checkUser user password s).1) ∧ ∃ e, r = .error e) ∧
    (∀ s' r, attractionsHandler sv idOf latOf lonOf user password hotel s = (s', r) →
      (s' = s ∨ s' = (sv.checkUser user password s).1) ∧ ∃ e, r = .error e) := by
  have hu : ∃ s' e, userHandler sv user password s = (s', .error e) ∧ (s' = s ∨ s' = (sv.checkUser user password s).1) := by
    unfold userHandler
    split
    · exact ⟨_, _, rfl, .inl rfl⟩
    · next hn =>
      have hn := not_or.1 hn
      split
      · next s' e => exact absurd (confirmed_of sv hn.1 hn.2 e) h
      · next s' r _ e => exact ⟨_, _, rfl, .inr (by rw [e])⟩
  obtain ⟨su, eu, hu, hs⟩ := hu
  refine ⟨?_, ?_, ?_⟩
  · intro s' r e
    unfold reservationHandler at e
    repeat' split at e
    all_goals (injection e with e1 e2; subst e1; subst e2)
    iterate 5 exact ⟨.inl rfl, _, rfl⟩
    · next hc => exact ⟨.inr (by rw [hc]), _, rfl⟩
    · next hc => exact ⟨.inr (by rw [hc]), _, rfl⟩
    · next hn _ _ hc _ _ _ _ => exact absurd (confirmed_of sv (not_or.1 hn).1 (not_or.1 hn).2 hc) h
    · next hn _ _ hc _ _ _ => exact absurd (confirmed_of sv (not_or.1 hn).1 (not_or.1 hn).2 hc) h
    · next hn _ _ hc _ _ _ _ _ => exact absurd (confirmed_of sv (not_or.1 hn).1 (not_or.1 hn).2 hc) h
  · intro s' r e
    rw [reviewHandler, hu] at e
    injection e with e1 e2
    exact ⟨e1 ▸ hs, eu, e2.symm⟩
  · intro s' r e
    rw [attractionsHandler, hu] at e
    injection e with e1 e2
    exact ⟨e1 ▸ hs, eu, e2.symm⟩

/-- C117: a reservation is reported as successful exactly if the request is complete, the dates are written as dates, the credentials are
confirmed, and the reservation service returns a hotel; it is then asked for this hotel, these dates and rooms, in the customer's name. -/
theorem C117_reservation (inDate outDate hotel customer user password : Name) (rooms : Int) (s : S) :
    (reservationHandler sv inDate outDate hotel customer user password rooms s).2 = .ok "Reservation successful" ↔
      DateText inDate ∧ DateText outDate ∧ hotel ≠ [] ∧ customer ≠ [] ∧ Confirmed sv user password s ∧
      ∃ h hs, (sv.reserve customer [hotel] inDate outDate rooms (sv.checkUser user password s).1).2 = .ok (h :: hs) := by
  have hne : ∀ t, DateText t → t ≠ [] := by
    rintro t ⟨y, m, d, rfl, -⟩ h
    simp at h
  constructor
  · intro h
    unfold reservationHandler at h
    repeat' split at h
    all_goals first | (cases h; done) | skip
    next h1 h2 h3 h4 h5 _ s1 hc _ s2 x xs hr =>
    have h2 : goodFormat inDate = true ∧ goodFormat outDate = true := by
      cases ha : goodFormat inDate <;> cases hb : goodFormat outDate <;> simp [ha, hb] at h2 ⊢
    have h5 := not_or.1 h5
    exact ⟨(C117_dates _).1 h2.1, (C117_dates _).1 h2.2, h3, h4, confirmed_of sv h5.1 h5.2 hc, x, xs, by rw [hc, hr]⟩
  · rintro ⟨h1, h2, h3, h4, ⟨h5, h6, h7⟩, x, xs, hr⟩
    unfold reservationHandler
    rw [if_neg (by simp [hne _ h1, hne _ h2]), if_neg (by simp [(C117_dates _).2 h1, (C117_dates _).2 h2]), if_neg h3, if_neg h4,
      if_neg (by simp [h5, h6])]
    generalize sv.checkUser user password s = c at *
    obtain ⟨s1, r1⟩ := c
    subst h7
    simp only at hr ⊢
    generalize sv.reserve customer [hotel] inDate outDate rooms s1 = c at *
    obtain ⟨s2, r2⟩ := c
    subst hr
    rfl

/-- C117: if the reservation service fails, the search reports no hotels, and no error. -/
theorem C117_search_error_refuted (inDate outDate locale : Name) (lat lon : F) (s s1 s2 : S) (near : List Name) (e : String)
    (h1 : sv.nearby lat lon inDate outDate s = (s1, .ok near)) (h2 : sv.available near inDate outDate 1 s1 = (s2, .error e)) :
    searchHandler sv inDate outDate lat lon locale s = (s2, .ok []) := by
  simp [searchHandler, h1, h2]

end

section
variable {F P A : Type} [Number F] [DecidableEq F] (cal : Calendar) (hash : Name → Name) (near : F → F → List Name)
  (distance : F → F → Offer F → F) (zero : P) (spots : F → F → List A)

/-- C117: dates that are written as dates but are none (or not in this order) give a successful reservation, and nothing is reserved: every
such request of a user with confirmed credentials. -/
theorem C117_bad_date_refuted (w : World F P) (inDate outDate hotel customer user password : Name) (rooms : Int)
    (hi : DateText inDate) (ho : DateText outDate) (hio : cal.parse outDate ≤ cal.parse inDate) (hh : hotel ≠ []) (hc : customer ≠ [])
    (hu : user ≠ []) (hp : password ≠ []) (hok : w.users user = some (hash password)) :
    reservationHandler (services cal hash near distance zero spots) inDate outDate hotel customer user password rooms w =
      (w, .ok "Reservation successful") := by
  have hne : ∀ t, DateText t → t ≠ [] := by
    rintro t ⟨y, m, d, rfl, -⟩ h
    simp at h
  unfold reservationHandler
  rw [if_neg (by simp [hne _ hi, hne _ ho]), if_neg (by simp [(C117_dates _).2 hi, (C117_dates _).2 ho]), if_neg hh, if_neg hc,
    if_neg (by simp [hu, hp])]
  have : cal.parse outDate - cal.parse inDate = 0 := by omega
  simp [services, checkUser, hok, make, this, checkNights, commit, stored, putAll]

/-- The caches hold what the databases hold. -/
structure Fresh (w : World F P) : Prop where
  rates : ∀ k a, w.rateCache.lookup k = some a → a = w.plans.filter fun p => p.hotel == k
  profs : ∀ k a, w.profCache.lookup k = some a → a = (w.profs.lookup k).getD zero

theorem cached_spec {α : Type} (db : Name → α) : ∀ (ids : List Name) (cache : List (Name × α)),
    (∀ k a, cache.lookup k = some a → a = db k) → (cached db cache ids).2 = ids.map db ∧
      ∀ k a, (cached db cache ids).1.lookup k = some a → a = db k
  | [], cache, h => ⟨rfl, h⟩
  | id :: ids, cache, h => by
    unfold cached
    split
    · next a ha =>
      have := cached_spec db ids cache h
      exact ⟨by simp [this.1, h id a ha], this.2⟩
    · next ha =>
      have h' : ∀ k a, ((id, db id) :: cache).lookup k = some a → a = db k := by
        intro k a hk
        rw [List.lookup_cons] at hk
        split at hk
        · next e =>
          injection hk with hk
          rw [← hk, eq_of_beq e]
        · exact h k a hk
      have := cached_spec db ids _ h'
      exact ⟨by simp [this.1], this.2⟩

/-- C117: a search returns the profiles of the nearby hotels that have a rate plan and for which the reservation service says that a room is
free. -/
theorem C117_search (w : World F P) (hf : Fresh zero w) (inDate outDate locale : Name) (lat lon : F) :
    ∃ offered : List Name, (∀ h, h ∈ offered ↔ h ∈ near lat lon ∧ ∃ p ∈ w.plans, p.hotel = h) ∧
      (searchHandler (services cal hash near distance zero spots) inDate outDate lat lon locale w).2 =
        .ok ((check cal inDate outDate 1 w.res offered).2.map fun h => (w.profs.lookup h).getD zero) := by
  refine ⟨(nearby w.plans w.rateCache (near lat lon) inDate outDate).2, ?_, ?_⟩
  · intro h
    have := (cached_spec _ (near lat lon) w.rateCache hf.rates).1
    simp only [nearby, getRates, this, List.mem_map, List.mem_flatten]
    constructor
    · rintro ⟨p, ⟨l, ⟨k, hk, rfl⟩, hp⟩, rfl⟩
      have := List.mem_filter.1 hp
      have e : p.hotel = k := eq_of_beq this.2
      exact ⟨e ▸ hk, p, this.1, rfl⟩
    · rintro ⟨hn, p, hp, rfl⟩
      exact ⟨p, ⟨_, ⟨p.hotel, hn, rfl⟩, List.mem_filter.2 ⟨hp, by simp⟩⟩, rfl⟩
  · simp only [searchHandler, services]
    have := (cached_spec _ (check cal inDate outDate 1 w.res (nearby w.plans w.rateCache (near lat lon) inDate outDate).2).2 w.profCache
      hf.profs).1
    simp only [getProfiles, this]

end

/-! ### C118: restarts -/

theorem loadUsers_spec (docs : List (Name × Name)) (n p : Name) (h : loadUsers docs n = some p) : (n, p) ∈ docs := by
  have key : ∀ (docs : List (Name × Name)) (m : Name → Option Name) (n p : Name),
      docs.foldl (fun m u => fun n => if n = u.1 then some u.2 else m n) m n = some p → m n = some p ∨ (n, p) ∈ docs := by
    intro docs
    induction docs with
    | nil => intro m n p h; exact .inl h
    | cons d docs ih =>
      intro m n p h
      rcases ih _ n p h with h | h
      · simp only at h
        split at h
        · next e =>
          injection h with h
          exact .inr (by rw [e, ← h]; simp)
        · exact .inl h
      · exact .inr (List.mem_cons_of_mem _ h)
  rcases key docs _ n p h with h | h
  · cases h
  · exact h

theorem loadUsers_some (docs : List (Name × Name)) (n p : Name) (h : (n, p) ∈ docs) : ∃ q, loadUsers docs n = some q := by
  have key : ∀ (docs : List (Name × Name)) (m : Name → Option Name),
      ((∃ q, m n = some q) ∨ ∃ p, (n, p) ∈ docs) → ∃ q, docs.foldl (fun m u => fun n => if n = u.1 then some u.2 else m n) m n = some q := by
    intro docs
    induction docs with
    | nil =>
      intro m h
      rcases h with h | ⟨p, h⟩
      · exact h
      · cases h
    | cons d docs ih =>
      intro m h
      refine ih _ ?_
      by_cases e : n = d.1
      · exact .inl ⟨d.2, by simp [e]⟩
      · rcases h with ⟨q, h⟩ | ⟨p, h⟩
        · exact .inl ⟨q, by simp [e, h]⟩
        · rcases List.mem_cons.1 h with h | h
          · exact absurd (by rw [← h]) e
          · exact .inr ⟨p, h⟩
  exact key docs _ (.inr ⟨p, h⟩)

theorem seedName_inj {i j : Nat} (h : seedName i = seedName j) : i = j := by
  have := List.append_cancel_left h
  have h' := congrArg (fun s => Nat.ofDigitChars 10 s 0) this
  simpa [Nat.ofDigitChars_ten_toDigits] using h'

theorem started_mem {α : Type} {seeds : List α} {x : α} : ∀ {n : Nat}, x ∈ started (insertSeeds seeds) (n + 1) ↔ x ∈ seeds
  | 0 => by simp [started, insertSeeds]
  | n + 1 => by
    rw [started, insertSeeds, List.mem_append, started_mem (n := n)]
    simp

theorem initUsers_eq (hash : Name → Name) : initUsers hash = insertSeeds ((List.range 501).map fun i => (seedName i, hash (seedPassword i))) := rfl

/-- C118: however often the user service was started on its database, a password is accepted exactly if it has the hash of the password that
the user was given at first. -/
theorem C118_users (hash : Name → Name) (n : Nat) (user password : Name) :
    checkUser hash (loadUsers (started (initUsers hash) (n + 1))) user password = true ↔
      ∃ i, i ≤ 500 ∧ user = seedName i ∧ hash password = hash (seedPassword i) := by
  rw [initUsers_eq]
  unfold checkUser
  constructor
  · intro h
    split at h
    · next p hp =>
      have := started_mem.1 (loadUsers_spec _ _ _ hp)
      obtain ⟨i, hi, e⟩ := List.mem_map.1 this
      injection e with e1 e2
      have := List.mem_range.1 hi
      exact ⟨i, by omega, e1.symm, by rw [e2]; exact eq_of_beq h⟩
    · cases h
  · rintro ⟨i, hi, rfl, hp⟩
    obtain ⟨q, hq⟩ := loadUsers_some (started (insertSeeds ((List.range 501).map fun i => (seedName i, hash (seedPassword i)))) (n + 1)) (seedName i)
      (hash (seedPassword i)) (started_mem.2 (List.mem_map.2 ⟨i, List.mem_range.2 (by omega), rfl⟩))
    rw [hq]
    have := started_mem.1 (loadUsers_spec _ _ _ hq)
    obtain ⟨j, hj, e⟩ := List.mem_map.1 this
    injection e with e1 e2
    have := seedName_inj e1
    subst this
    simp [hp, e2]

/-- C118: however often the recommendation service was started, its hotels are the same. -/
theorem C118_recommendations {F : Type} (seeds : List (Offer F)) (hs : (seeds.map (·.id)).Nodup) (n : Nat) (o : Offer F) :
    Current (started (insertSeeds seeds) (n + 1)) o ↔ o ∈ seeds := by
  constructor
  · rintro ⟨a, b, e, -⟩
    have : o ∈ started (insertSeeds seeds) (n + 1) := by rw [e]; simp
    exact started_mem.1 this
  · intro h
    obtain ⟨a, b, rfl⟩ := List.append_of_mem h
    refine ⟨started (insertSeeds (a ++ o :: b)) n ++ a, b, by simp [started, insertSeeds], ?_⟩
    intro p hp e
    rw [List.map_append, List.map_cons] at hs
    have := (List.nodup_append.1 hs).2.1
    exact (List.nodup_cons.1 this).1 (by rw [← e]; exact List.mem_map.2 ⟨p, hp, rfl⟩)

/-- C118: every start of the review service repeats its reviews: after `n` starts, a guest who asks for the reviews of a hotel gets every
one of them `n` times. -/
theorem C118_reviews_refuted (seeds : List Review) (n : Nat) (hotel : Name) (r : Review) (hr : r.hotel = hotel) (hs : seeds.count r = 1) :
    (getReviews (started (insertSeeds seeds) n) [] hotel).2.count r = n := by
  have key : ∀ n, ((started (insertSeeds seeds) n).filter fun d => d.hotel == hotel).count r = n := by
    intro n
    induction n with
    | zero => rfl
    | succ n ih =>
      rw [started, insertSeeds, List.filter_append, List.count_append, ih, List.count_filter (by simp [hr]), hs]
  have := key n
  simp [getReviews, cached, this]

theorem counted_started (hotel guest inDate outDate : Name) (numbers : List (Name × Int)) (n : Nat) :
    counted ⟨[], started (insertSeeds [⟨hotel, guest, inDate, outDate, 1⟩]) n, numbers⟩ hotel inDate outDate = n := by
  unfold counted
  simp only
  induction n with
  | zero => rfl
  | succ n ih =>
    rw [started, insertSeeds, List.filter_append, List.map_append, List.sum_append, ih]
    simp

/-- C118: every start of the reservation service repeats the reservation in its text (one room for one night): after `n` starts, `n` rooms
are taken, and in the end there is none for a guest. -/
theorem C118_reservations_refuted (cal : Calendar) (hotel seedGuest guest inDate outDate : Name) (day : Nat) (c rooms : Int) (n : Nat)
    (hi : cal.parse inDate = day) (ho : cal.parse outDate = day + 1) (hi' : cal.text day = inDate) (ho' : cal.text (day + 1) = outDate) :
    (make cal ⟨[], started (insertSeeds [⟨hotel, seedGuest, inDate, outDate, 1⟩]) n, [(hotel, c)]⟩ guest [hotel] inDate outDate rooms).2 =
      if n + rooms > c then some [] else some [hotel] := by
  have h2 := counted_started hotel seedGuest inDate outDate [(hotel, c)] n
  simp only [make, hi, ho, Nat.add_sub_cancel_left, checkNights, reserved, List.lookup_nil, hi', ho', h2, capacity, List.lookup_cons, beq_self_eq_true,
    Option.getD_some]
  by_cases h : (n : Int) + rooms > c
  · simp [h]
  · simp [h]

/-- C118: every start of the rate service repeats its rate plans: a search returns a hotel once for every start. -/
theorem C118_rates_refuted (seeds : List RatePlan) (n : Nat) (hotel inDate outDate : Name) (hs : seeds.countP (fun p => p.hotel == hotel) = 1) :
    (nearby (started (insertSeeds seeds) n) [] [hotel] inDate outDate).2 = List.replicate n hotel := by
  have key : ∀ n, ((started (insertSeeds seeds) n).filter fun d => d.hotel == hotel).map (·.hotel) = List.replicate n hotel := by
    intro n
    induction n with
    | zero => rfl
    | succ n ih =>
      rw [started, insertSeeds, List.filter_append, List.map_append, ih, List.replicate_succ']
      congr 1
      have h1 : (seeds.filter fun p => p.hotel == hotel).length = 1 := by rw [← List.countP_eq_length_filter]; exact hs
      obtain ⟨p, hp⟩ := List.length_eq_one_iff.1 h1
      have : p ∈ seeds.filter fun p => p.hotel == hotel := by rw [hp]; simp
      rw [hp]
      simp only [List.map_cons, List.map_nil]
      rw [eq_of_beq (List.mem_filter.1 this).2]
  have := key n
  simp [nearby, getRates, cached, this]

/-! ### Concrete cases -/

instance : Number Int := ⟨fun a b => decide (a < b), 0, 10 ^ 300⟩

theorem intOrdered : Ordered Int := ⟨by simp [Number.lt], by simp [Number.lt]; omega, by simp [Number.lt]; omega⟩

/-- Two hotels at the same price, one of which was entered twice; the map is gone through in different orders. -/
example :
    let docs : List (Offer Int) := [⟨['1'], 0, 0, 3, 150⟩, ⟨['2'], 0, 0, 5, 120⟩, ⟨['1'], 0, 0, 4, 120⟩, ⟨['3'], 0, 0, 5, 200⟩]
    recommend (fun _ _ o => o.lat) (loadOffers docs) (loadOffers docs).reverse "price" 0 0 = [['2'], ['1']] ∧
    recommend (fun _ _ o => o.lat) (loadOffers docs) (loadOffers docs).reverse "rate" 0 0 = [['3'], ['2']] ∧
    ∀ o ∈ docs, Number.lt Number.big o.price = false ∧ Number.lt o.rate Number.zero = false := by decide +kernel

/-- A text that passes for a date. -/
example : DateText "2015-13-45".toList := (C117_dates _).1 (by decide +kernel)
example : ¬ DateText "2015-4-9".toList := fun h => absurd ((C117_dates _).2 h) (by decide +kernel)

/-- A request that is refused, and one that is not. -/
def exampleWorld : World Int Nat :=
  ⟨⟨[], [], [(['4'], 2)]⟩, [], [], [], [], [], [], fun u => if u = ['a'] then some ['x'] else none, []⟩
def exampleServices : Services (World Int Nat) Int Nat Review Nat :=
  services ⟨List.length, fun n => List.replicate n '|'⟩ id (fun _ _ => []) (fun _ _ o => o.lat) 0 (fun _ _ => [])
example : (reservationHandler exampleServices "2015-04-09".toList "2015-04-10".toList ['4'] ['g'] ['a'] ['y'] 1 exampleWorld).2 =
    .error "Invalid credentials" := by decide +kernel
example : (userHandler exampleServices ['a'] ['x'] exampleWorld).2 = .ok "Login successful" := by decide +kernel
example : Confirmed exampleServices ['a'] ['x'] exampleWorld ∧ ¬ Confirmed exampleServices ['a'] ['y'] exampleWorld := by
  unfold Confirmed
  decide +kernel

/-- Empty caches are fresh. -/
example : Fresh 0 (⟨⟨[], [], []⟩, [⟨['1'], [], []⟩], [], [(['1'], 7)], [], [], [], fun _ => none, []⟩ : World Int Nat) :=
  ⟨fun _ _ h => by simp at h, fun _ _ h => by simp at h⟩

example : (getReviews (started (insertSeeds [⟨['1'], ['1'], ['p']⟩, ⟨['5'], ['2'], ['q']⟩]) 3) [] ['1']).2.length = 3 := by decide +kernel

end Verif.Hotel
