import Verif.Hotel.Spec
/-
The invariant of the reservation service.
-/
namespace Verif.Hotel

theorem lookup_put (k k' : Name) (v : Int) (m : List (Name × Int)) :
    (put k' v m).lookup k = if k = k' then some v else m.lookup k := by
  induction m with
  | nil =>
    simp only [put, List.lookup_cons, List.lookup_nil]
    by_cases h : k = k'
    · simp [h]
    · simp [h, beq_eq_false_iff_ne.2 h]
  | cons e m ih =>
    obtain ⟨a, b⟩ := e
    simp only [put]
    by_cases ha : a = k'
    · subst ha
      simp only [if_true, List.lookup_cons]
      by_cases h : k = a
      · simp [h]
      · simp [h, beq_eq_false_iff_ne.2 h]
    · rw [if_neg ha]
      simp only [List.lookup_cons]
      by_cases h : k = a
      · subst h
        simp [ha]
      · simp [beq_eq_false_iff_ne.2 h, ih]

theorem mem_put {k : Name} {v : Int} {m : List (Name × Int)} {e : Name × Int} (h : e ∈ put k v m) : e = (k, v) ∨ e ∈ m := by
  induction m with
  | nil => exact .inl (List.mem_singleton.1 h)
  | cons x m ih =>
    obtain ⟨a, b⟩ := x
    simp only [put] at h
    split at h
    · rcases List.mem_cons.1 h with h | h
      · exact .inl h
      · exact .inr (.tail _ h)
    · rcases List.mem_cons.1 h with h | h
      · exact .inr (h ▸ .head _)
      · rcases ih h with h | h
        · exact .inl h
        · exact .inr (.tail _ h)

theorem put_mem (k : Name) (v : Int) (m : List (Name × Int)) : (k, v) ∈ put k v m := by
  induction m with
  | nil => simp [put]
  | cons x m ih =>
    obtain ⟨a, b⟩ := x
    simp only [put]
    split
    · exact .head _
    · exact .tail _ ih

theorem mem_put_of_ne {k : Name} {v : Int} {m : List (Name × Int)} {e : Name × Int} (h : e ∈ m) (hk : e.1 ≠ k) : e ∈ put k v m := by
  induction m with
  | nil => cases h
  | cons x m ih =>
    obtain ⟨a, b⟩ := x
    simp only [put]
    split
    · next ha =>
      rcases List.mem_cons.1 h with h | h
      · subst h
        exact absurd ha hk
      · exact .tail _ h
    · rcases List.mem_cons.1 h with h | h
      · exact h ▸ .head _
      · exact .tail _ (ih h)

theorem putAll_of_not_mem (u : List (Name × Int)) : ∀ (c : List (Name × Int)) (k : Name), (∀ e ∈ u, e.1 ≠ k) →
    (putAll c u).lookup k = c.lookup k := by
  induction u with
  | nil => intro c k _; rfl
  | cons e u ih =>
    intro c k h
    obtain ⟨a, b⟩ := e
    simp only [putAll]
    rw [ih _ k fun e he => h e (.tail _ he), lookup_put, if_neg fun e => h (a, b) (.head _) e.symm]

theorem putAll_of_mem (u : List (Name × Int)) : ∀ (c : List (Name × Int)) (k : Name) (v : Int), (k, v) ∈ u →
    (∀ w, (k, w) ∈ u → w = v) → (putAll c u).lookup k = some v := by
  induction u with
  | nil => intro c k v h; cases h
  | cons e u ih =>
    intro c k v h hu
    obtain ⟨a, b⟩ := e
    simp only [putAll]
    by_cases hk : ∃ w, (k, w) ∈ u
    · obtain ⟨w, hw⟩ := hk
      have := hu w (.tail _ hw)
      exact ih _ k v (this ▸ hw) fun w hw => hu w (.tail _ hw)
    · rcases List.mem_cons.1 h with h | h
      · cases h
        rw [putAll_of_not_mem u _ _ fun e he hx => hk ⟨e.2, (by rw [← hx]; exact he)⟩, lookup_put, if_pos rfl]
      · exact absurd ⟨v, h⟩ hk

private theorem split_eq {a b t u : List Char} (ht : ∀ c ∈ t, c ≠ '_') (hu : ∀ c ∈ u, c ≠ '_')
    (h : a ++ '_' :: t = b ++ '_' :: u) : a = b ∧ t = u := by
  have key : ∀ (t u a b : List Char), (∀ c ∈ t, c ≠ '_') → (∀ c ∈ u, c ≠ '_') → t ++ '_' :: a = u ++ '_' :: b → t = u ∧ a = b := by
    intro t
    induction t with
    | nil =>
      intro u a b _ hu h
      cases u with
      | nil => simpa using h
      | cons c u =>
        simp only [List.nil_append, List.cons_append, List.cons.injEq] at h
        exact absurd h.1.symm (hu c (.head _))
    | cons c t ih =>
      intro u a b ht hu h
      cases u with
      | nil =>
        simp only [List.nil_append, List.cons_append, List.cons.injEq] at h
        exact absurd h.1 (ht c (.head _))
      | cons d u =>
        simp only [List.cons_append, List.cons.injEq] at h
        obtain ⟨e1, e2⟩ := ih u a b (fun c hc => ht c (.tail _ hc)) (fun c hc => hu c (.tail _ hc)) h.2
        rw [h.1, e1, e2]
        exact ⟨rfl, rfl⟩
  have h := congrArg List.reverse h
  simp only [List.reverse_append, List.reverse_cons, List.append_assoc, List.singleton_append] at h
  obtain ⟨e1, e2⟩ := key t.reverse u.reverse a.reverse b.reverse (fun c hc => ht c (List.mem_reverse.1 hc))
    (fun c hc => hu c (List.mem_reverse.1 hc)) (by simpa using h)
  exact ⟨List.reverse_inj.1 e2, List.reverse_inj.1 e1⟩

theorem nightKey_inj {cal : Calendar} {L : Nat} (hc : cal.Sane L) {h h' : Name} {a b : Nat} (ha : a ≤ L) (hb : b ≤ L)
    (e : nightKey cal h a = nightKey cal h' b) : h = h' ∧ a = b := by
  have e' : (h ++ '_' :: cal.text a) ++ '_' :: cal.text a = (h' ++ '_' :: cal.text b) ++ '_' :: cal.text b := by
    simpa [nightKey] using e
  obtain ⟨e1, e2⟩ := split_eq (fun c h => (hc.chars a c h).1) (fun c h => (hc.chars b c h).1) e'
  rw [e2] at e1
  exact ⟨List.append_cancel_right e1, hc.inj a b ha hb e2⟩

theorem nightKey_ne_cap {cal : Calendar} {L : Nat} (hc : cal.Sane L) (h h' : Name) (a : Nat) : nightKey cal h a ≠ capKey h' := by
  intro e
  have e' : (h ++ '_' :: cal.text a) ++ '_' :: cal.text a = h' ++ '_' :: ['c', 'a', 'p'] := by simpa [nightKey, capKey] using e
  obtain ⟨-, e2⟩ := split_eq (fun c h => (hc.chars a c h).1) (by decide) e'
  have : 'p' ∈ cal.text a := by rw [e2]; simp
  exact (hc.chars a _ this).2 rfl

theorem capKey_inj {h h' : Name} (e : capKey h = capKey h') : h = h' := List.append_cancel_right e

/-! ### The invariant -/

/-- Where the cache has a count it is the right one; where it has none, the database has it. -/
structure Inv (cal : Calendar) (L : Nat) (cap : Name → Int) (start bs : List Booking) (s : State) : Prop where
  numbers : ∀ h, (s.numbers.lookup h).getD 0 = cap h
  cap : ∀ h c, s.cache.lookup (capKey h) = some c → c = cap h
  night : ∀ h x n, x + 1 ≤ L → s.cache.lookup (nightKey cal h (x + 1)) = some n → n = taken bs h x
  here : ∀ h x, x + 1 ≤ L → s.cache.lookup (nightKey cal h (x + 1)) = none →
    counted s h (cal.text x) (cal.text (x + 1)) = taken bs h x
  before : ∀ h x a, x + 1 ≤ L → a < x → s.cache.lookup (nightKey cal h (x + 1)) = none →
    (∀ b ∈ start, b.hotel = h → b.first ≠ x) → counted s h (cal.text a) (cal.text (x + 1)) = taken bs h x

section
variable {cal : Calendar} {L : Nat} (hc : cal.Sane L) {cap : Name → Int} {start bs : List Booking}
include hc

theorem capacity_spec {s : State} (h : Inv cal L cap start bs s) (hotel : Name) :
    (capacity s hotel).1 = cap hotel ∧ Inv cal L cap start bs (capacity s hotel).2 := by
  unfold capacity
  cases hl : s.cache.lookup (capKey hotel) with
  | some c => exact ⟨h.cap hotel c hl, h⟩
  | none =>
    simp only []
    refine ⟨h.numbers hotel, h.numbers, ?_, ?_, ?_, ?_⟩
    · intro k c hk
      simp only [] at hk
      rw [lookup_put] at hk
      split at hk
      · next e =>
        cases hk
        rw [capKey_inj e]
        exact h.numbers hotel
      · exact h.cap k c hk
    · intro k x n hx hk
      simp only [] at hk
      rw [lookup_put, if_neg (nightKey_ne_cap hc _ _ _)] at hk
      exact h.night k x n hx hk
    · intro k x hx hk
      simp only [] at hk
      rw [lookup_put, if_neg (nightKey_ne_cap hc _ _ _)] at hk
      exact h.here k x hx hk
    · intro k x a hx ha hk
      simp only [] at hk
      rw [lookup_put, if_neg (nightKey_ne_cap hc _ _ _)] at hk
      exact h.before k x a hx ha hk

theorem checkNights_spec (hotel : Name) (rooms : Int) (nights : Nat) : ∀ (s : State) (day : Nat) (u : List (Name × Int)),
    Inv cal L cap start bs s → day + nights ≤ L →
    Inv cal L cap start bs (checkNights cal hotel rooms s day nights u).1 ∧
    ((checkNights cal hotel rooms s day nights u).2 = none ↔
      ¬ ∀ x, day ≤ x → x < day + nights → taken bs hotel x + rooms ≤ cap hotel) ∧
    ∀ r, (checkNights cal hotel rooms s day nights u).2 = some r →
      (∀ e ∈ r, e ∈ u ∨ ∃ x, day ≤ x ∧ x < day + nights ∧ e = (nightKey cal hotel (x + 1), taken bs hotel x + rooms)) ∧
      (∀ e ∈ u, (∀ x, day ≤ x → x < day + nights → e.1 ≠ nightKey cal hotel (x + 1)) → e ∈ r) ∧
      ∀ x, day ≤ x → x < day + nights → (nightKey cal hotel (x + 1), taken bs hotel x + rooms) ∈ r := by
  induction nights with
  | zero =>
    intro s day u h hL
    refine ⟨h, ?_, ?_⟩
    · simp only [checkNights]
      constructor
      · intro h; cases h
      · intro hx
        exact absurd (fun x h1 h2 => absurd h2 (by omega)) hx
    · intro r hr
      simp only [checkNights, Option.some.injEq] at hr
      subst hr
      exact ⟨fun e he => .inl he, fun e he _ => he, fun x h1 h2 => absurd h2 (by omega)⟩
  | succ nights ih =>
    intro s day u h hL
    have hn : reserved cal s hotel day = taken bs hotel day := by
      unfold reserved
      split
      · next n hn => exact h.night hotel day n (by omega) hn
      · next hn => exact h.here hotel day (by omega) hn
    obtain ⟨c1, c2⟩ := capacity_spec hc h hotel
    simp only [checkNights, hn, c1]
    by_cases hf : taken bs hotel day + rooms > cap hotel
    · rw [if_pos hf]
      refine ⟨c2, ?_, fun r hr => by cases hr⟩
      simp only [true_iff]
      intro hx
      have := hx day (Nat.le_refl _) (by omega)
      omega
    · rw [if_neg hf]
      obtain ⟨i1, i2, i3⟩ := ih (capacity s hotel).2 (day + 1)
        (put (nightKey cal hotel (day + 1)) (taken bs hotel day + rooms) u) c2 (by omega)
      refine ⟨i1, ?_, ?_⟩
      · rw [i2]
        refine not_congr ⟨?_, ?_⟩
        · intro hx x h1 h2
          by_cases e : x = day
          · subst e; omega
          · exact hx x (by omega) (by omega)
        · intro hx x h1 h2
          exact hx x (by omega) (by omega)
      · intro r hr
        obtain ⟨a, b, c⟩ := i3 r hr
        refine ⟨?_, ?_, ?_⟩
        · intro e he
          rcases a e he with h' | ⟨x, h1, h2, h3⟩
          · rcases mem_put h' with h' | h'
            · exact .inr ⟨day, Nat.le_refl _, by omega, h'⟩
            · exact .inl h'
          · exact .inr ⟨x, by omega, by omega, h3⟩
        · intro e he hx
          exact b e (mem_put_of_ne he (hx day (Nat.le_refl _) (by omega))) fun x h1 h2 => hx x (by omega) (by omega)
        · intro x h1 h2
          by_cases e : x = day
          · subst e
            refine b _ (put_mem _ _ _) ?_
            intro y h3 h4 e
            have := (nightKey_inj hc (by omega) (by omega) e).2
            omega
          · exact c x (by omega) (by omega)

omit hc in
theorem mem_stored {hotel customer : Name} {rooms : Int} {first : Nat} {r : Reservation} :
    ∀ {nights day : Nat}, r ∈ stored cal hotel customer rooms first day nights →
      r.hotel = hotel ∧ ∃ x, day ≤ x ∧ x < day + nights ∧ r.outDate = cal.text (x + 1) := by
  intro nights
  induction nights with
  | zero => intro day h; cases h
  | succ nights ih =>
    intro day h
    simp only [stored] at h
    rcases List.mem_cons.1 h with h | h
    · subst h
      exact ⟨rfl, day, Nat.le_refl _, by omega, rfl⟩
    · obtain ⟨h1, x, h2, h3, h4⟩ := ih h
      exact ⟨h1, x, by omega, by omega, h4⟩

omit hc in
theorem taken_append (bs : List Booking) (b : Booking) (h : Name) (x : Nat) :
    taken (bs ++ [b]) h x = taken bs h x + if b.covers h x then b.rooms else 0 := by
  unfold taken
  rw [List.filter_append, List.map_append, List.sum_append]
  cases hb : b.covers h x <;> simp [List.filter_cons, hb]

theorem commit_spec {s : State} (h : Inv cal L cap start bs s) (hotel customer : Name) (rooms : Int) (first nights : Nat)
    (hL : first + nights ≤ L) (u : List (Name × Int))
    (hu : ∀ e ∈ u, ∃ x, first ≤ x ∧ x < first + nights ∧ e = (nightKey cal hotel (x + 1), taken bs hotel x + rooms))
    (hu' : ∀ x, first ≤ x → x < first + nights → (nightKey cal hotel (x + 1), taken bs hotel x + rooms) ∈ u) :
    Inv cal L cap start (bs ++ [⟨hotel, first, first + nights, rooms⟩]) (commit cal s hotel customer first nights rooms u) := by
  -- the counts of the nights
  have hin : ∀ x, first ≤ x → x < first + nights →
      (putAll s.cache u).lookup (nightKey cal hotel (x + 1)) = some (taken bs hotel x + rooms) := by
    intro x h1 h2
    refine putAll_of_mem u _ _ _ (hu' x h1 h2) ?_
    intro w hw
    obtain ⟨y, y1, y2, y3⟩ := hu _ hw
    simp only [Prod.mk.injEq] at y3
    obtain ⟨-, e⟩ := nightKey_inj hc (by omega) (by omega) y3.1
    have : x = y := by omega
    rw [y3.2, this]
  have hout : ∀ k, (∀ x, first ≤ x → x < first + nights → k ≠ nightKey cal hotel (x + 1)) →
      (putAll s.cache u).lookup k = s.cache.lookup k := by
    intro k hk
    refine putAll_of_not_mem u _ _ ?_
    intro e he hx
    obtain ⟨y, y1, y2, y3⟩ := hu e he
    rw [y3] at hx
    exact hk y y1 y2 hx.symm
  have hcov : ∀ k x, (⟨hotel, first, first + nights, rooms⟩ : Booking).covers k x = true ↔ hotel = k ∧ first ≤ x ∧ x < first + nights := by
    intro k x
    simp [Booking.covers, and_assoc]
  have hother : ∀ k x, x + 1 ≤ L → ¬ (hotel = k ∧ first ≤ x ∧ x < first + nights) →
      (putAll s.cache u).lookup (nightKey cal k (x + 1)) = s.cache.lookup (nightKey cal k (x + 1)) ∧
      taken (bs ++ [⟨hotel, first, first + nights, rooms⟩]) k x = taken bs k x := by
    intro k x hx hn
    constructor
    · refine hout _ ?_
      intro y h1 h2 e
      obtain ⟨e1, e2⟩ := nightKey_inj hc hx (by omega) e
      have : x = y := by omega
      exact hn ⟨e1.symm, this ▸ h1, this ▸ h2⟩
    · rw [taken_append, if_neg (fun h => hn ((hcov k x).1 h)), Int.add_zero]
  have hcount : ∀ k x a, x + 1 ≤ L → ¬ (hotel = k ∧ first ≤ x ∧ x < first + nights) →
      counted (commit cal s hotel customer first nights rooms u) k a (cal.text (x + 1)) = counted s k a (cal.text (x + 1)) := by
    intro k x a hx hn
    unfold counted commit
    simp only [List.filter_append, List.map_append, List.sum_append]
    have : (stored cal hotel customer rooms first first nights).filter
        (fun r => r.hotel == k && r.inDate == a && r.outDate == cal.text (x + 1)) = [] := by
      refine List.filter_eq_nil_iff.2 ?_
      intro r hr he
      simp only [Bool.and_eq_true, beq_iff_eq] at he
      obtain ⟨e1, y, y1, y2, y3⟩ := mem_stored hr
      have := hc.inj _ _ hx (by omega) (he.2.symm.trans y3)
      have : x = y := by omega
      exact hn ⟨e1.symm.trans he.1.1, this ▸ y1, this ▸ y2⟩
    rw [this]
    simp
  refine ⟨h.numbers, ?_, ?_, ?_, ?_⟩
  · intro k c hk
    simp only [commit] at hk
    rw [hout _ fun x _ _ e => nightKey_ne_cap hc _ _ _ e.symm] at hk
    exact h.cap k c hk
  · intro k x n hx hk
    simp only [commit] at hk
    by_cases hn : hotel = k ∧ first ≤ x ∧ x < first + nights
    · obtain ⟨rfl, h1, h2⟩ := hn
      rw [hin x h1 h2] at hk
      cases hk
      rw [taken_append, if_pos ((hcov _ _).2 ⟨rfl, h1, h2⟩)]
    · obtain ⟨e1, e2⟩ := hother k x hx hn
      rw [e1] at hk
      rw [e2]
      exact h.night k x n hx hk
  · intro k x hx hk
    simp only [commit] at hk
    by_cases hn : hotel = k ∧ first ≤ x ∧ x < first + nights
    · obtain ⟨rfl, h1, h2⟩ := hn
      rw [hin x h1 h2] at hk
      cases hk
    · obtain ⟨e1, e2⟩ := hother k x hx hn
      rw [e1] at hk
      rw [e2, hcount k x _ hx hn]
      exact h.here k x hx hk
  · intro k x a hx ha hk hs
    simp only [commit] at hk
    by_cases hn : hotel = k ∧ first ≤ x ∧ x < first + nights
    · obtain ⟨rfl, h1, h2⟩ := hn
      rw [hin x h1 h2] at hk
      cases hk
    · obtain ⟨e1, e2⟩ := hother k x hx hn
      rw [e1] at hk
      rw [e2, hcount k x _ hx hn]
      exact h.before k x a hx ha hk hs

theorem checkHotel_spec (hotel : Name) (rooms : Int) (first : Nat) (nights : Nat) : ∀ (s : State) (day : Nat),
    Inv cal L cap start bs s → day + nights ≤ L → first ≤ day →
    (∀ b ∈ start, b.hotel = hotel → ¬ (first < b.first ∧ b.first < day + nights)) →
    Inv cal L cap start bs (checkHotel cal hotel rooms first s day nights).1 ∧
    ((checkHotel cal hotel rooms first s day nights).2 = true ↔
      0 < nights ∧ ∀ x, day ≤ x → x < day + nights → taken bs hotel x + rooms ≤ cap hotel) := by
  induction nights with
  | zero => intro s day h _ _ _; exact ⟨h, by simp [checkHotel]⟩
  | succ nights ih =>
    intro s day h hL hf hs
    obtain ⟨r, hr⟩ : ∃ r : Int × State, r = reservedCached cal s hotel first day := ⟨_, rfl⟩
    have hr' : r.1 = taken bs hotel day ∧ Inv cal L cap start bs r.2 := by
      rw [hr]
      unfold reservedCached
      split
      · next n hn => exact ⟨h.night hotel day n (by omega) hn, h⟩
      · next hn =>
        have hcnt : counted s hotel (cal.text first) (cal.text (day + 1)) = taken bs hotel day := by
          by_cases e : first = day
          · rw [e]
            exact h.here hotel day (by omega) hn
          · refine h.before hotel day first (by omega) (by omega) hn ?_
            intro b hb hh e'
            exact hs b hb hh (by omega)
        refine ⟨hcnt, h.numbers, ?_, ?_, ?_, ?_⟩
        · intro k c hk
          simp only [] at hk
          rw [lookup_put, if_neg (Ne.symm (nightKey_ne_cap hc _ _ _))] at hk
          exact h.cap k c hk
        · intro k x n hx hk
          simp only [] at hk
          rw [lookup_put] at hk
          split at hk
          · next e =>
            cases hk
            obtain ⟨e1, e2⟩ := nightKey_inj hc hx (by omega) e
            have : x = day := by omega
            rw [hcnt, e1, this]
          · exact h.night k x n hx hk
        · intro k x hx hk
          simp only [] at hk
          rw [lookup_put] at hk
          split at hk
          · cases hk
          · exact h.here k x hx hk
        · intro k x a hx ha hk
          simp only [] at hk
          rw [lookup_put] at hk
          split at hk
          · cases hk
          · exact h.before k x a hx ha hk
    obtain ⟨c1, c2⟩ := capacity_spec hc hr'.2 hotel
    simp only [checkHotel]
    rw [← hr, c1, hr'.1]
    by_cases hx : taken bs hotel day + rooms > cap hotel
    · rw [if_pos hx]
      refine ⟨c2, ?_⟩
      constructor
      · intro h; cases h
      · rintro ⟨-, h⟩
        have := h day (Nat.le_refl _) (by omega)
        omega
    · rw [if_neg hx]
      by_cases h0 : nights = 0
      · rw [if_pos h0]
        refine ⟨c2, ?_⟩
        simp only [true_iff]
        refine ⟨by omega, ?_⟩
        intro x h1 h2
        have : x = day := by omega
        rw [this]
        omega
      · rw [if_neg h0]
        obtain ⟨i1, i2⟩ := ih (capacity r.2 hotel).2 (day + 1) c2 (by omega) (by omega) (fun b hb hh => by
          have := hs b hb hh; omega)
        refine ⟨i1, i2.trans ⟨?_, ?_⟩⟩
        · rintro ⟨-, h⟩
          refine ⟨by omega, ?_⟩
          intro x h1 h2
          by_cases e : x = day
          · subst e; omega
          · exact h x (by omega) (by omega)
        · rintro ⟨-, h⟩
          exact ⟨by omega, fun x h1 h2 => h x (by omega) (by omega)⟩

theorem check_spec (inDate outDate : Name) (rooms : Int) (hotels : List Name) : ∀ (s : State), Inv cal L cap start bs s →
    Harmless cal start (.check hotels inDate outDate rooms) →
    Inv cal L cap start bs (check cal inDate outDate rooms s hotels).1 ∧
    Selects (fun h => cal.parse inDate < cal.parse outDate ∧ Fits bs cap h (cal.parse inDate) (cal.parse outDate) rooms)
      hotels (check cal inDate outDate rooms s hotels).2 := by
  induction hotels with
  | nil => intro s h _; exact ⟨h, .nil⟩
  | cons hotel hotels ih =>
    intro s h hh
    have hp := hc.parse inDate
    have hq := hc.parse outDate
    obtain ⟨a1, a2⟩ := checkHotel_spec hc hotel rooms (cal.parse inDate) (cal.parse outDate - cal.parse inDate) s (cal.parse inDate) h
      (by omega) (Nat.le_refl _) (by
        intro b hb e
        have := hh b hb (e ▸ .head _)
        omega)
    obtain ⟨b1, b2⟩ := ih _ a1 fun b hb hm => hh b hb (.tail _ hm)
    simp only [check]
    refine ⟨b1, ?_⟩
    have key : (0 < cal.parse outDate - cal.parse inDate ∧ ∀ x, cal.parse inDate ≤ x →
        x < cal.parse inDate + (cal.parse outDate - cal.parse inDate) → taken bs hotel x + rooms ≤ cap hotel) ↔
        (cal.parse inDate < cal.parse outDate ∧ Fits bs cap hotel (cal.parse inDate) (cal.parse outDate) rooms) := by
      constructor
      · rintro ⟨h1, h2⟩
        exact ⟨by omega, fun x h3 h4 => h2 x h3 (by omega)⟩
      · rintro ⟨h1, h2⟩
        exact ⟨by omega, fun x h3 h4 => h2 x h3 (by omega)⟩
    split
    · next h' => exact .keep (key.1 (a2.1 h')) b2
    · next h' => exact .drop (fun hx => h' (a2.2 (key.2 hx))) b2

omit hc in
theorem fits_cover (bs : List Booking) (cap : Name → Int) (hotel : Name) (a b : Nat) (rooms : Int) :
    Fits bs cap hotel a b rooms ↔ ∀ x, a ≤ x → x < a + (b - a) → taken bs hotel x + rooms ≤ cap hotel := by
  constructor
  · intro h x h1 h2
    exact h x h1 (by omega)
  · intro h x h1 h2
    exact h x h1 (by omega)

omit hc in
/-- Bookings with the same nights are as good as each other. -/
theorem inv_congr {s : State} {bs' : List Booking} (h : Inv cal L cap start bs s) (he : ∀ k x, taken bs' k x = taken bs k x) :
    Inv cal L cap start bs' s :=
  ⟨h.numbers, h.cap, fun k x n a b => (he k x).symm ▸ h.night k x n a b, fun k x a b => (he k x).symm ▸ h.here k x a b,
    fun k x a c d e f => (he k x).symm ▸ h.before k x a c d e f⟩

theorem call_spec {s : State} (h : Inv cal L cap start bs s) (c : Call) (hh : Harmless cal start c) :
    ∃ bs', Right cal cap bs c bs' (call cal s c).2 ∧ Inv cal L cap start bs' (call cal s c).1 := by
  cases c with
  | check hotels inDate outDate rooms =>
    obtain ⟨a, b⟩ := check_spec hc inDate outDate rooms hotels s h hh
    exact ⟨bs, .available b, a⟩
  | make customer hotels inDate outDate rooms =>
    cases hotels with
    | nil => exact ⟨bs, .panic, h⟩
    | cons hotel hotels =>
      have hp := hc.parse inDate
      have hq := hc.parse outDate
      obtain ⟨a, b, c⟩ := checkNights_spec hc hotel rooms (cal.parse outDate - cal.parse inDate) s (cal.parse inDate) [] h (by omega)
      simp only [call, make]
      rcases hr : checkNights cal hotel rooms s (cal.parse inDate) (cal.parse outDate - cal.parse inDate) [] with ⟨s', r⟩
      rw [hr] at a b c
      rw [← fits_cover] at b
      cases r with
      | none => exact ⟨bs, .full (b.1 rfl), a⟩
      | some u =>
        have hf : Fits bs cap hotel (cal.parse inDate) (cal.parse outDate) rooms := by
          refine Classical.not_not.1 fun hx => ?_
          have := b.2 hx
          cases this
        obtain ⟨u1, -, u2⟩ := c u rfl
        refine ⟨_, .booked hf, ?_⟩
        refine inv_congr (commit_spec hc a hotel customer rooms (cal.parse inDate) (cal.parse outDate - cal.parse inDate) (by omega) u ?_ u2) ?_
        · intro e he
          rcases u1 e he with h | h
          · cases h
          · exact h
        · intro k x
          rw [taken_append, taken_append]
          congr 2
          simp only [Booking.covers, eq_iff_iff]
          by_cases h1 : cal.parse inDate ≤ x
          · have : x < cal.parse outDate ↔ x < cal.parse inDate + (cal.parse outDate - cal.parse inDate) := by omega
            simp [h1, this]
          · simp [h1]

theorem run_spec (cs : List Call) : ∀ {s : State} {bs : List Booking}, Inv cal L cap start bs s → (∀ c ∈ cs, Harmless cal start c) →
    ∃ bs', AllRight cal cap bs cs (run cal s cs).2 bs' ∧ Inv cal L cap start bs' (run cal s cs).1 := by
  induction cs with
  | nil => intro s bs h _; exact ⟨bs, .nil, h⟩
  | cons c cs ih =>
    intro s bs h hh
    obtain ⟨bs1, a, b⟩ := call_spec hc h c (hh c (.head _))
    obtain ⟨bs2, d, e⟩ := ih b fun c hc => hh c (.tail _ hc)
    exact ⟨bs2, .cons a d, e⟩

theorem fresh_inv (numbers : List (Name × Int)) (st : List (Name × Booking)) (hcap : ∀ h, (numbers.lookup h).getD 0 = cap h)
    (hst : ∀ e ∈ st, e.2.last = e.2.first + 1 ∧ e.2.last ≤ L) :
    Inv cal L cap (st.map (·.2)) (st.map (·.2)) (fresh cal numbers st) := by
  have key : ∀ h x a, x + 1 ≤ L → a ≤ L → counted (fresh cal numbers st) h (cal.text a) (cal.text (x + 1)) =
      (((st.map (·.2)).filter fun b => b.hotel == h && decide (b.first = a) && decide (b.first = x)).map (·.rooms)).sum := by
    intro h x a hx ha
    unfold counted fresh
    simp only [List.filter_map, List.map_map]
    congr 1
    have : st.filter ((fun r : Reservation => r.hotel == h && r.inDate == cal.text a && r.outDate == cal.text (x + 1)) ∘
        fun e => ⟨e.2.hotel, e.1, cal.text e.2.first, cal.text e.2.last, e.2.rooms⟩) =
        st.filter ((fun b : Booking => b.hotel == h && decide (b.first = a) && decide (b.first = x)) ∘ fun e => e.2) := by
      refine List.filter_congr ?_
      intro e he
      obtain ⟨h1, h2⟩ := hst e he
      simp only [Function.comp]
      rw [Bool.eq_iff_iff]
      simp only [Bool.and_eq_true, beq_iff_eq, decide_eq_true_eq]
      constructor
      · rintro ⟨⟨e1, e2⟩, e3⟩
        have e2 := hc.inj _ _ (by omega) ha e2
        have e3 := hc.inj _ _ (by omega) hx e3
        exact ⟨⟨e1, e2⟩, by omega⟩
      · rintro ⟨⟨e1, e2⟩, e3⟩
        refine ⟨⟨e1, by rw [e2]⟩, ?_⟩
        rw [show e.2.last = x + 1 by omega]
    rw [this]
    rfl
  refine ⟨hcap, fun h c hk => (by cases hk), fun h x n _ hk => (by cases hk), ?_, ?_⟩
  · intro h x hx _
    rw [key h x x hx (by omega)]
    unfold taken
    congr 2
    refine List.filter_congr ?_
    intro b hb
    obtain ⟨e, he, rfl⟩ := List.mem_map.1 hb
    obtain ⟨h1, h2⟩ := hst e he
    rw [Bool.eq_iff_iff]
    simp only [Booking.covers, Bool.and_eq_true, beq_iff_eq, decide_eq_true_eq]
    constructor
    · rintro ⟨⟨e1, e2⟩, -⟩
      exact ⟨⟨e1, by omega⟩, by omega⟩
    · rintro ⟨⟨e1, e2⟩, e3⟩
      exact ⟨⟨e1, by omega⟩, by omega⟩
  · intro h x a hx ha _ hs
    rw [key h x a hx (by omega)]
    unfold taken
    have e1 : (st.map (·.2)).filter (fun b => b.hotel == h && decide (b.first = a) && decide (b.first = x)) = [] := by
      refine List.filter_eq_nil_iff.2 ?_
      intro b _ hx
      simp only [Bool.and_eq_true, beq_iff_eq, decide_eq_true_eq] at hx
      omega
    have e2 : (st.map (·.2)).filter (fun b => b.covers h x) = [] := by
      refine List.filter_eq_nil_iff.2 ?_
      intro b hb hx
      simp only [Booking.covers, Bool.and_eq_true, beq_iff_eq, decide_eq_true_eq] at hx
      refine hs b hb hx.1.1 ?_
      obtain ⟨e, he, rfl⟩ := List.mem_map.1 hb
      have := hst e he
      omega
    rw [e1, e2]

end

end Verif.Hotel
