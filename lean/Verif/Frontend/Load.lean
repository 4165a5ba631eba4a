/-
`LoadCatalogue` of the SockShop's front end (frontend.go lines 275-310), and C99 about it.
-/
import Verif.Frontend.Lemmas
namespace Verif.Frontend
open Verif.NoSQL
variable {P : Type}

/-- `alltags` (line 277). -/
def allTags : List Name :=
  ["brown", "geek", "formal", "blue", "skin", "red", "action", "sport", "black", "magic", "green"].map String.toList

/-- The function `sock` (lines 279-282). -/
def mkSock (name description : String) (price : P) (qty : Int) (url1 url2 : String) (tags : List String) : Catalogue.Sock P :=
  ⟨[], name.toList, description.toList, [], url1.toList, url2.toList, price, qty, tags.map String.toList, []⟩

/-- `socks` (lines 284-295).  `price` gives the `float32` of a number of hundredths. -/
def theSocks (price : Nat → P) : List (Catalogue.Sock P) :=
  [mkSock "Weave special" "Limited issue Weave socks." (price 1715) 33 "/catalogue/images/weave1.jpg"
      "/catalogue/images/weave2.jpg" ["geek", "black"],
   mkSock "Nerd leg" "For all those leg lovers out there. A perfect example of a swivel chair trained calf. Meticulously trained on a diet of sitting and Pina Coladas. Phwarr..."
      (price 799) 115 "/catalogue/images/bit_of_leg_1.jpeg" "/catalogue/images/bit_of_leg_2.jpeg" ["blue", "skin"],
   mkSock "Crossed" "A mature sock, crossed, with an air of nonchalance." (price 1732) 738 "/catalogue/images/cross_1.jpeg"
      "/catalogue/images/cross_2.jpeg" ["formal", "blue", "red", "action"],
   mkSock "SuperSport XL" "Ready for action. Engineers: be ready to smash that next bug! Be ready, with these super-action-sport-masterpieces. This particular engineer was chased away from the office with a stick."
      (price 1500) 820 "/catalogue/images/puma_1.jpeg" "/catalogue/images/puma_2.jpeg" ["formal", "sport", "black"],
   mkSock "Holy" "Socks fit for a Messiah. You too can experience walking in water with these special edition beauties. Each hole is lovingly proggled to leave smooth edges. The only sock approved by a higher power."
      (price 9999) 1 "/catalogue/images/holy_1.jpeg" "/catalogue/images/holy_2.jpeg" ["action", "magic"],
   mkSock "YouTube.sock" "We were not paid to sell this sock. It's just a bit geeky." (price 1099) 801
      "/catalogue/images/youtube_1.jpeg" "/catalogue/images/youtube_2.jpeg" ["geek", "formal"],
   mkSock "Figueroa" "enim officia aliqua excepteur esse deserunt quis aliquip nostrud anim" (price 1400) 808
      "/catalogue/images/WAT.jpg" "/catalogue/images/WAT2.jpg" ["formal", "blue", "green"],
   mkSock "Classic" "Keep it simple." (price 1200) 127 "/catalogue/images/classic.jpg" "/catalogue/images/classic2.jpg"
      ["brown", "green"],
   mkSock "Colourful" "proident occaecat irure et excepteur labore minim nisi amet irure" (price 1800) 438
      "/catalogue/images/colourful_socks.jpg" "/catalogue/images/colourful_socks.jpg" ["brown", "blue"],
   mkSock "Cat socks" "consequat amet cupidatat minim laborum tempor elit ex consequat in" (price 1500) 175
      "/catalogue/images/catsocks.jpg" "/catalogue/images/catsocks2.jpg" ["brown", "formal", "green"]]

/-- The loop (lines 302-307).  The `k`-th call has its own failures and its own `uuid.NewString()`. -/
def loadLoop (fails : Nat → Catalogue.Fails) (uuid : Nat → Name) (db : Catalogue.DB P) (k : Nat) :
    List (Catalogue.Sock P) → Catalogue.DB P × Status
  | [] => (db, .ok)
  | x :: xs => match Catalogue.addSock (fails k) db x (uuid k) with
    | (db, .ok _) => loadLoop fails uuid db (k + 1) xs
    | (db, _) => (db, .error)

/-- `LoadCatalogue` (lines 275-310). -/
def loadCatalogue (price : Nat → P) (fails : Nat → Catalogue.Fails) (uuid : Nat → Name) (db : Catalogue.DB P) :
    Catalogue.DB P × Status :=
  match Catalogue.addTags (fails 0) db allTags with
  | (db, .ok ()) => loadLoop fails uuid db 1 (theSocks price)
  | (db, _) => (db, .error)

variable [Catalogue.Sql P]

private theorem reached_add {db : Catalogue.DB P} (h : Catalogue.Reached db) (fails : Catalogue.Fails) (o : Catalogue.Op P) :
    Catalogue.Reached (Catalogue.call db fails o) := by
  obtain ⟨hist, rfl⟩ := h
  exact ⟨hist ++ [(fails, o)], by unfold Catalogue.calls; rw [List.foldl_append]; rfl⟩

private theorem load_loop (uuid : Nat → Name) (hinj : ∀ i j, uuid i = uuid j → i = j) (socks : List (Catalogue.Sock P))
    (hs : ∀ x ∈ socks, x.id = [] ∧ Catalogue.Tagged x) :
    ∀ (db : Catalogue.DB P) (k : Nat), Catalogue.Reached db → (∀ i, k ≤ i → ∀ r ∈ db.socks, r.id ≠ uuid i) →
      ∃ db', loadLoop (fun _ => Catalogue.noFails) uuid db k socks = (db', .ok) ∧
        (∀ i x, socks[i]? = some x → ∃ t, Catalogue.get db' (uuid (k + i)) = .ok t ∧ Catalogue.Shows x t (uuid (k + i))) ∧
        ∀ id, (∀ i, i < socks.length → id ≠ uuid (k + i)) → Catalogue.get db' id = Catalogue.get db id := by
  induction socks with
  | nil => exact fun db k _ _ => ⟨db, rfl, by simp, fun _ _ => rfl⟩
  | cons x xs ih =>
    intro db k hr hf
    obtain ⟨hid, ht⟩ := hs x List.mem_cons_self
    have h0 := Catalogue.C98_added_partial db hr x (uuid k) ht (fun _ => hf k (Nat.le_refl k))
    rw [if_pos hid] at h0
    obtain ⟨db1, t, e, hg, hsh, ho⟩ := h0
    have hr1 : Catalogue.Reached db1 := by
      have := reached_add hr Catalogue.noFails (.addSock x (uuid k))
      simp only [Catalogue.call, e] at this
      exact this
    obtain ⟨db2, e2, h2, o2⟩ := ih (fun y hy => hs y (List.mem_cons_of_mem _ hy)) db1 (k + 1) hr1 (by
      intro i hi
      have := Catalogue.added_rows Catalogue.noFails hr x (uuid k) (uuid i)
        (by rw [if_pos hid]; intro he; have := hinj _ _ he; omega) (hf i (by omega))
      rw [e] at this
      exact this)
    refine ⟨db2, ?_, ?_, ?_⟩
    · simp only [loadLoop, e, e2]
    · intro i y hy
      cases i with
      | zero =>
        simp only [List.getElem?_cons_zero, Option.some.injEq] at hy
        subst hy
        refine ⟨t, ?_, hsh⟩
        rw [o2 _ (fun j hj he => by have := hinj _ _ he; omega)]
        exact hg
      | succ i =>
        rw [List.getElem?_cons_succ] at hy
        have := h2 i y hy
        rw [show k + (i + 1) = k + 1 + i by omega]
        exact this
    · intro id hid
      rw [o2 id (fun i hi => by
        have := hid (i + 1) (by simpa using hi)
        rw [show k + 1 + i = k + (i + 1) by omega]
        exact this), ho id (by have := hid 0 (by simp); simpa using this)]

private theorem load_tags (fails : Nat → Catalogue.Fails) (uuid : Nat → Name) (socks : List (Catalogue.Sock P)) :
    ∀ (db : Catalogue.DB P) (k : Nat), Catalogue.Reached db → ∀ t ∈ Catalogue.tags db,
      t ∈ Catalogue.tags (loadLoop fails uuid db k socks).1 := by
  induction socks with
  | nil => exact fun _ _ _ _ h => h
  | cons x xs ih =>
    intro db k hr t ht
    obtain ⟨new, hn, -⟩ := (Catalogue.C98_tags db hr).2.2.2.2 (fails k) (.addSock x (uuid k))
    have hr1 := reached_add hr (fails k) (.addSock x (uuid k))
    simp only [Catalogue.call] at hn hr1
    have ht1 : t ∈ Catalogue.tags (Catalogue.addSock (fails k) db x (uuid k)).1 := by rw [hn]; simp [ht]
    unfold loadLoop
    split
    · next e => rw [e] at hr1 ht1; exact ih _ _ hr1 t ht1
    · next e => rw [e] at ht1; exact ht1

private theorem the_socks (price : Nat → P) : ∀ x ∈ theSocks price, x.id = [] ∧ Catalogue.Tagged x := by
  intro x hx
  simp only [theSocks, List.mem_cons, List.not_mem_nil, or_false] at hx
  rcases hx with rfl | rfl | rfl | rfl | rfl | rfl | rfl | rfl | rfl | rfl <;>
    refine ⟨rfl, ?_, ?_⟩ <;> simp only [mkSock] <;> decide +kernel

/-- C99: `LoadCatalogue` puts the ten socks in the catalogue, each with everything that was given, and leaves the socks
that were there as they are.  The identifiers that are drawn must be different and not in use. -/
theorem C99_load (price : Nat → P) (db : Catalogue.DB P) (hr : Catalogue.Reached db) (uuid : Nat → Name)
    (hinj : ∀ i j, uuid i = uuid j → i = j) (hf : ∀ i, ∀ r ∈ db.socks, r.id ≠ uuid i) :
    ∃ db', loadCatalogue price (fun _ => Catalogue.noFails) uuid db = (db', .ok) ∧
      (∀ i x, (theSocks price)[i]? = some x → ∃ t, Catalogue.get db' (uuid (1 + i)) = .ok t ∧ Catalogue.Shows x t (uuid (1 + i))) ∧
      (theSocks price).length = 10 ∧
      (∀ id, (∀ i, id ≠ uuid i) → Catalogue.get db' id = Catalogue.get db id) ∧
      ∀ t, t ∈ allTags → t ∈ Catalogue.tags db' := by
  obtain ⟨db1, e1, ht1⟩ := (Catalogue.C98_tags db hr).2.1 allTags
  have ec : Catalogue.call db Catalogue.noFails (.addTags allTags) = db1 := by simp only [Catalogue.call, e1]
  have hr1 : Catalogue.Reached db1 := by rw [← ec]; exact reached_add hr _ _
  have hs1 : db1.socks = db.socks := by
    rw [← ec]
    exact Catalogue.tags_rows _ hr _
  have hk : ∀ id, Catalogue.get db1 id = Catalogue.get db id := by
    intro id
    rw [← ec]
    exact Catalogue.C98_others_kept db hr _ _ id trivial
  obtain ⟨db2, e2, h2, o2⟩ := load_loop uuid hinj (theSocks price) (the_socks price) db1 1 hr1 (by
    intro i _; rw [hs1]; exact hf i)
  refine ⟨db2, ?_, h2, rfl, ?_, ?_⟩
  · unfold loadCatalogue
    simp only [e1, e2]
  · intro id hid
    rw [o2 id (fun i _ => hid _), hk]
  · intro t ht
    have := load_tags (fun _ => Catalogue.noFails) uuid (theSocks price) db1 1 hr1 t ((ht1 t).2 (.inr ht))
    rw [e2] at this
    exact this

/-- C99: calling `LoadCatalogue` again does not leave the catalogue as it is: every sock is then in it twice, under two
identifiers. -/
theorem C99_load_twice_refuted (price : Nat → P) (db : Catalogue.DB P) (hr : Catalogue.Reached db) (uuid uuid' : Nat → Name)
    (hinj : ∀ i j, uuid i = uuid j → i = j) (hinj' : ∀ i j, uuid' i = uuid' j → i = j) (hne : ∀ i j, uuid i ≠ uuid' j)
    (hf : ∀ i, ∀ r ∈ db.socks, r.id ≠ uuid i) (db' : Catalogue.DB P)
    (h1 : loadCatalogue price (fun _ => Catalogue.noFails) uuid db = (db', .ok)) (hr' : Catalogue.Reached db')
    (hf' : ∀ i, ∀ r ∈ db'.socks, r.id ≠ uuid' i) :
    ∃ db'', loadCatalogue price (fun _ => Catalogue.noFails) uuid' db' = (db'', .ok) ∧
      ∀ x ∈ theSocks price, ∃ id id' t t', id ≠ id' ∧ Catalogue.get db'' id = .ok t ∧ Catalogue.Shows x t id ∧
        Catalogue.get db'' id' = .ok t' ∧ Catalogue.Shows x t' id' := by
  obtain ⟨d1, e1, s1, -⟩ := C99_load price db hr uuid hinj hf
  rw [h1] at e1; cases e1
  obtain ⟨d2, e2, s2, -, k2, -⟩ := C99_load price db' hr' uuid' hinj' hf'
  refine ⟨d2, e2, fun x hx => ?_⟩
  obtain ⟨i, hi⟩ := List.mem_iff_getElem?.1 hx
  obtain ⟨t, t1, t2⟩ := s1 i x hi
  obtain ⟨t', t3, t4⟩ := s2 i x hi
  exact ⟨_, _, t, t', hne (1 + i) (1 + i), by rw [k2 _ (fun j => hne _ j)]; exact t1, t2, t3, t4⟩

private theorem load_fails (fails : Nat → Catalogue.Fails) (uuid : Nat → Name) (y : Catalogue.Sock P) (hy : y.id = []) (ys xs : List (Catalogue.Sock P)) :
    ∀ (db db' : Catalogue.DB P) (k : Nat), (∀ j, k ≤ j → j < k + xs.length → fails j = Catalogue.noFails) → fails (k + xs.length) 0 = true →
      loadLoop (fun _ => Catalogue.noFails) uuid db k xs = (db', .ok) → loadLoop fails uuid db k (xs ++ y :: ys) = (db', .error) := by
  induction xs with
  | nil =>
    intro db db' k _ hf h
    simp only [loadLoop, Prod.mk.injEq, and_true] at h
    subst h
    simp only [List.length_nil, Nat.add_zero] at hf
    simp [loadLoop, Catalogue.addSock, hy, Catalogue.insertFrom, hf]
  | cons x xs ih =>
    intro db db' k hw hf h
    rw [List.length_cons] at hw hf
    rw [List.cons_append]
    unfold loadLoop at h ⊢
    rw [hw k (Nat.le_refl _) (by omega)]
    revert h
    cases Catalogue.addSock Catalogue.noFails db x (uuid k) with
    | mk db1 r =>
      cases r with
      | ok i =>
        intro h
        exact ih db1 db' (k + 1) (fun j h1 h2 => hw j (by omega) (by omega)) (by rw [show k + 1 + xs.length = k + (xs.length + 1) by omega]; exact hf) h
      | _ => intro h; simp at h

/-- C99 refuted: if adding one of the socks fails, `LoadCatalogue` returns an error and leaves those before it in the catalogue; trying again
then adds them a second time (`C99_load_twice_refuted`). -/
theorem C99_load_half_refuted (price : Nat → P) (db : Catalogue.DB P) (hr : Catalogue.Reached db) (uuid : Nat → Name)
    (hinj : ∀ i j, uuid i = uuid j → i = j) (hf : ∀ i, ∀ r ∈ db.socks, r.id ≠ uuid i) (n : Nat) (hn : n < 10) (fails : Nat → Catalogue.Fails)
    (hw : ∀ j, j ≤ n → fails j = Catalogue.noFails) (hx : fails (n + 1) 0 = true) :
    ∃ db', loadCatalogue price fails uuid db = (db', .error) ∧
      ∀ i x, i < n → (theSocks price)[i]? = some x → ∃ t, Catalogue.get db' (uuid (1 + i)) = .ok t ∧ Catalogue.Shows x t (uuid (1 + i)) := by
  obtain ⟨db1, e1, -⟩ := (Catalogue.C98_tags db hr).2.1 allTags
  have ec : Catalogue.call db Catalogue.noFails (.addTags allTags) = db1 := by simp only [Catalogue.call, e1]
  have hr1 : Catalogue.Reached db1 := by rw [← ec]; exact reached_add hr _ _
  have hs1 : db1.socks = db.socks := by
    rw [← ec]
    exact Catalogue.tags_rows _ hr _
  have hl : (theSocks price).length = 10 := rfl
  obtain ⟨db2, e2, h2, -⟩ := load_loop uuid hinj ((theSocks price).take n) (fun x hx => the_socks price x (List.mem_of_mem_take hx)) db1 1 hr1 (by
    intro i _; rw [hs1]; exact hf i)
  have hlen : ((theSocks price).take n).length = n := by rw [List.length_take, hl]; omega
  refine ⟨db2, ?_, ?_⟩
  · unfold loadCatalogue
    rw [hw 0 (by omega)]
    simp only [e1]
    have hd : (theSocks price).drop n = (theSocks price)[n]'(by omega) :: (theSocks price).drop (n + 1) := List.drop_eq_getElem_cons (by omega)
    have := load_fails fails uuid ((theSocks price)[n]'(by omega)) (the_socks price _ (List.getElem_mem _)).1 ((theSocks price).drop (n + 1))
      ((theSocks price).take n) db1 db2 1 (fun j _ h => hw j (by omega)) (by rw [hlen, Nat.add_comm]; exact hx) e2
    rw [← hd, List.take_append_drop] at this
    exact this
  · intro i x hi hix
    exact h2 i x (by rw [List.getElem?_take_of_lt hi]; exact hix)

/-- C99: these are the names, prices (in hundredths), stocks and pictures of the socks that `C99_load` finds in the catalogue. -/
theorem C99_load_socks (price : Nat → P) :
    (theSocks price).map (fun s => (String.ofList s.name, s.price, s.quantity, String.ofList s.url1, String.ofList s.url2)) =
      [("Weave special", price 1715, 33, "/catalogue/images/weave1.jpg", "/catalogue/images/weave2.jpg"),
       ("Nerd leg", price 799, 115, "/catalogue/images/bit_of_leg_1.jpeg", "/catalogue/images/bit_of_leg_2.jpeg"),
       ("Crossed", price 1732, 738, "/catalogue/images/cross_1.jpeg", "/catalogue/images/cross_2.jpeg"),
       ("SuperSport XL", price 1500, 820, "/catalogue/images/puma_1.jpeg", "/catalogue/images/puma_2.jpeg"),
       ("Holy", price 9999, 1, "/catalogue/images/holy_1.jpeg", "/catalogue/images/holy_2.jpeg"),
       ("YouTube.sock", price 1099, 801, "/catalogue/images/youtube_1.jpeg", "/catalogue/images/youtube_2.jpeg"),
       ("Figueroa", price 1400, 808, "/catalogue/images/WAT.jpg", "/catalogue/images/WAT2.jpg"),
       ("Classic", price 1200, 127, "/catalogue/images/classic.jpg", "/catalogue/images/classic2.jpg"),
       ("Colourful", price 1800, 438, "/catalogue/images/colourful_socks.jpg", "/catalogue/images/colourful_socks.jpg"),
       ("Cat socks", price 1500, 175, "/catalogue/images/catsocks.jpg", "/catalogue/images/catsocks2.jpg")] := by
  simp only [theSocks, mkSock, List.map_cons, List.map_nil, String.ofList_toList]

end Verif.Frontend
