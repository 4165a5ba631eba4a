import Verif.Cart.Spec
import Verif.NoSQL.Keyed
/-
Lemmas for C76 and C77.
-/
namespace Verif.Cart
open Verif.NoSQL
variable {F P : Type} [Host F] [Single P F]

theorem plain : Plain kId' := ⟨by decide, by decide, by decide⟩
theorem not_id : kId' ≠ kId := by decide

/-! ### Encoding -/

theorem dec_int (n : Int) : decInt (F := F) (some (encInt n)) = some n := by
  unfold encInt; split <;> rfl

theorem dec_item (x : Item P) : decItem (encItem x) = some x := by
  have h1 : field kId' [(kId', .str x.id), (kQuantity, encInt x.quantity), (kPrice, .float (Single.toDouble x.price))]
      = some (.str x.id) := rfl
  have h2 : field kQuantity [(kId', .str x.id), (kQuantity, encInt x.quantity), (kPrice, .float (Single.toDouble x.price))]
      = some (encInt x.quantity) := rfl
  have h3 : field kPrice [(kId', .str x.id), (kQuantity, encInt x.quantity), (kPrice, .float (Single.toDouble x.price))]
      = some (.float (Single.toDouble x.price)) := rfl
  unfold encItem decItem
  simp only [h1, h2, h3, dec_int, decStr, decFloat, Single.exact]

theorem dec_list (l : List (Item P)) : decList (l.map encItem) = some l := by
  induction l with
  | nil => rfl
  | cons x l ih => simp only [List.map_cons, decList, dec_item, ih]

/-- The document of a cart, with or without an identifier of the database. -/
def Stored (c : Cart P) (d : Doc F) : Prop := d = encCart c ∨ ∃ n, d = (kId, .oid n) :: encCart c

theorem stored_key {c : Cart P} {d : Doc F} (h : Stored c d) : field kId' d = some (.str c.id) := by
  rcases h with rfl | ⟨n, rfl⟩ <;> rfl

theorem dec_cart {c : Cart P} {d : Doc F} (h : Stored c d) (id : Name) : decCart id d = some c := by
  have h1 := stored_key h
  have h2 : field kItems d = some (.arr (c.items.map encItem) []) := by
    rcases h with rfl | ⟨n, rfl⟩ <;> rfl
  unfold decCart
  rw [h1, h2]
  simp only [decStr, decItems, dec_list]

theorem enc_no_id (c : Cart P) : kId ∉ (encCart c : Doc F).map (·.1) := by
  show kId ∉ [kId', kItems]
  decide

/-! ### The database shows the carts -/

/-- The database contains these carts. -/
structure Shows (db : List (Doc F)) (s : Carts P) : Prop where
  keyed : Keyed kId' db
  one : OnePerKey kId' db
  cart : ∀ c, (get kId' db c = none ∧ s c = []) ∨ ∃ d, get kId' db c = some d ∧ Stored ⟨c, s c⟩ d
  nodup : ∀ c, ((s c).map (·.id)).Nodup

theorem shows_empty : Shows ([] : List (Doc F)) (Carts.empty : Carts P) :=
  ⟨by intro d hd; simp at hd, List.Pairwise.nil, fun c => Or.inl ⟨rfl, rfl⟩, fun c => List.nodup_nil⟩

theorem shows_get {db : List (Doc F)} {s : Carts P} (h : Shows db s) (c : Name) : getCart db c = .ok ⟨c, s c⟩ := by
  have := findOne_key plain db c
  unfold getCart
  rw [this]
  rcases h.cart c with ⟨h1, h2⟩ | ⟨d, h1, h2⟩
  · rw [h1, h2]
  · rw [h1]
    simp only [dec_cart h2]

theorem shows_put {db db' : List (Doc F)} {s : Carts P} (h : Shows db s) (c : Name) (l : List (Item P))
    (h1 : Keyed kId' db') (h2 : OnePerKey kId' db') (d : Doc F) (h3 : get kId' db' c = some d) (h4 : Stored ⟨c, l⟩ d)
    (h5 : ∀ c', c' ≠ c → get kId' db' c' = get kId' db c') (hn : (l.map (·.id)).Nodup) :
    Shows db' (s.put c l) := by
  refine ⟨h1, h2, ?_, ?_⟩
  · intro c'
    by_cases hc : c' = c
    · subst hc
      right
      refine ⟨d, h3, ?_⟩
      simp only [Carts.put, if_true]
      exact h4
    · rw [h5 c' hc]
      simp only [Carts.put, hc, if_false]
      exact h.cart c'
  · intro c'
    by_cases hc : c' = c
    · simp only [Carts.put, hc, if_true]; exact hn
    · simp only [Carts.put, hc, if_false]; exact h.nodup c'

theorem shows_del {db db' : List (Doc F)} {s : Carts P} (h : Shows db s) (c : Name)
    (h1 : Keyed kId' db') (h2 : OnePerKey kId' db') (h3 : get kId' db' c = none)
    (h5 : ∀ c', c' ≠ c → get kId' db' c' = get kId' db c') :
    Shows db' (s.put c []) := by
  refine ⟨h1, h2, ?_, ?_⟩
  · intro c'
    by_cases hc : c' = c
    · subst hc
      exact Or.inl ⟨h3, by simp [Carts.put]⟩
    · rw [h5 c' hc]
      simp only [Carts.put, hc, if_false]
      exact h.cart c'
  · intro c'
    by_cases hc : c' = c
    · simp [Carts.put, hc]
    · simp only [Carts.put, hc, if_false]; exact h.nodup c'

theorem shows_upsert {db : List (Doc F)} {s : Carts P} (h : Shows db s) (c : Name) (l : List (Item P))
    (hn : (l.map (·.id)).Nodup) (newId : Nat) :
    ∃ db' b, upsert db [(kId', .str c)] (.obj (some (encCart ⟨c, l⟩))) newId = (db', b, .ok) ∧ Shows db' (s.put c l) := by
  obtain ⟨db', b, d', e, h1, h2, h3, h4, h5⟩ := upsert_key plain not_id db h.keyed h.one c (encCart ⟨c, l⟩) rfl
    (enc_no_id _) newId
  refine ⟨db', b, e, shows_put h c l h1 h2 d' h4 ?_ h5 hn⟩
  rcases h3 with rfl | rfl
  · exact Or.inl rfl
  · exact Or.inr ⟨_, rfl⟩

theorem shows_delete {db : List (Doc F)} {s : Carts P} (h : Shows db s) (c : Name) :
    ∃ db', deleteCart (P := P) db c = (db', .done) ∧ Shows db' (s.put c []) := by
  obtain ⟨db', e, h1, h2, h3, h4⟩ := deleteMany_key plain db h.keyed h.one c
  refine ⟨db', ?_, shows_del h c h1 h2 h3 h4⟩
  unfold deleteCart
  rw [e]
  rfl

/-! ### Lists of items -/

theorem put_same (s : Carts P) (c : Name) : s.put c (s c) = s := by
  funext c'
  unfold Carts.put
  split
  · rename_i h; rw [h]
  · rfl

theorem change_ids (i : Name) (f : Item P → Item P) (hf : ∀ x, x.id = i → (f x).id = x.id) (l : List (Item P)) :
    (change i f l).map (·.id) = l.map (·.id) := by
  unfold change
  rw [List.map_map]
  refine List.map_congr_left ?_
  intro x _
  simp only [Function.comp]
  split
  · rename_i h; exact hf x h
  · rfl

theorem change_none (i : Name) (f : Item P → Item P) (l : List (Item P)) (h : ∀ x ∈ l, x.id ≠ i) : change i f l = l := by
  unfold change
  conv => rhs; rw [← List.map_id l]
  refine List.map_congr_left ?_
  intro x hx
  rw [if_neg (h x hx)]; rfl

theorem in_cart_none {i : Name} {l : List (Item P)} : inCart i l = none ↔ ∀ x ∈ l, x.id ≠ i := by
  unfold inCart
  rw [List.find?_eq_none]
  simp

theorem in_cart_some {i : Name} {l : List (Item P)} {x : Item P} (h : inCart i l = some x) : x ∈ l ∧ x.id = i := by
  unfold inCart at h
  exact ⟨List.mem_of_find?_eq_some h, by simpa using List.find?_some h⟩

theorem in_cart_is_some {i : Name} {l : List (Item P)} : (inCart i l).isSome ↔ ∃ x ∈ l, x.id = i := by
  constructor
  · intro h
    obtain ⟨x, hx⟩ := Option.isSome_iff_exists.1 h
    obtain ⟨h1, h2⟩ := in_cart_some hx
    exact ⟨x, h1, h2⟩
  · rintro ⟨x, h1, h2⟩
    cases h : inCart i l with
    | some y => rfl
    | none => exact absurd h2 (in_cart_none.1 h x h1)

theorem find_none {i : Name} {l : List (Item P)} : findItem i l = none ↔ inCart i l = none := by
  induction l with
  | nil => simp [findItem, inCart]
  | cons x l ih =>
    unfold findItem inCart
    by_cases hx : x.id = i
    · simp [hx]
    · simp only [hx, if_false, Option.map_eq_none_iff, List.find?_cons, decide_false]
      exact ih

theorem find_some {i : Name} {l : List (Item P)} {n : Nat} (h : findItem i l = some n) :
    ∃ x, l[n]? = some x ∧ inCart i l = some x := by
  induction l generalizing n with
  | nil => cases h
  | cons x l ih =>
    unfold findItem at h
    by_cases hx : x.id = i
    · rw [if_pos hx] at h
      cases h
      exact ⟨x, rfl, by simp [inCart, hx]⟩
    · rw [if_neg hx] at h
      obtain ⟨m, hm, rfl⟩ := Option.map_eq_some_iff.1 h
      obtain ⟨y, h1, h2⟩ := ih hm
      refine ⟨y, by simpa using h1, ?_⟩
      unfold inCart at *
      simp only [List.find?_cons, hx, decide_false]
      exact h2

theorem find_modify {i : Name} {l : List (Item P)} {n : Nat} (h : findItem i l = some n) (hn : (l.map (·.id)).Nodup)
    (f : Item P → Item P) : l.modify n f = change i f l := by
  induction l generalizing n with
  | nil => cases h
  | cons x l ih =>
    rw [List.map_cons, List.nodup_cons] at hn
    unfold findItem at h
    by_cases hx : x.id = i
    · rw [if_pos hx] at h
      cases h
      rw [List.modify_zero_cons]
      have : change i f l = l := change_none i f l (by
        intro y hy e
        exact hn.1 (List.mem_map.2 ⟨y, hy, by rw [e, hx]⟩))
      unfold change at *
      rw [List.map_cons, if_pos hx, this]
    · rw [if_neg hx] at h
      obtain ⟨m, hm, rfl⟩ := Option.map_eq_some_iff.1 h
      rw [List.modify_succ_cons, ih hm hn.2]
      unfold change
      rw [List.map_cons, if_neg hx]

theorem set_modify {l : List (Item P)} {n : Nat} {x : Item P} (h : l[n]? = some x) (f : Item P → Item P) :
    l.set n (f x) = l.modify n f := by
  induction l generalizing n with
  | nil => simp at h
  | cons y l ih => cases n with
    | zero =>
      simp only [List.getElem?_cons_zero, Option.some.injEq] at h
      rw [h]; rfl
    | succ n =>
      rw [List.getElem?_cons_succ] at h
      rw [List.set_cons_succ, List.modify_succ_cons, ih h]

theorem in_cart_change {i : Name} {l : List (Item P)} {x : Item P} (h : inCart i l = some x) (f : Item P → Item P)
    (hf : ∀ x, x.id = i → (f x).id = i) : inCart i (change i f l) = some (f x) := by
  induction l with
  | nil => cases h
  | cons y l ih =>
    unfold inCart change at *
    by_cases hy : y.id = i
    · simp only [List.find?_cons, hy, decide_true, Option.some.injEq] at h
      subst h
      simp [hy, hf]
    · simp only [List.find?_cons, hy, decide_false] at h
      simp only [List.map_cons, hy, if_false, List.find?_cons, decide_false]
      exact ih h

theorem in_cart_append (i : Name) (l m : List (Item P)) : inCart i (l ++ m) = (inCart i l).or (inCart i m) := by
  unfold inCart; rw [List.find?_append]

theorem add_to (c : Cart P) (item none' : Item P) (hn : (c.items.map (·.id)).Nodup) :
    addTo c item = (⟨c.id, added item c.items⟩, (inCart item.id (added item c.items)).getD none') := by
  unfold addTo added
  cases hf : findItem item.id c.items with
  | none =>
    have h := find_none.1 hf
    have e : inCart item.id [item] = some item := by simp [inCart]
    simp only [h]
    rw [in_cart_append, h, e]
    rfl
  | some n =>
    obtain ⟨x, h1, h2⟩ := find_some hf
    simp only [h1, h2]
    rw [set_modify h1 (fun y => { y with quantity := y.quantity + item.quantity }), find_modify hf hn,
      in_cart_change h2 (fun y => { y with quantity := y.quantity + item.quantity }) (fun _ h => h)]
    rfl

theorem nodup_append_new {l : List (Item P)} {x : Item P} (hn : (l.map (·.id)).Nodup) (h : inCart x.id l = none) :
    ((l ++ [x]).map (·.id)).Nodup := by
  rw [List.map_append, List.nodup_append]
  refine ⟨hn, by simp, ?_⟩
  intro a ha b hb
  obtain ⟨y, hy, rfl⟩ := List.mem_map.1 ha
  simp only [List.map_cons, List.map_nil, List.mem_singleton] at hb
  rw [hb]
  exact in_cart_none.1 h y hy

theorem added_nodup (x : Item P) (l : List (Item P)) (hn : (l.map (·.id)).Nodup) : ((added x l).map (·.id)).Nodup := by
  unfold added
  cases h : inCart x.id l with
  | none => exact nodup_append_new hn h
  | some y =>
    show ((change x.id (fun y => { y with quantity := y.quantity + x.quantity }) l).map (·.id)).Nodup
    rw [change_ids x.id (fun y => { y with quantity := y.quantity + x.quantity }) (fun _ _ => rfl)]; exact hn

theorem filter_nodup {l : List (Item P)} (p : Item P → Bool) (hn : (l.map (·.id)).Nodup) :
    ((l.filter p).map (·.id)).Nodup := hn.sublist (List.Sublist.map _ List.filter_sublist)

theorem remove_loop (i : Name) (kept l : List (Item P)) (b : Bool) :
    removeLoop i kept b l = (kept ++ removed i l, b || (inCart i l).isSome) := by
  induction l generalizing kept b with
  | nil => simp [removeLoop, removed, inCart]
  | cons x l ih =>
    unfold removeLoop
    by_cases hx : x.id = i
    · rw [if_pos hx, ih]
      simp [removed, inCart, hx]
    · rw [if_neg hx, ih]
      simp [removed, inCart, hx]

theorem remove_item (i : Name) (l : List (Item P)) : removeItem i l = (removed i l, (inCart i l).isSome) := by
  unfold removeItem
  rw [remove_loop]
  simp

theorem removed_change (i : Name) (f : Item P → Item P) (hf : ∀ x, x.id = i → (f x).id = i) (l : List (Item P)) :
    removed i (change i f l) = removed i l := by
  induction l with
  | nil => rfl
  | cons x l ih =>
    unfold removed change at *
    by_cases hx : x.id = i
    · simp only [List.map_cons, hx, if_true, List.filter_cons, hf x hx, ne_eq, not_true, decide_false,
        Bool.false_eq_true, if_false]
      exact ih
    · simp only [List.map_cons, hx, if_false, List.filter_cons, ne_eq, not_false_eq_true, decide_true, if_true]
      rw [ih]

theorem removed_none {i : Name} {l : List (Item P)} (h : inCart i l = none) : removed i l = l := by
  unfold removed
  rw [List.filter_eq_self]
  intro x hx
  simpa using in_cart_none.1 h x hx

theorem update_in (c : Cart P) (item : Item P) (hn : (c.items.map (·.id)).Nodup) :
    (updateIn c item = none ∧ updated item c.items = c.items) ∨
    updateIn c item = some ⟨c.id, updated item c.items⟩ := by
  unfold updateIn updated
  cases hf : findItem item.id c.items with
  | none =>
    have h := find_none.1 hf
    by_cases hq : item.quantity ≤ 0
    · left
      simp [hq, removed_none h]
    · right
      simp [hq, h]
  | some n =>
    obtain ⟨x, h1, h2⟩ := find_some hf
    right
    have e : change item.id (fun y => { y with quantity := item.quantity, price := item.price }) c.items =
        change item.id (fun _ => item) c.items := by
      unfold change
      refine List.map_congr_left ?_
      intro y _
      by_cases hy : y.id = item.id
      · simp only [hy, if_true]
      · simp only [hy, if_false]
    simp only [find_modify hf hn, e]
    by_cases hq : item.quantity ≤ 0
    · simp only [hq, if_true, remove_item]
      rw [removed_change _ _ (fun _ _ => rfl)]
    · simp only [hq, if_false, h2]

theorem updated_nodup (x : Item P) (l : List (Item P)) (hn : (l.map (·.id)).Nodup) : ((updated x l).map (·.id)).Nodup := by
  unfold updated
  split
  · exact filter_nodup _ hn
  · cases h : inCart x.id l with
    | none => exact nodup_append_new hn h
    | some y =>
      show ((change x.id (fun _ => x) l).map (·.id)).Nodup
      rw [change_ids _ _ (fun y h => h.symm)]; exact hn

/-! ### Merging -/

theorem lookup_reverse {α β : Type} [BEq α] [LawfulBEq α] (k : α) (l : List (α × β)) (h : (l.map (·.1)).Nodup) :
    l.reverse.lookup k = l.lookup k := by
  induction l with
  | nil => rfl
  | cons a l ih =>
    rw [List.map_cons, List.nodup_cons] at h
    rw [List.reverse_cons, List.lookup_append, ih h.2]
    obtain ⟨a, b⟩ := a
    by_cases hk : k = a
    · subst hk
      have hn : l.lookup k = none := by
        rw [List.lookup_eq_none_iff]
        intro p hp
        rw [bne_iff_ne]
        intro e
        exact h.1 (List.mem_map.2 ⟨p, hp, e.symm⟩)
      rw [hn]
      simp
    · simp [List.lookup_cons, beq_eq_false_iff_ne.2 hk]

theorem lookup_zip (i : Name) (l : List (Item P)) (n : Nat) :
    ((l.zipIdx n).map fun e => (e.1.id, e.2)).lookup i = (findItem i l).map (· + n) := by
  induction l generalizing n with
  | nil => rfl
  | cons x l ih =>
    simp only [List.zipIdx_cons, List.map_cons, List.lookup_cons]
    unfold findItem
    by_cases hx : x.id = i
    · simp [hx]
    · have : (i == x.id) = false := beq_eq_false_iff_ne.2 (fun e => hx e.symm)
      simp only [this, hx, if_false, ih, Option.map_map]
      congr 1
      funext m
      simp only [Function.comp]
      omega

theorem zip_keys (l : List (Item P)) (n : Nat) :
    (((l.zipIdx n).map fun e => (e.1.id, e.2)).map (·.1)) = l.map (·.id) := by
  induction l generalizing n with
  | nil => rfl
  | cons x l ih => simp [List.zipIdx_cons, ih]

theorem pointer_lookup (l : List (Item P)) (hn : (l.map (·.id)).Nodup) (i : Name) :
    (pointers l).lookup i = findItem i l := by
  unfold pointers
  rw [lookup_reverse i _ (by rw [zip_keys]; exact hn), lookup_zip]
  simp

theorem find_append {i : Name} {l m : List (Item P)} {n : Nat} (h : findItem i l = some n) :
    findItem i (l ++ m) = some n := by
  induction l generalizing n with
  | nil => cases h
  | cons x l ih =>
    simp only [findItem, List.cons_append] at h ⊢
    by_cases hx : x.id = i
    · simpa [hx] using h
    · simp only [hx, if_false] at h ⊢
      obtain ⟨k, hk, rfl⟩ := Option.map_eq_some_iff.1 h
      rw [ih hk]; rfl

/-- The items of the customer after merging with some items of the session. -/
def mix (customer session : List (Item P)) : List (Item P) := customer.map fun x => match inCart x.id session with
  | some y => ⟨x.id, x.quantity + y.quantity, y.price⟩
  | none => x

theorem merged_eq (customer session : List (Item P)) :
    merged customer session = mix customer session ++ session.filter fun y => (inCart y.id customer).isNone := rfl

theorem mix_ids (customer session : List (Item P)) : (mix customer session).map (·.id) = customer.map (·.id) := by
  unfold mix
  rw [List.map_map]
  refine List.map_congr_left ?_
  intro x _
  simp only [Function.comp]
  split <;> rfl

theorem merged_nodup (customer session : List (Item P)) (h1 : (customer.map (·.id)).Nodup)
    (h2 : (session.map (·.id)).Nodup) : ((merged customer session).map (·.id)).Nodup := by
  rw [merged_eq, List.map_append, List.nodup_append, mix_ids]
  refine ⟨h1, filter_nodup _ h2, ?_⟩
  intro a ha b hb e
  obtain ⟨x, hx, rfl⟩ := List.mem_map.1 ha
  obtain ⟨y, hy, rfl⟩ := List.mem_map.1 hb
  have := (List.mem_filter.1 hy).2
  rw [Option.isNone_iff_eq_none, in_cart_none] at this
  exact this x hx e

theorem find_ids {i : Name} {l m : List (Item P)} (h : l.map (·.id) = m.map (·.id)) : findItem i l = findItem i m := by
  induction l generalizing m with
  | nil => cases m with
    | nil => rfl
    | cons => simp at h
  | cons x l ih => cases m with
    | nil => simp at h
    | cons y m =>
      simp only [List.map_cons, List.cons.injEq] at h
      unfold findItem
      rw [h.1, ih h.2]

theorem mix_snoc_new (customer done : List (Item P)) (y : Item P) (h : inCart y.id customer = none) :
    mix customer (done ++ [y]) = mix customer done := by
  unfold mix
  refine List.map_congr_left ?_
  intro x hx
  rw [in_cart_append]
  have : inCart x.id [y] = none := by
    rw [in_cart_none]
    intro z hz
    rw [List.mem_singleton.1 hz]
    exact fun e => in_cart_none.1 h x hx e.symm
  rw [this, Option.or_none]

theorem mix_snoc_old (customer done : List (Item P)) (y : Item P) (h : inCart y.id done = none) :
    mix customer (done ++ [y]) =
      change y.id (fun x => { x with quantity := x.quantity + y.quantity, price := y.price }) (mix customer done) := by
  unfold mix change
  rw [List.map_map]
  refine List.map_congr_left ?_
  intro x hx
  rw [in_cart_append]
  simp only [Function.comp]
  by_cases hxy : x.id = y.id
  · rw [hxy, h]
    simp [inCart, hxy]
  · have : inCart x.id [y] = none := by
      rw [in_cart_none]
      intro z hz
      rw [List.mem_singleton.1 hz]
      exact fun e => hxy e.symm
    rw [this, Option.or_none]
    cases inCart x.id done with
    | none => simp [hxy]
    | some z => simp [hxy]

/-- What is left of the room after so many new items. -/
def left (room n : Nat) : Option Nat := if n ≤ room then some (room - n) else none

theorem left_succ (room n : Nat) : fewer (left room n) = left room (n + 1) := by
  unfold left fewer
  by_cases h : n ≤ room
  · rw [if_pos h]
    cases hr : room - n with
    | zero => rw [if_neg (by omega)]
    | succ r =>
      rw [if_pos (by omega)]
      show some r = _
      congr 1
      omega
  · rw [if_neg h, if_neg (by omega)]

def isNew (customer : List (Item P)) (y : Item P) : Bool := (inCart y.id customer).isNone

/-- The loop, as long as no pointer is stale. -/
theorem merge_loop (customer : List (Item P)) (hc : (customer.map (·.id)).Nodup) (room : Nat) (ys done : List (Item P))
    (hn : ((done ++ ys).map (·.id)).Nodup)
    (ho : ∀ pre y post, ys = pre ++ y :: post → (inCart y.id customer).isSome →
      ((done ++ pre).filter (isNew customer)).length ≤ room) :
    mergeLoop (pointers customer) (left room (done.filter (isNew customer)).length) (merged customer done) ys =
      merged customer (done ++ ys) := by
  induction ys generalizing done with
  | nil => simp [mergeLoop]
  | cons y ys ih =>
    have e : done ++ y :: ys = (done ++ [y]) ++ ys := by simp
    have hd : inCart y.id done = none := by
      rw [in_cart_none]
      intro x hx h
      rw [List.map_append, List.nodup_append] at hn
      exact hn.2.2 x.id (List.mem_map.2 ⟨x, hx, rfl⟩) y.id (by simp) h
    have hd2 : ((done ++ [y]).map (·.id)).Nodup := by
      rw [e, List.map_append] at hn
      exact (List.nodup_append.1 hn).1
    have ih := ih (done ++ [y]) (by rw [← e]; exact hn) (by
      intro pre z post hz hs
      have := ho (y :: pre) z post (by rw [hz]; rfl) hs
      simpa using this)
    unfold mergeLoop
    rw [pointer_lookup customer hc]
    cases hf : findItem y.id customer with
    | none =>
      have hnew := find_none.1 hf
      simp only []
      have hm : merged customer done ++ [y] = merged customer (done ++ [y]) := by
        rw [merged_eq, merged_eq, mix_snoc_new customer done y hnew, List.filter_append, List.append_assoc]
        congr 2
        simp [hnew]
      rw [left_succ, hm, e]
      have hl : ((done ++ [y]).filter (isNew customer)).length = (done.filter (isNew customer)).length + 1 := by
        rw [List.filter_append]
        simp [isNew, hnew]
      rw [hl] at ih
      exact ih
    | some n =>
      obtain ⟨x, -, hx⟩ := find_some hf
      have hs : (inCart y.id customer).isSome := by rw [hx]; rfl
      have hle := ho [] y ys rfl hs
      rw [List.append_nil] at hle
      have hl : (left room (done.filter (isNew customer)).length).isSome = true := by
        unfold left; rw [if_pos hle]; rfl
      simp only [hl, if_true]
      have hfm : findItem y.id (merged customer done) = some n := by
        rw [merged_eq]
        refine find_append ?_
        rw [find_ids (mix_ids customer done), hf]
      have hdn : (done.map (·.id)).Nodup := by
        rw [List.map_append] at hd2
        exact (List.nodup_append.1 hd2).1
      rw [find_modify hfm (merged_nodup _ _ hc hdn)]
      have hm : change y.id (fun x => { x with quantity := x.quantity + y.quantity, price := y.price })
          (merged customer done) = merged customer (done ++ [y]) := by
        rw [merged_eq, merged_eq, mix_snoc_old customer done y hd, List.filter_append]
        unfold change
        rw [List.map_append]
        congr 1
        have h1 : ([y].filter fun y => (inCart y.id customer).isNone) = [] := by simp [hx]
        rw [h1, List.append_nil]
        refine change_none _ _ _ ?_
        intro z hz h
        have := (List.mem_filter.1 hz).2
        rw [h, hx] at this
        cases this
      rw [hm, e]
      have hl : ((done ++ [y]).filter (isNew customer)).length = (done.filter (isNew customer)).length := by
        rw [List.filter_append]
        simp [isNew, hx]
      rw [hl] at ih
      exact ih

theorem merge_items {customer session : List (Item P)} (hc : (customer.map (·.id)).Nodup)
    (hs : (session.map (·.id)).Nodup) (ho : InOrder (Host.decodeRoom (F := F) customer.length) customer session) :
    mergeItems F customer session = merged customer session := by
  have h := merge_loop customer hc (Host.decodeRoom (F := F) customer.length) session [] (by simpa using hs)
    (by intro pre y post h1 h2; rw [List.nil_append]; exact ho pre y post h1 h2)
  have e : merged customer [] = customer := by simp [merged, inCart]
  rw [e] at h
  simpa [left, mergeItems] using h

/-- Writes after the items have moved are lost. -/
theorem merge_stale (ptrs : List (Name × Nat)) (items ys : List (Item P)) :
    mergeLoop ptrs none items ys = items ++ ys.filter fun y => (ptrs.lookup y.id).isNone := by
  induction ys generalizing items with
  | nil => simp [mergeLoop]
  | cons y ys ih =>
    unfold mergeLoop
    cases h : ptrs.lookup y.id with
    | none =>
      simp only [fewer, ih, List.filter_cons, h]
      simp
    | some n =>
      simp only [Option.isSome_none, Bool.false_eq_true, if_false, ih, List.filter_cons, h]
      simp

theorem modify_ids (l : List (Item P)) (n : Nat) (f : Item P → Item P) (hf : ∀ x, (f x).id = x.id) :
    (l.modify n f).map (·.id) = l.map (·.id) := by
  induction l generalizing n with
  | nil => cases n <;> rfl
  | cons x l ih => cases n with
    | zero => simp [hf]
    | succ n => simp [ih]

theorem merge_ids (ptrs : List (Name × Nat)) (free : Option Nat) (items ys : List (Item P)) :
    (mergeLoop ptrs free items ys).map (·.id) =
      items.map (·.id) ++ (ys.filter fun y => (ptrs.lookup y.id).isNone).map (·.id) := by
  induction ys generalizing free items with
  | nil => simp [mergeLoop]
  | cons y ys ih =>
    unfold mergeLoop
    cases h : ptrs.lookup y.id with
    | none => simp only [ih, List.filter_cons, h]; simp
    | some n =>
      simp only [ih, List.filter_cons, h]
      congr 1
      split
      · exact modify_ids _ _ (fun x => { x with quantity := x.quantity + y.quantity, price := y.price }) (fun _ => rfl)
      · rfl

theorem merge_nodup (customer session : List (Item P)) (h1 : (customer.map (·.id)).Nodup)
    (h2 : (session.map (·.id)).Nodup) : ((mergeItems F customer session).map (·.id)).Nodup := by
  have h := merged_nodup customer session h1 h2
  unfold mergeItems
  rw [merge_ids]
  rw [merged_eq, List.map_append, mix_ids] at h
  have e : (session.filter fun y => ((pointers customer).lookup y.id).isNone) =
      session.filter fun y => (inCart y.id customer).isNone := by
    refine List.filter_congr ?_
    intro y _
    rw [pointer_lookup customer h1, Bool.eq_iff_iff, Option.isNone_iff_eq_none, Option.isNone_iff_eq_none, find_none]
  rw [e]
  exact h

end Verif.Cart
