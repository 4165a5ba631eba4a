import Verif.Cart.Lemmas
/-
C76, C77: the SockShop cart service on the in-memory NoSQL database.
-/
namespace Verif.Cart
open Verif.NoSQL
variable {F P : Type} [Host F] [Single P F]

theorem merge_call {db : List (Doc F)} {s : Carts P} (h : Shows db s) (n : Nat) (c t : Name)
    (ho : InOrder (Host.decodeRoom (F := F) (s c).length) (s c) (s t)) :
    ∃ db', mergeCarts (P := P) db c t n = (db', .done) ∧ Shows db' ((s.put c (merged (s c) (s t))).put t []) := by
  unfold mergeCarts
  rw [shows_get h t, shows_get h c]
  by_cases he : (s t).length = 0
  · simp only [he, if_true]
    refine ⟨db, rfl, ?_⟩
    have e : s t = [] := List.length_eq_zero_iff.1 he
    have e2 : merged (s c) (s t) = s c := by rw [e]; simp [merged, inCart]
    rw [e2, put_same, show ([] : List (Item P)) = s t from e.symm, put_same]
    exact h
  · simp only [he, if_false]
    rw [merge_items (h.nodup c) (h.nodup t) ho]
    obtain ⟨db1, b, e1, h1⟩ := shows_upsert h c (merged (s c) (s t)) (merged_nodup _ _ (h.nodup c) (h.nodup t)) n
    rw [e1]
    obtain ⟨db2, e2, g1, g2, g3, g4⟩ := deleteOne_key plain db1 h1.keyed h1.one t
    refine ⟨db2, ?_, shows_del h1 t g1 g2 g3 g4⟩
    simp only [e2]
    rfl

theorem call_shows {db : List (Doc F)} {s : Carts P} (h : Shows db s) (n : Nat) (o : Op P)
    (hm : MergeOk (Host.decodeRoom (F := F)) s o) :
    ∃ db', call db n o = (db', reply zeroItem s o) ∧ Shows db' (after s o) := by
  cases o with
  | getCart c =>
    refine ⟨db, ?_, h⟩
    simp only [call, reply, getCartItems, shows_get h c]
  | getItem c i =>
    refine ⟨db, ?_, h⟩
    simp only [call, reply, getItem, shows_get h c]
    cases hf : findItem i (s c) with
    | none => simp only [find_none.1 hf]; rfl
    | some k =>
      obtain ⟨x, h1, h2⟩ := find_some hf
      simp only [h1, h2]; rfl
  | deleteCart c => exact shows_delete h c
  | mergeCarts c t => exact merge_call h n c t hm.2
  | addItem c x =>
    simp only [call, reply, after]
    unfold addItem
    rw [shows_get h c]
    simp only [addWrite, add_to ⟨c, s c⟩ x zeroItem (h.nodup c)]
    obtain ⟨db1, b, e1, h1⟩ := shows_upsert h c (added x (s c)) (added_nodup x _ (h.nodup c)) n
    rw [e1]
    exact ⟨db1, rfl, h1⟩
  | removeItem c i =>
    simp only [call, reply, after]
    unfold removeItemCall
    rw [shows_get h c]
    simp only [remove_item]
    cases hi : inCart i (s c) with
    | none =>
      simp only [Option.isSome_none]
      rw [removed_none hi, put_same]
      exact ⟨db, rfl, h⟩
    | some x =>
      simp only [Option.isSome_some]
      by_cases he : (removed i (s c)).length = 0
      · rw [if_pos he, List.length_eq_zero_iff.1 he]
        exact shows_delete h c
      · rw [if_neg he]
        rcases replaceOne_key plain db h.keyed h.one c (encCart ⟨c, removed i (s c)⟩) rfl with
          ⟨g1, g2⟩ | ⟨db1, e1, g1, g2, g3, g4, g5⟩
        · exfalso
          rcases h.cart c with ⟨-, k1⟩ | ⟨d, k1, -⟩
          · rw [k1] at hi; cases hi
          · rw [g1] at k1; cases k1
        · rw [e1]
          refine ⟨db1, rfl, shows_put h c _ g1 g2 _ g3 (Or.inl rfl) g5 ?_⟩
          exact filter_nodup _ (h.nodup c)
  | updateItem c x =>
    simp only [call, reply, after]
    unfold updateItem
    rw [shows_get h c]
    rcases update_in ⟨c, s c⟩ x (h.nodup c) with ⟨e1, e2⟩ | e1
    · simp only [e1]
      simp only at e2
      rw [e2, put_same]
      exact ⟨db, rfl, h⟩
    · simp only [e1]
      by_cases he : (updated x (s c)).length = 0
      · rw [if_pos he, List.length_eq_zero_iff.1 he]
        exact shows_delete h c
      · rw [if_neg he]
        obtain ⟨db1, b, e1, h1⟩ := shows_upsert h c (updated x (s c)) (updated_nodup x _ (h.nodup c)) n
        rw [e1]
        exact ⟨db1, rfl, h1⟩

/-- The carts after a history of calls. -/
def history (s : Carts P) : List (Op P) → Carts P
  | [] => s
  | o :: os => history (after s o) os

private theorem calls_shows (hist : List (Nat × Op P)) {db : List (Doc F)} {s : Carts P} (h : Shows db s)
    (hm : MergesOk (Host.decodeRoom (F := F)) s (hist.map (·.2))) :
    (calls db hist).2 = replies zeroItem s (hist.map (·.2)) ∧ Shows (calls db hist).1 (history s (hist.map (·.2))) := by
  induction hist generalizing db s with
  | nil => exact ⟨rfl, h⟩
  | cons e hist ih =>
    obtain ⟨n, o⟩ := e
    obtain ⟨db1, e1, h1⟩ := call_shows h n o hm.1
    obtain ⟨i1, i2⟩ := ih h1 hm.2
    simp only [calls, e1, List.map_cons, replies, history]
    exact ⟨by rw [i1], i2⟩

/-- C76: whatever calls are made one after the other, every call gets the reply that the documentation promises, and
none fails: items of a customer's cart are those added, in the order they were first added, with the combined
quantities, minus those removed; carts of different customers do not affect each other.  Missing from the full
property: merges of a cart with itself or out of order (`C77_stale_refuted`, `C77_self_refuted`), and concurrent
calls for one customer (`C76_concurrent_refuted`). -/
theorem C76_cart_partial (hist : List (Nat × Op P))
    (hm : MergesOk (Host.decodeRoom (F := F)) Carts.empty (hist.map (·.2))) :
    (calls ([] : List (Doc F)) hist).2 = replies zeroItem Carts.empty (hist.map (·.2)) :=
  (calls_shows hist shows_empty hm).1

/-- C76: in particular any history without merges. -/
theorem C76_cart_without_merges (hist : List (Nat × Op P)) (hm : ∀ e ∈ hist, ∀ c t, e.2 ≠ .mergeCarts c t) :
    (calls ([] : List (Doc F)) hist).2 = replies zeroItem Carts.empty (hist.map (·.2)) := by
  refine C76_cart_partial hist ?_
  generalize (Carts.empty : Carts P) = s
  induction hist generalizing s with
  | nil => trivial
  | cons e hist ih =>
    refine ⟨?_, ih (fun a ha => hm a (by simp [ha])) _⟩
    have := hm e (by simp)
    show MergeOk _ s e.2
    cases h : e.2 with
    | mergeCarts c t => exact absurd h (this c t)
    | _ => exact True.intro

theorem call_any {db : List (Doc F)} {s : Carts P} (h : Shows db s) (n : Nat) (o : Op P) :
    ∃ (db' : List (Doc F)) (s' : Carts P), (call db n o).1 = db' ∧ Shows db' s' ∧ (call db n o).2 ≠ .error ∧ (call db n o).2 ≠ .panic := by
  by_cases hm : MergeOk (Host.decodeRoom (F := F)) s o
  · obtain ⟨db', e, h'⟩ := call_shows h n o hm
    rw [e]
    refine ⟨db', _, rfl, h', ?_⟩
    cases o <;> simp only [reply] <;> first | exact ⟨by simp, by simp⟩ | (split <;> exact ⟨by simp, by simp⟩)
  · cases o with
    | mergeCarts c t =>
      simp only [call]
      unfold mergeCarts
      rw [shows_get h t, shows_get h c]
      by_cases he : (s t).length = 0
      · simp only [he, if_true]
        exact ⟨db, s, rfl, h, by simp, by simp⟩
      · simp only [he, if_false]
        obtain ⟨db1, b, e1, g⟩ := shows_upsert h c (mergeItems F (s c) (s t)) (merge_nodup _ _ (h.nodup c) (h.nodup t)) n
        rw [e1]
        obtain ⟨db2, e2, g1, g2, g3, g4⟩ := deleteOne_key plain db1 g.keyed g.one t
        have g' := shows_del g t g1 g2 g3 g4
        simp only [e2]
        exact ⟨db2, _, rfl, g', by simp [ofRet], by simp [ofRet]⟩
    | _ => exact absurd trivial hm

/-- In any state that shows some carts, every call leads to such a state. -/
theorem call_keeps {db : List (Doc F)} {s : Carts P} (h : Shows db s) (n : Nat) (o : Op P) :
    ∃ s' : Carts P, Shows (call db n o).1 s' := by
  obtain ⟨_, s', rfl, h', _⟩ := call_any h n o
  exact ⟨s', h'⟩

private theorem calls_any (hist : List (Nat × Op P)) {db : List (Doc F)} {s : Carts P} (h : Shows db s) :
    (∃ s' : Carts P, Shows (calls db hist).1 s') ∧ ∀ r ∈ (calls db hist).2, r ≠ .error ∧ r ≠ .panic := by
  induction hist generalizing db s with
  | nil => exact ⟨⟨s, h⟩, by simp [calls]⟩
  | cons e hist ih =>
    obtain ⟨n, o⟩ := e
    obtain ⟨db1, s1, e1, h1, hr⟩ := call_any h n o
    subst e1
    obtain ⟨i1, i2⟩ := ih h1
    simp only [calls]
    refine ⟨i1, ?_⟩
    intro r hr'
    rcases List.mem_cons.1 hr' with rfl | hr'
    · exact hr
    · exact i2 r hr'

/-- C76: in every history, with any merges, no call fails. -/
theorem C76_never_fails (hist : List (Nat × Op P)) :
    ∀ r ∈ (calls ([] : List (Doc F)) hist).2, r ≠ .error ∧ r ≠ .panic :=
  (calls_any hist (shows_empty (P := P))).2

/-- A database that the service can get to by any calls. -/
def Reached (db : List (Doc F)) (P : Type) [Single P F] : Prop :=
  ∃ hist : List (Nat × Op P), (calls [] hist).1 = db

theorem reached {db : List (Doc F)} (h : Reached db P) : ∃ s : Carts P, Shows db s := by
  obtain ⟨hist, rfl⟩ := h
  exact (calls_any hist shows_empty).1

theorem get_items {db : List (Doc F)} {s : Carts P} (h : Shows db s) (c : Name) :
    getCartItems db c = .items (s c) := by
  simp only [getCartItems, shows_get h c]

/-- The quantity of an item in a cart. -/
def quantity (i : Name) (l : List (Item P)) : Int := ((inCart i l).map (·.quantity)).getD 0

private theorem in_cart_unique {i : Name} {l : List (Item P)} {x : Item P} (hn : (l.map (·.id)).Nodup) (hx : x ∈ l)
    (hi : x.id = i) : inCart i l = some x := by
  induction l with
  | nil => simp at hx
  | cons y l ih =>
    rw [List.map_cons, List.nodup_cons] at hn
    unfold inCart
    rw [List.find?_cons]
    by_cases hy : y.id = i
    · simp only [hy, decide_true, Option.some.injEq]
      rcases List.mem_cons.1 hx with h | h
      · exact h.symm
      · exact absurd (List.mem_map.2 ⟨x, h, by rw [hi, hy]⟩) hn.1
    · simp only [hy, decide_false]
      rcases List.mem_cons.1 hx with h | h
      · exact absurd (h ▸ hi) hy
      · exact ih hn.2 h

theorem merged_quantity (customer session : List (Item P)) (h1 : (customer.map (·.id)).Nodup) (i : Name) :
    quantity i (merged customer session) = quantity i customer + quantity i session := by
  rw [merged_eq]
  unfold quantity
  rw [in_cart_append]
  cases hc : inCart i customer with
  | none =>
    have e : inCart i (mix customer session) = none := by
      rw [in_cart_none]
      intro x hx h
      have : i ∈ (mix customer session).map (·.id) := List.mem_map.2 ⟨x, hx, h⟩
      rw [mix_ids] at this
      obtain ⟨y, hy, hyi⟩ := List.mem_map.1 this
      exact in_cart_none.1 hc y hy hyi
    rw [e, Option.none_or]
    have e2 : inCart i (session.filter fun y => (inCart y.id customer).isNone) = inCart i session := by
      unfold inCart
      rw [List.find?_filter]
      congr 1
      funext a
      by_cases ha : a.id = i
      · have h2 : (customer.find? fun x => x.id = i) = none := hc
        simp [h2, ha]
      · simp [ha]
    rw [e2]
    simp
  | some x =>
    obtain ⟨hx, hi⟩ := in_cart_some hc
    have hmem : (match inCart x.id session with
        | some y => (⟨x.id, x.quantity + y.quantity, y.price⟩ : Item P)
        | none => x) ∈ mix customer session := List.mem_map.2 ⟨x, hx, rfl⟩
    have hm := in_cart_unique (i := i) (l := mix customer session) (by rw [mix_ids]; exact h1) hmem (by
      split <;> exact hi)
    rw [hm, hi]
    cases inCart i session with
    | none => simp
    | some y => simp

/-- C77: in any state, a merge of two different carts whose items are in order succeeds, after which the customer
has of every item as many as in both carts together, the session's cart is empty, and all other carts are as
before.  Missing from the full property: the same for all carts (`C77_stale_refuted`). -/
theorem C77_merge_partial (db : List (Doc F)) (hr : Reached db P) (n : Nat) (c t : Name) (hct : c ≠ t)
    (customer session : List (Item P)) (h1 : getCartItems db c = .items customer) (h2 : getCartItems db t = .items session)
    (ho : InOrder (Host.decodeRoom (F := F) customer.length) customer session) :
    ∃ db', ∃ l : List (Item P), mergeCarts (P := P) db c t n = (db', .done) ∧ getCartItems db' c = .items l ∧
      (l.map (·.id)).Nodup ∧
      (∀ i, quantity i l = quantity i customer + quantity i session) ∧
      getCartItems (P := P) db' t = .items [] ∧
      ∀ c', c' ≠ c → c' ≠ t → getCartItems (P := P) db' c' = getCartItems db c' := by
  obtain ⟨s, hs⟩ := reached hr
  rw [get_items hs] at h1 h2
  cases h1; cases h2
  obtain ⟨db', e, h'⟩ := merge_call hs n c t ho
  refine ⟨db', merged (s c) (s t), e, ?_, merged_nodup _ _ (hs.nodup c) (hs.nodup t), merged_quantity _ _ (hs.nodup c), ?_, ?_⟩
  · rw [get_items h']
    simp [Carts.put, hct]
  · rw [get_items h']
    simp [Carts.put]
  · intro c' g1 g2
    rw [get_items h', get_items hs]
    simp [Carts.put, g1, g2]

private theorem find_prefix {i : Name} {l m : List (Item P)} {n : Nat} (hp : l.map (·.id) <+: m.map (·.id))
    (h : findItem i l = some n) : findItem i m = some n := by
  induction l generalizing m n with
  | nil => cases h
  | cons x l ih => cases m with
    | nil => simp at hp
    | cons y m =>
      simp only [List.map_cons, List.cons_prefix_cons] at hp
      simp only [findItem] at h ⊢
      rw [← hp.1]
      by_cases hx : x.id = i
      · simpa [hx] using h
      · simp only [hx, if_false] at h ⊢
        obtain ⟨k, hk, rfl⟩ := Option.map_eq_some_iff.1 h
        rw [ih hp.2 hk]; rfl

private theorem modify_other {i : Name} {l : List (Item P)} {n : Nat} {x : Item P} (h : l[n]? = some x) (hx : x.id ≠ i)
    (f : Item P → Item P) (hf : ∀ x, (f x).id = x.id) : inCart i (l.modify n f) = inCart i l := by
  unfold inCart
  induction l generalizing n with
  | nil => simp at h
  | cons y l ih => cases n with
    | zero =>
      simp only [List.getElem?_cons_zero, Option.some.injEq] at h
      subst h
      simp [hf, hx]
    | succ n =>
      rw [List.getElem?_cons_succ] at h
      rw [List.modify_succ_cons, List.find?_cons, List.find?_cons, ih h]

private theorem stale_keeps (customer : List (Item P)) (hc : (customer.map (·.id)).Nodup) (y : Item P)
    (hy : (inCart y.id customer).isSome) (post : List (Item P)) (pre : List (Item P)) (hne : ∀ z ∈ pre, z.id ≠ y.id)
    (free : Option Nat) (hfree : ∀ k, free = some k → k < (pre.filter (isNew customer)).length)
    (items : List (Item P)) (hp : customer.map (·.id) <+: items.map (·.id)) :
    inCart y.id (mergeLoop (pointers customer) free items (pre ++ y :: post)) = inCart y.id items := by
  have hsome : (inCart y.id items).isSome := by
    obtain ⟨x, hx, hxy⟩ := in_cart_is_some.1 hy
    have : y.id ∈ items.map (·.id) := hp.subset (List.mem_map.2 ⟨x, hx, hxy⟩)
    obtain ⟨z, hz, hzy⟩ := List.mem_map.1 this
    exact in_cart_is_some.2 ⟨z, hz, hzy⟩
  cases free with
  | none =>
    rw [merge_stale, in_cart_append]
    obtain ⟨z, hz⟩ := Option.isSome_iff_exists.1 hsome
    rw [hz]; rfl
  | some k =>
    induction pre generalizing items k with
    | nil => exact absurd (hfree k rfl) (by simp)
    | cons z pre ih =>
      have hz := hne z (by simp)
      rw [List.cons_append]
      unfold mergeLoop
      rw [pointer_lookup customer hc]
      cases hf : findItem z.id customer with
      | none =>
        have hnew := find_none.1 hf
        have e : inCart y.id (items ++ [z]) = inCart y.id items := by
          rw [in_cart_append, show inCart y.id [z] = none by simp [inCart, hz], Option.or_none]
        simp only []
        rw [← e]
        have hp' : customer.map (·.id) <+: (items ++ [z]).map (·.id) := by
          rw [List.map_append]; exact hp.trans (List.prefix_append _ _)
        cases k with
        | zero =>
          show inCart y.id (mergeLoop _ none _ _) = _
          rw [merge_stale, in_cart_append, e]
          obtain ⟨w, hw⟩ := Option.isSome_iff_exists.1 hsome
          rw [hw]; rfl
        | succ k =>
          refine ih (fun w hw => hne w (by simp [hw])) (items ++ [z]) hp' (by rw [e]; exact hsome) k ?_
          intro k' hk'
          cases hk'
          have := hfree _ rfl
          rw [List.filter_cons, if_pos (by simp [isNew, hnew])] at this
          simpa using this
      | some n =>
        obtain ⟨x, hx1, hx⟩ := find_some (find_prefix hp hf)
        simp only [Option.isSome_some, if_true]
        have hxz := (in_cart_some hx).2
        have e : inCart y.id (items.modify n fun x => { x with quantity := x.quantity + z.quantity, price := z.price }) =
            inCart y.id items := modify_other hx1 (by rw [hxz]; exact hz) _ (fun _ => rfl)
        rw [← e]
        refine ih (fun w hw => hne w (by simp [hw])) _ (by
          rw [modify_ids _ n (fun x => { x with quantity := x.quantity + z.quantity, price := z.price }) (fun _ => rfl)]
          exact hp)
          (by rw [e]; exact hsome) k ?_
        intro k' hk'
        cases hk'
        have := hfree _ rfl
        rw [List.filter_cons, if_neg (by
          obtain ⟨w, -, hw⟩ := find_some hf
          simp [isNew, hw])] at this
        exact this

/-- C77 refuted: merging loses items.  If in the session's cart an item that the customer also has comes after more
items that the customer does not have than the customer's items have room for (which, after decoding, is none), then
the merge succeeds, the session's cart is deleted, and the customer still has only as many of that item as before. -/
theorem C77_stale_refuted (db : List (Doc F)) (hr : Reached db P) (n : Nat) (c t : Name) (hct : c ≠ t)
    (customer pre post : List (Item P)) (y : Item P) (h1 : getCartItems db c = .items customer)
    (h2 : getCartItems db t = .items (pre ++ y :: post)) (hy : (inCart y.id customer).isSome)
    (hroom : Host.decodeRoom (F := F) customer.length < (pre.filter fun z => (inCart z.id customer).isNone).length) :
    ∃ db', ∃ l : List (Item P), mergeCarts (P := P) db c t n = (db', .done) ∧ getCartItems db' c = .items l ∧
      quantity y.id l = quantity y.id customer ∧ getCartItems (P := P) db' t = .items [] := by
  obtain ⟨s, hs⟩ := reached hr
  rw [get_items hs] at h1 h2
  simp only [Reply.items.injEq] at h1 h2
  subst h1
  have hnt := hs.nodup t
  have hyn : ∀ z ∈ pre, z.id ≠ y.id := by
    intro z hz
    rw [h2, List.map_append, List.nodup_append] at hnt
    exact hnt.2.2 z.id (List.mem_map.2 ⟨z, hz, rfl⟩) y.id (by simp)
  have key : inCart y.id (mergeItems F (s c) (s t)) = inCart y.id (s c) := by
    unfold mergeItems
    rw [h2]
    refine stale_keeps (s c) (hs.nodup c) y hy post pre hyn _ ?_ (s c) (List.prefix_refl _)
    intro k hk
    cases hk
    exact hroom
  unfold mergeCarts
  rw [shows_get hs t, shows_get hs c]
  have he : ¬ (s t).length = 0 := by rw [h2]; simp
  simp only [he, if_false]
  have hnd : ((mergeItems F (s c) (s t)).map (·.id)).Nodup := merge_nodup _ _ (hs.nodup c) (hs.nodup t)
  obtain ⟨db1, b, e1, g⟩ := shows_upsert hs c (mergeItems F (s c) (s t)) hnd n
  rw [e1]
  obtain ⟨db2, e2, g1, g2, g3, g4⟩ := deleteOne_key plain db1 g.keyed g.one t
  have g' := shows_del g t g1 g2 g3 g4
  refine ⟨db2, mergeItems F (s c) (s t), ?_, ?_, ?_, ?_⟩
  · simp only [e2]; rfl
  · rw [get_items g']; simp [Carts.put, hct]
  · unfold quantity; rw [key]
  · rw [get_items g']; simp [Carts.put]

/-- Any merge leaves the other carts alone. -/
theorem merge_any {db : List (Doc F)} {s : Carts P} (h : Shows db s) (n : Nat) (c t : Name) :
    ∃ db', ∃ l : List (Item P), mergeCarts (P := P) db c t n = (db', .done) ∧ Shows db' ((s.put c l).put t []) := by
  unfold mergeCarts
  rw [shows_get h t, shows_get h c]
  by_cases he : (s t).length = 0
  · simp only [he, if_true]
    refine ⟨db, s c, rfl, ?_⟩
    rw [put_same, show ([] : List (Item P)) = s t from (List.length_eq_zero_iff.1 he).symm, put_same]
    exact h
  · simp only [he, if_false]
    obtain ⟨db1, b, e1, g⟩ := shows_upsert h c (mergeItems F (s c) (s t)) (merge_nodup _ _ (h.nodup c) (h.nodup t)) n
    rw [e1]
    obtain ⟨db2, e2, g1, g2, g3, g4⟩ := deleteOne_key plain db1 g.keyed g.one t
    exact ⟨db2, _, by simp only [e2]; rfl, shows_del g t g1 g2 g3 g4⟩

theorem merge_self {db : List (Doc F)} {s : Carts P} (hs : Shows db s) (n : Nat) (c : Name) :
    ∃ db', mergeCarts (P := P) db c c n = (db', .done) ∧ Shows db' (s.put c []) := by
  obtain ⟨db', l, e, h⟩ := merge_any hs n c c
  refine ⟨db', e, ?_⟩
  have e : (s.put c l).put c [] = s.put c [] := by
    funext c'
    simp only [Carts.put]
    split <;> rfl
  rw [← e]
  exact h

/-- C77 refuted: merging a cart with itself deletes it, whatever items it has.  This happens when a logged-in user, whose
session identifier is the user identifier, logs in again (frontend.go lines 228-241). -/
theorem C77_self_refuted (db : List (Doc F)) (hr : Reached db P) (n : Nat) (c : Name) (items : List (Item P))
    (_ : getCartItems db c = .items items) :
    ∃ db', mergeCarts (P := P) db c c n = (db', .done) ∧ getCartItems (P := P) db' c = .items [] := by
  obtain ⟨s, hs⟩ := reached hr
  obtain ⟨db', e, h'⟩ := merge_self hs n c
  exact ⟨db', e, by rw [get_items h']; simp [Carts.put]⟩

/-! ### Concurrent calls -/

/-- The calls, not yet started. -/
def starting (todo : List (Name × Item P × Nat)) : List (Thread P) := todo.map fun e => ⟨e.1, e.2.1, e.2.2, .start⟩

private def Stage (s0 s : Carts P) (e : Name × Item P × Nat) (t : Thread P) : Prop :=
  t.customer = e.1 ∧ t.item = e.2.1 ∧
  match t.phase with
  | .start => s e.1 = s0 e.1
  | .read c => c = ⟨e.1, s0 e.1⟩ ∧ s e.1 = s0 e.1
  | .done r => s e.1 = added e.2.1 (s0 e.1) ∧ r = .item ((inCart e.2.1.id (added e.2.1 (s0 e.1))).getD zeroItem)

private theorem stage_other {s0 s : Carts P} {e : Name × Item P × Nat} {t : Thread P} (h : Stage s0 s e t) (c : Name)
    (l : List (Item P)) (hc : e.1 ≠ c) : Stage s0 (s.put c l) e t := by
  have hs : (s.put c l) e.1 = s e.1 := by simp [Carts.put, hc]
  obtain ⟨h1, h2, h3⟩ := h
  refine ⟨h1, h2, ?_⟩
  rw [hs]
  exact h3

private theorem interleave_inv (todo : List (Name × Item P × Nat)) (hd : (todo.map (·.1)).Nodup) (s0 : Carts P)
    (sched : List Nat) (db : List (Doc F)) (s : Carts P) (ts : List (Thread P)) (h : Shows db s)
    (hl : ts.length = todo.length) (hs : ∀ (i : Nat) e t, todo[i]? = some e → ts[i]? = some t → Stage s0 s e t)
    (hrest : ∀ c, c ∉ todo.map (·.1) → s c = s0 c) :
    ∃ s', Shows (interleave db ts sched).1 s' ∧ (interleave db ts sched).2.length = todo.length ∧
      (∀ (i : Nat) e t, todo[i]? = some e → (interleave db ts sched).2[i]? = some t → Stage s0 s' e t) ∧
      ∀ c, c ∉ todo.map (·.1) → s' c = s0 c := by
  induction sched generalizing db s ts with
  | nil => exact ⟨s, h, hl, hs, hrest⟩
  | cons i sched ih =>
    cases ht : ts[i]? with
    | none => simp only [interleave, ht]; exact ih db s ts h hl hs hrest
    | some t =>
      have hi : i < ts.length := (List.getElem?_eq_some_iff.1 ht).1
      obtain ⟨e, he⟩ : ∃ e, todo[i]? = some e := ⟨todo[i]'(by omega), List.getElem?_eq_getElem (by omega)⟩
      have hst := hs i e t he ht
      simp only [interleave, ht]
      have keep : ∀ (t' : Thread P) (s' : Carts P), Stage s0 s' e t' →
          (∀ (j : Nat) e' u, j ≠ i → todo[j]? = some e' → ts[j]? = some u → Stage s0 s' e' u) →
          ∀ (j : Nat) e' u, todo[j]? = some e' → (ts.set i t')[j]? = some u → Stage s0 s' e' u := by
        intro t' s' h1 h2 j e' u hj hu
        by_cases hij : j = i
        · subst hij
          rw [List.getElem?_set_self hi] at hu
          cases hu
          rw [he] at hj
          cases hj
          exact h1
        · rw [List.getElem?_set_ne (fun e => hij e.symm)] at hu
          exact h2 j e' u hij hj hu
      obtain ⟨p1, p2, p3⟩ := hst
      cases hph : t.phase with
      | start =>
        rw [hph] at p3
        simp only [threadStep, hph, p1, shows_get h e.1]
        refine ih db s _ h (by simp [hl]) (keep _ s ⟨rfl, p2, ?_⟩ (fun j e' u _ hj hu => hs j e' u hj hu)) hrest
        exact ⟨by rw [p3], p3⟩
      | read c =>
        rw [hph] at p3
        obtain ⟨q1, q2⟩ := p3
        subst q1
        have hnd : ((s0 e.1).map (·.id)).Nodup := by rw [← q2]; exact h.nodup e.1
        obtain ⟨db1, b, e1, h1⟩ := shows_upsert h e.1 (added e.2.1 (s0 e.1)) (added_nodup _ _ hnd) t.newId
        simp only [threadStep, hph, p1, p2, addWrite, add_to ⟨e.1, s0 e.1⟩ e.2.1 zeroItem hnd, e1]
        refine ih db1 _ _ h1 (by simp [hl]) (keep _ _ ⟨rfl, rfl, ?_⟩ ?_) ?_
        · exact ⟨by simp [Carts.put], rfl⟩
        · intro j e' u hij hj hu
          refine stage_other (hs j e' u hj hu) _ _ ?_
          intro hee
          have hjl := (List.getElem?_eq_some_iff.1 hj).1
          have hil := (List.getElem?_eq_some_iff.1 he).1
          refine hij ((List.getElem_inj (h₀ := by simpa using hjl) (h₁ := by simpa using hil) hd).1 ?_)
          rw [List.getElem_map, List.getElem_map, (List.getElem?_eq_some_iff.1 hj).2, (List.getElem?_eq_some_iff.1 he).2]
          exact hee
        · intro c hc
          have : c ≠ e.1 := fun hce => hc (hce ▸ List.mem_map.2 ⟨e, List.mem_of_getElem? he, rfl⟩)
          simp only [Carts.put, this, if_false]
          exact hrest c hc
      | done r =>
        have hst : threadStep db t = (db, t) := by simp only [threadStep, hph]
        rw [hst]
        refine ih db s _ h (by simp [hl]) (keep _ s ⟨p1, p2, p3⟩ (fun j e' u _ hj hu => hs j e' u hj hu)) hrest

/-- C76: concurrent calls of `AddItem` for different customers, in any interleaving of their database operations:
each call that has finished has returned the item with its combined quantity, the cart of its customer has it, and
the carts of customers for whom no call has finished are as before.  Missing: calls for the same customer
(`C76_concurrent_refuted`). -/
theorem C76_concurrent_partial (db : List (Doc F)) (hr : Reached db P) (todo : List (Name × Item P × Nat))
    (hd : (todo.map (·.1)).Nodup) (sched : List Nat) :
    ∃ before : Carts P, (∀ c, getCartItems db c = .items (before c)) ∧
      (∀ (i : Nat) (e : Name × Item P × Nat) (t : Thread P), todo[i]? = some e →
        (interleave db (starting todo) sched).2[i]? = some t →
        (∀ r, t.phase = .done r →
          getCartItems (interleave db (starting todo) sched).1 e.1 = .items (added e.2.1 (before e.1)) ∧
          ∃ x, inCart e.2.1.id (added e.2.1 (before e.1)) = some x ∧ r = .item x) ∧
        ((∀ r, t.phase ≠ .done r) →
          getCartItems (interleave db (starting todo) sched).1 e.1 = .items (before e.1))) ∧
      ∀ c, c ∉ todo.map (·.1) → getCartItems (interleave db (starting todo) sched).1 c = .items (before c) := by
  obtain ⟨s, hs⟩ := reached hr
  obtain ⟨s', h1, h2, h3, h4⟩ := interleave_inv todo hd s sched db s (starting todo) hs (by simp [starting])
    (by
      intro i e t he ht
      unfold starting at ht
      rw [List.getElem?_map, he] at ht
      cases ht
      exact ⟨rfl, rfl, rfl⟩) (fun _ _ => rfl)
  refine ⟨s, get_items hs, ?_, ?_⟩
  · intro i e t he ht
    obtain ⟨p1, p2, p3⟩ := h3 i e t he ht
    constructor
    · intro r hr
      rw [hr] at p3
      rw [get_items h1, p3.1]
      refine ⟨rfl, ?_⟩
      have : (inCart e.2.1.id (added e.2.1 (s e.1))).isSome := by
        rw [in_cart_is_some]
        unfold added
        cases hi : inCart e.2.1.id (s e.1) with
        | none => exact ⟨e.2.1, by simp, rfl⟩
        | some x =>
          obtain ⟨q1, q2⟩ := in_cart_some hi
          refine ⟨{ x with quantity := x.quantity + e.2.1.quantity }, List.mem_map.2 ⟨x, q1, by simp [q2]⟩, q2⟩
      obtain ⟨x, hx⟩ := Option.isSome_iff_exists.1 this
      exact ⟨x, hx, by rw [p3.2, hx]; rfl⟩
    · intro hnd
      rw [get_items h1]
      cases hph : t.phase with
      | start => rw [hph] at p3; rw [p3]
      | read c => rw [hph] at p3; rw [p3.2]
      | done r => exact absurd hph (hnd r)
  · intro c hc
    rw [get_items h1, h4 c hc]

/-- C76 refuted: of two concurrent calls of `AddItem` for one customer one may be lost although both succeed: for
any items with different identifiers, if both read the cart before either writes it, the cart afterwards has only
the item of the one that wrote last. -/
theorem C76_concurrent_refuted (c : Name) (x y : Item P) (n m : Nat) (hxy : x.id ≠ y.id) :
    ∃ db : List (Doc F), ∃ ts, interleave ([] : List (Doc F)) (starting [(c, x, n), (c, y, m)]) [0, 1, 0, 1] = (db, ts) ∧
      ts.map (·.phase) = [.done (.item x), .done (.item y)] ∧ getItem (P := P) db c x.id = .item zeroItem ∧
      getCartItems db c = .items [y] := by
  have h0 : Shows ([] : List (Doc F)) (Carts.empty : Carts P) := shows_empty
  obtain ⟨db1, b1, e1, h1⟩ := shows_upsert h0 c [x] (by simp) n
  obtain ⟨db2, b2, e2, h2⟩ := shows_upsert h1 c [y] (by simp) m
  have a1 : ∀ z : Item P, addTo ⟨c, (Carts.empty : Carts P) c⟩ z = (⟨c, [z]⟩, z) := fun z => rfl
  refine ⟨db2, [⟨c, x, n, .done (.item x)⟩, ⟨c, y, m, .done (.item y)⟩], ?_, rfl, ?_, ?_⟩
  · simp only [interleave, starting, List.map_cons, List.map_nil, List.getElem?_cons_zero, threadStep, shows_get h0 c,
      List.set_cons_zero, List.getElem?_cons_succ, List.set_cons_succ, addWrite, a1, e1, e2, ofOutcome]
  · simp only [getItem, shows_get h2 c]
    simp [Carts.put, findItem, Ne.symm hxy]
  · rw [get_items h2]; simp [Carts.put]

end Verif.Cart
