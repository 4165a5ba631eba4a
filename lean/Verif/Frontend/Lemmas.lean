/-
Lemmas about the SockShop's front end.
-/
import Verif.Frontend.Spec
import Verif.Orders.Props
import Verif.Catalogue.Props
namespace Verif.Frontend
open Verif.NoSQL
variable {F P : Type} [Host F] [Cart.Single P F] [Users.Lib] [Orders.Arith P] [Catalogue.Sql P]

omit [Users.Lib] [Orders.Arith P] [Catalogue.Sql P] in
theorem cart_fst (fail : Bool) (s : Shop F P) (n : Nat) (o : Cart.Op P) :
    (cartCall fail s n o).1 =
      if fail then s else { s with world := { s.world with carts := (Cart.call s.world.carts n o).1 } } := by
  unfold cartCall
  cases fail with
  | true => rfl
  | false =>
    simp only [Bool.false_eq_true, if_false]
    split <;> (rename_i e; rw [e])

omit [Host F] [Cart.Single P F] [Orders.Arith P] [Catalogue.Sql P] in
theorem user_fst (fail : Bool) (s : Shop F P) (o : Users.Op) :
    (userCall fail s o).1 =
      if fail then s else { s with world := { s.world with users := (Users.call s.world.users o).1 } } := by
  unfold userCall
  cases fail with
  | true => rfl
  | false =>
    simp only [Bool.false_eq_true, if_false]
    split <;> (rename_i e; rw [e])

/-- Both halves of the shop are reachable. -/
def Good (s : Shop F P) : Prop := Orders.Reached s.world ∧ Catalogue.Reached s.catalogue

omit [Catalogue.Sql P] in
theorem good_cart {s : Shop F P} (h : Good s) (fail : Bool) (n : Nat) (o : Cart.Op P) : Good (cartCall fail s n o).1 := by
  rw [cart_fst]
  cases fail with
  | true => exact h
  | false => exact ⟨Orders.reached_call h.1 (.cart n o), h.2⟩

omit [Catalogue.Sql P] in
theorem good_user {s : Shop F P} (h : Good s) (fail : Bool) (o : Users.Op) : Good (userCall fail s o).1 := by
  rw [user_fst]
  cases fail with
  | true => exact h
  | false => exact ⟨Orders.reached_call h.1 (.user o), h.2⟩

theorem good_call {s : Shop F P} (h : Good s) (fails : Fails) (o : Op P) : Good (call s fails o) := by
  cases o with
  | addItem c i u n =>
    simp only [call, addItem]
    split
    · exact h
    · split
      · exact h
      · exact h
      · exact good_cart h _ _ _
  | removeItem c i =>
    simp only [call, removeItem]
    split
    · exact h
    · exact good_cart h _ _ _
  | deleteCart c =>
    simp only [call, deleteCart]
    split
    · exact h
    · exact good_cart h _ _ _
  | login c u p n =>
    simp only [call, login]
    split
    · exact h
    · split
      · split
        · exact good_cart h _ _ _
        · exact h
      · exact h
      · exact h
  | newOrder l q flt u d => exact ⟨Orders.reached_call h.1 (.order l q flt u d), h.2⟩
  | postAddress u a => exact good_user h _ _
  | postCard u a => exact good_user h _ _
  | register c p pw salt n =>
    have g := good_user h (fails 0) (.register p pw salt)
    simp only [call, register]
    split
    · next e => rw [e] at g; exact g
    · next e =>
      rw [e] at g
      split
      · exact good_cart g _ _ _
      · exact g
  | updateItem c i q n =>
    simp only [call, updateItem]
    split
    · exact h
    · split
      · exact h
      · exact h
      · exact good_cart h _ _ _
  | behind o => exact ⟨Orders.reached_call h.1 o, h.2⟩
  | catalogue f o =>
    refine ⟨h.1, ?_⟩
    obtain ⟨hist, e⟩ := h.2
    refine ⟨hist ++ [(f, o)], ?_⟩
    unfold Catalogue.calls at e ⊢
    rw [List.foldl_append, e]
    rfl

theorem reached_good {s : Shop F P} (h : Reached s) : Good s := by
  obtain ⟨hist, rfl⟩ := h
  have : ∀ s0 : Shop F P, Good s0 → Good (calls s0 hist) := by
    induction hist with
    | nil => exact fun _ h => h
    | cons x xs ih => exact fun s0 h => ih _ (good_call h x.1 x.2)
  exact this _ ⟨⟨[], rfl⟩, ⟨[], rfl⟩⟩

theorem reached_step {s : Shop F P} (h : Reached s) (fails : Fails) (o : Op P) : Reached (call s fails o) := by
  obtain ⟨hist, rfl⟩ := h
  exact ⟨hist ++ [(fails, o)], by unfold calls; rw [List.foldl_append]; rfl⟩

omit [Users.Lib] [Orders.Arith P] [Catalogue.Sql P] in
theorem get_cart {s : Shop F P} {cs : Cart.Carts P} (h : Cart.Shows s.world.carts cs) (c : Name) :
    getCart noFails s c = some (if c = [] then [] else cs c) := by
  unfold getCart
  by_cases hc : c = []
  · rw [if_pos hc, if_pos hc]
  · rw [if_neg hc, if_neg hc, if_neg (by simp [noFails]), Cart.get_items h]

omit [Users.Lib] [Orders.Arith P] [Catalogue.Sql P] in
/-- A call of the cart service that does not fail. -/
theorem cart_ok {s : Shop F P} {cs : Cart.Carts P} (h : Cart.Shows s.world.carts cs) (n : Nat) (o : Cart.Op P)
    (hm : Cart.MergeOk (Host.decodeRoom (F := F)) cs o) :
    ∃ carts, cartCall false s n o = ({ s with world := { s.world with carts } }, .ok) ∧ Cart.Shows carts (Cart.after cs o) := by
  obtain ⟨db', e, h'⟩ := Cart.call_shows h n o hm
  refine ⟨db', ?_, h'⟩
  unfold cartCall
  simp only [Bool.false_eq_true, if_false, e]
  cases o <;> rfl

omit [Users.Lib] [Orders.Arith P] [Catalogue.Sql P] in
/-- A call of the cart service that does not end well has no effect. -/
theorem cart_fails {s : Shop F P} {cs : Cart.Carts P} (h : Cart.Shows s.world.carts cs) (fail : Bool) (n : Nat) (o : Cart.Op P)
    (hr : (cartCall fail s n o).2 ≠ .ok) : (cartCall fail s n o) = (s, .error) := by
  cases fail with
  | true => rfl
  | false =>
    obtain ⟨db', s', -, -, h1, h2⟩ := Cart.call_any h n o
    exfalso
    apply hr
    unfold cartCall
    simp only [Bool.false_eq_true, if_false]

/-! ### What is wanted -/

theorem mem_once {i : Name} {l : List Name} : i ∈ once l ↔ i ∈ l := by
  induction l with
  | nil => simp [once]
  | cons x l ih =>
    simp only [once, List.mem_cons, List.mem_filter, ih, decide_eq_true_eq, ne_eq]
    constructor
    · rintro (h | ⟨h, -⟩)
      · exact .inl h
      · exact .inr h
    · rintro (h | h)
      · exact .inl h
      · by_cases e : i = x
        · exact .inl e
        · exact .inr ⟨h, e⟩

theorem once_nodup (l : List Name) : (once l).Nodup := by
  induction l with
  | nil => simp [once]
  | cons x l ih =>
    rw [once, List.nodup_cons]
    exact ⟨by simp, List.Pairwise.filter _ ih⟩

theorem once_snoc (l : List Name) (i : Name) : once (l ++ [i]) = if i ∈ l then once l else once l ++ [i] := by
  induction l with
  | nil => simp [once]
  | cons x l ih =>
    simp only [List.cons_append, once, ih]
    by_cases hl : i ∈ l
    · simp [hl]
    · by_cases hx : i = x
      · subst hx; simp [hl, List.filter_append]
      · simp [hl, hx, List.filter_append]

theorem wanted_ids (price : Name → P) (l : List Name) : (wanted price l).map (·.id) = once l := by
  unfold wanted
  rw [List.map_map]
  conv => rhs; rw [← List.map_id (once l)]
  rfl

theorem in_wanted (price : Name → P) (l : List Name) (i : Name) :
    Cart.inCart i (wanted price l) = if i ∈ l then some ⟨i, l.count i, price i⟩ else none := by
  unfold wanted Cart.inCart
  rw [List.find?_map]
  have : ∀ m : List Name, m.find? ((fun x : Cart.Item P => decide (x.id = i)) ∘ fun i => ⟨i, l.count i, price i⟩) =
      if i ∈ m then some i else none := by
    intro m
    induction m with
    | nil => simp
    | cons x m ih =>
      rw [List.find?_cons, ih]
      by_cases hx : x = i
      · subst hx; simp
      · have : ¬ i = x := fun e => hx e.symm
        simp [hx, this]
  rw [this]
  by_cases h : i ∈ l
  · simp [h, mem_once]
  · simp [h, mem_once]

theorem added_wanted (price : Name → P) (l : List Name) (i : Name) :
    Cart.added ⟨i, 1, price i⟩ (wanted price l) = wanted price (l ++ [i]) := by
  unfold Cart.added
  simp only [in_wanted]
  by_cases h : i ∈ l
  · simp only [h, if_true]
    unfold wanted Cart.change
    rw [once_snoc, if_pos h, List.map_map]
    refine List.map_congr_left fun j hj => ?_
    simp only [Function.comp, List.count_append]
    by_cases hj : j = i
    · subst hj; simp
    · have : ¬ i = j := fun e => hj e.symm
      simp [hj, this]
  · simp only [h, if_false]
    unfold wanted
    rw [once_snoc, if_neg h, List.map_append]
    congr 1
    · refine List.map_congr_left fun j hj => ?_
      have : j ≠ i := fun e => h (mem_once.1 (e ▸ hj))
      have : ¬ i = j := fun e => this e.symm
      simp [List.count_append, this]
    · simp [List.count_eq_zero.2 h]

/-- A merge into an empty cart. -/
theorem merged_empty (session : List (Cart.Item P)) : Cart.merged [] session = session := by
  simp [Cart.merged, Cart.inCart]

theorem in_order_empty (room : Nat) (session : List (Cart.Item P)) : Cart.InOrder room [] session := by
  intro pre y post _ h
  simp [Cart.inCart] at h

end Verif.Frontend
