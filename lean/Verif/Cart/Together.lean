import Verif.Cart.Fail
import Verif.Trains.Concurrent
/-
C140: calls for the carts of different customers at the same time.
-/
set_option linter.unusedSectionVars false
namespace Verif.Cart
open Verif.NoSQL
open Verif.Trains (Prog orErr reading writing works Together)
variable {F P : Type} [Host F] [Single P F]

/-- The customer whose cart a call is about, and that of the session for a merge. -/
def customer : Op P → Name
  | .getCart c => c
  | .deleteCart c => c
  | .mergeCarts c _ => c
  | .getItem c _ => c
  | .addItem c _ => c
  | .removeItem c _ => c
  | .updateItem c _ => c

/-- A method that makes at most one more call, which may write. -/
private def Last (p : Prog (List (Doc F)) (Reply P)) : Prop :=
  (∃ r, p = .ret r) ∨ ∃ (β : Type) (f : List (Doc F) → List (Doc F) × Ret β) (g : Ret β → Prog (List (Doc F)) (Reply P)),
    p = .call f g ∧ ∀ r, ∃ r', g r = .ret r'

private theorem last_write (f : List (Doc F) → List (Doc F) × Ret Unit) (a : Reply P) : Last (writing f a) :=
  .inr ⟨Unit, f, _, rfl, fun r => by cases r <;> exact ⟨_, rfl⟩⟩

/-- Every method but `MergeCarts` reads its customer's cart and then makes at most one call, or makes one call. -/
private theorem shape (n : Nat) (o : Op P) (h : ∀ c t, o ≠ .mergeCarts c t) :
    Last (callP (F := F) n o) ∨
      ∃ k : Cart P → Prog (List (Doc F)) (Reply P), callP n o = reading (getCart · (customer o)) k ∧ ∀ c, Last (k c) := by
  cases o with
  | getCart c => exact .inr ⟨_, rfl, fun _ => .inl ⟨_, rfl⟩⟩
  | deleteCart c => exact .inl (last_write _ _)
  | getItem c i => exact .inr ⟨_, rfl, fun _ => .inl ⟨_, rfl⟩⟩
  | addItem c x => exact .inr ⟨_, rfl, fun _ => last_write _ _⟩
  | mergeCarts c t => exact absurd rfl (h c t)
  | removeItem c i =>
    refine .inr ⟨_, rfl, fun c' => ?_⟩
    rcases removeItem i c'.items with ⟨l, b⟩
    cases b with
    | false => exact .inl ⟨_, rfl⟩
    | true =>
      simp only
      by_cases hl : l.length = 0
      · simp only [if_pos hl]; exact last_write _ _
      · simp only [if_neg hl]; exact last_write _ _
  | updateItem c x =>
    refine .inr ⟨_, rfl, fun c' => ?_⟩
    cases updateIn c' x with
    | none => exact .inl ⟨_, rfl⟩
    | some c'' =>
      simp only
      by_cases hl : c''.items.length = 0
      · simp only [if_pos hl]; exact last_write _ _
      · simp only [if_neg hl]; exact last_write _ _

/-- What a call does and returns depends on its customer's cart only. -/
private theorem only_customer (o : Op P) (h : ∀ c t, o ≠ .mergeCarts c t) (z : Item P) (s s' : Carts P)
    (he : s (customer o) = s' (customer o)) :
    reply z s o = reply z s' o ∧ after s o (customer o) = after s' o (customer o) ∧ ∀ c, c ≠ customer o → after s o c = s c := by
  cases o with
  | mergeCarts c t => exact absurd rfl (h c t)
  | _ => simp only [customer] at he ⊢; simp [reply, after, Carts.put, he] <;> exact fun c h1 h2 => absurd h2 h1

/-- Where a call is: at its start, before its last call, or at its end. -/
private def Stage (s0 s : Carts P) (e : Nat × Op P) (p : Prog (List (Doc F)) (Reply P)) : Prop :=
  (s (customer e.2) = s0 (customer e.2) ∧ (Last p ∨ p = callP e.1 e.2) ∧
    ∀ db s', Shows db s' → s' (customer e.2) = s0 (customer e.2) → p.run works db = called e.1 e.2 db) ∨
  (s (customer e.2) = after s0 e.2 (customer e.2) ∧ p = .ret (ofReply (reply zeroItem s0 e.2)))

private theorem called_shows {db : List (Doc F)} {s0 s : Carts P} (hs : Shows db s) (n : Nat) (o : Op P) (h : ∀ c t, o ≠ .mergeCarts c t)
    (he : s (customer o) = s0 (customer o)) :
    (called n o db).2 = ofReply (reply zeroItem s0 o) ∧ Shows (called n o db).1 (after s o) ∧
      after s o (customer o) = after s0 o (customer o) ∧ ∀ c, c ≠ customer o → after s o c = s c := by
  have hm : MergeOk (Host.decodeRoom (F := F)) s o := by
    cases o with
    | mergeCarts c t => exact absurd rfl (h c t)
    | _ => trivial
  obtain ⟨db', e, k⟩ := call_shows hs n o hm
  obtain ⟨h1, h2, h3⟩ := only_customer o h zeroItem s s0 he
  refine ⟨by simp only [called, e, h1], by simpa only [called, e] using k, h2, h3⟩

/-- A call that is at its last call or has none left. -/
private theorem ended {db : List (Doc F)} {s0 s : Carts P} (hs : Shows db s) {e : Nat × Op P} (hm : ∀ c t, e.2 ≠ .mergeCarts c t)
    (he : s (customer e.2) = s0 (customer e.2)) {r : Ret (Reply P)}
    (hr : (Prog.ret r).run works db = called e.1 e.2 db) : Stage s0 s e (.ret r : Prog (List (Doc F)) (Reply P)) := by
  obtain ⟨h1, h2, h3, -⟩ := called_shows hs e.1 e.2 hm he
  simp only [Prog.run] at hr
  rw [← hr] at h1 h2
  have : getCartItems db (customer e.2) = .items (s (customer e.2)) := get_items hs _
  rw [get_items h2] at this
  injection this with this
  exact .inr ⟨by rw [← this, h3], by rw [← h1]⟩

private theorem step_stage {db : List (Doc F)} {s0 s : Carts P} (hs : Shows db s) {e : Nat × Op P} (hm : ∀ c t, e.2 ≠ .mergeCarts c t)
    {β : Type} {f : List (Doc F) → List (Doc F) × Ret β} {k : Ret β → Prog (List (Doc F)) (Reply P)}
    (h : Stage s0 s e (.call f k)) :
    ∃ s', Shows (f db).1 s' ∧ (∀ c, c ≠ customer e.2 → s' c = s c) ∧ Stage s0 s' e (k (f db).2) := by
  rcases h with ⟨he, hp, hrun⟩ | ⟨_, hp⟩
  · have last : ∀ {β : Type} {f : List (Doc F) → List (Doc F) × Ret β} {k : Ret β → Prog (List (Doc F)) (Reply P)},
        (∀ r, ∃ r', k r = .ret r') → (∀ db s', Shows db s' → s' (customer e.2) = s0 (customer e.2) →
          (Prog.call f k).run works db = called e.1 e.2 db) →
        ∃ s', Shows (f db).1 s' ∧ (∀ c, c ≠ customer e.2 → s' c = s c) ∧ Stage s0 s' e (k (f db).2) := by
      intro β f k hk hrun
      obtain ⟨r', hr'⟩ := hk (f db).2
      obtain ⟨h1, h2, h3, h4⟩ := called_shows hs e.1 e.2 hm he
      have h5 := hrun db s hs he
      simp only [Prog.run, works, hr'] at h5
      rw [← h5] at h1 h2
      exact ⟨_, h2, h4, .inr ⟨h3, by rw [hr', ← h1]⟩⟩
    rcases hp with hp | hp
    · rcases hp with ⟨r, hr⟩ | ⟨β', f', g, hr, hk⟩
      · cases hr
      · cases hr
        exact last hk hrun
    · rcases shape (F := F) e.1 e.2 hm with hl | ⟨kont, hk, hl⟩
      · rw [← hp] at hl
        rcases hl with ⟨r, hr⟩ | ⟨β', f', g, hr, hk⟩
        · cases hr
        · cases hr
          exact last hk hrun
      · rw [hk] at hp
        cases hp
        refine ⟨s, hs, fun _ _ => rfl, ?_⟩
        have hg := shows_get hs (customer e.2)
        simp only [hg, orErr]
        have hrun' : ∀ db s', Shows db s' → s' (customer e.2) = s0 (customer e.2) →
            (kont ⟨customer e.2, s (customer e.2)⟩).run works db = called e.1 e.2 db := by
          intro db s' h1 h2
          have := hrun db s' h1 h2
          rw [← this]
          simp only [Prog.run, works, shows_get h1 (customer e.2), orErr, h2, he]
        rcases hl ⟨customer e.2, s (customer e.2)⟩ with ⟨r, hr⟩ | hl'
        · rw [hr] at hrun' ⊢
          exact ended hs hm he (hrun' db s hs he)
        · exact .inl ⟨he, .inl (.inr hl'), hrun'⟩
  · cases hp

private theorem together_stage (todo : List (Nat × Op P)) (hm : ∀ e ∈ todo, ∀ c t, e.2 ≠ .mergeCarts c t)
    (hd : (todo.map fun e => customer e.2).Nodup) (s0 : Carts P) {db db' : List (Doc F)} {ps qs : List (Prog (List (Doc F)) (Reply P))}
    (h : Together db ps db' qs) {s : Carts P} (hs : Shows db s) (hl : ps.length = todo.length)
    (hst : ∀ (i : Nat) e p, todo[i]? = some e → ps[i]? = some p → Stage s0 s e p)
    (ho : ∀ c, c ∉ todo.map (fun e => customer e.2) → s c = s0 c) :
    ∃ s', Shows db' s' ∧ qs.length = todo.length ∧ (∀ (i : Nat) e p, todo[i]? = some e → qs[i]? = some p → Stage s0 s' e p) ∧
      ∀ c, c ∉ todo.map (fun e => customer e.2) → s' c = s0 c := by
  induction h generalizing s with
  | none db ps => exact ⟨s, hs, hl, hst, ho⟩
  | call a b f k db db' ps' _ ih =>
    have ha : a.length < todo.length := by rw [← hl]; simp
    have hai : todo[a.length]? = some todo[a.length] := List.getElem?_eq_getElem ha
    have hmem : todo[a.length] ∈ todo := List.getElem_mem ha
    obtain ⟨s', k1, k2, k3⟩ := step_stage hs (hm _ hmem) (hst a.length _ (.call f k) hai (by simp))
    refine ih k1 (by simpa using hl) ?_ ?_
    · intro i e p hi hp
      by_cases hia : i = a.length
      · subst hia
        rw [hai] at hi
        cases hi
        simp at hp
        subst hp
        exact k3
      · have hp' : (a ++ .call f k :: b)[i]? = some p := by
          rw [← hp]
          simp only [List.getElem?_append, List.getElem?_cons]
          split
          · rfl
          · rename_i h; rw [if_neg (by omega), if_neg (by omega)]
        have hne : customer e.2 ≠ customer todo[a.length].2 := by
          intro hc
          obtain ⟨hi', rfl⟩ := List.getElem?_eq_some_iff.1 hi
          have := (List.getElem_inj (i := i) (j := a.length) (h₀ := by simpa using hi') (h₁ := by simpa using ha) hd).1 (by simpa using hc)
          exact hia this
        have := hst i e p hi hp'
        unfold Stage at this ⊢
        rw [k2 _ hne]
        exact this
    · intro c hc
      rw [k2 c ?_, ho c hc]
      rintro rfl
      exact hc (List.mem_map.2 ⟨_, hmem, rfl⟩)

/-- C140: calls for the carts of different customers at the same time, of all methods but `MergeCarts`, in any order of their database
calls: when all have returned, each has returned what it returns alone, and each cart is as after its own call alone; the carts of other
customers have not changed.  Missing from the full property: calls for the same customer (`C76_concurrent_refuted`) and merges (`C140_merge_refuted`). -/
theorem C140_carts_partial (db : List (Doc F)) (hr : Reached db P) (todo : List (Nat × Op P))
    (hm : ∀ e ∈ todo, ∀ c t, e.2 ≠ .mergeCarts c t) (hd : (todo.map fun e => customer e.2).Nodup) {db' : List (Doc F)}
    {rs : List (Ret (Reply P))} (h : Together db (todo.map fun e => callP e.1 e.2) db' (rs.map .ret)) :
    ∃ before : Carts P, (∀ c, getCartItems db c = .items (before c)) ∧
      rs = todo.map (fun e => ofReply (reply zeroItem before e.2)) ∧
      (∀ e ∈ todo, getCartItems db' (customer e.2) = .items (after before e.2 (customer e.2))) ∧
      ∀ c, c ∉ todo.map (fun e => customer e.2) → getCartItems db' c = .items (before c) := by
  obtain ⟨s, hs⟩ := reached hr
  obtain ⟨s', k1, k2, k3, k4⟩ := together_stage todo hm hd s h hs (by simp) (by
    intro i e p hi hp
    rw [List.getElem?_map, hi] at hp
    cases hp
    exact .inl ⟨rfl, .inr rfl, fun db _ _ _ => run_works e.1 e.2 db⟩) (fun _ _ => rfl)
  rw [List.length_map] at k2
  -- all have returned
  have fin : ∀ (i : Nat) e r, todo[i]? = some e → rs[i]? = some r →
      s' (customer e.2) = after s e.2 (customer e.2) ∧ r = ofReply (reply zeroItem s e.2) := by
    intro i e r hi hr
    have he : e ∈ todo := List.mem_of_getElem? hi
    rcases k3 i e (.ret r) hi (by simp [hr]) with ⟨h1, -, h3⟩ | ⟨h1, h2⟩
    · rcases ended k1 (hm e he) h1 (h3 db' s' k1 h1) with ⟨-, -, -⟩ | ⟨h4, h5⟩
      · obtain ⟨m1, m2, m3, -⟩ := called_shows k1 e.1 e.2 (hm e he) h1
        have h3 := h3 db' s' k1 h1
        simp only [Prog.run] at h3
        rw [← h3] at m1 m2
        have : getCartItems db' (customer e.2) = .items (s' (customer e.2)) := get_items k1 _
        rw [get_items m2] at this
        injection this with this
        exact ⟨by rw [← this, m3], m1⟩
      · cases h5; exact ⟨h4, rfl⟩
    · cases h2; exact ⟨h1, rfl⟩
  refine ⟨s, fun c => get_items hs c, ?_, ?_, fun c hc => by rw [get_items k1, k4 c hc]⟩
  · refine List.ext_getElem? fun i => ?_
    rw [List.getElem?_map]
    cases hi : todo[i]? with
    | none =>
      have : todo.length ≤ i := List.getElem?_eq_none_iff.1 hi
      simp [List.getElem?_eq_none (show rs.length ≤ i by omega)]
    | some e =>
      have hlt : i < rs.length := by
        obtain ⟨h, -⟩ := List.getElem?_eq_some_iff.1 hi
        omega
      have hr := List.getElem?_eq_getElem hlt
      rw [hr, (fin i e _ hi hr).2]
      rfl
  · intro e he
    obtain ⟨i, hi⟩ := List.getElem?_of_mem he
    have hlt : i < rs.length := by
      obtain ⟨h, -⟩ := List.getElem?_eq_some_iff.1 hi
      omega
    rw [get_items k1, (fin i e _ hi (List.getElem?_eq_getElem hlt)).1]

/-- C140 refuted: an item that is put into a session's cart while that cart is merged into a customer's may be lost: both calls succeed, and
the item is in neither cart.  This happens whenever `AddItem` runs after `MergeCarts` has read the session's cart, and before it deletes it. -/
theorem C140_merge_refuted (db : List (Doc F)) (hr : Reached db P) (n m : Nat) (c t : Name) (hct : c ≠ t)
    (items session : List (Item P)) (h1 : getCartItems db c = .items items) (h2 : getCartItems db t = .items session)
    (hne : session ≠ []) (ho : InOrder (Host.decodeRoom (F := F) items.length) items session) (x : Item P)
    (hx1 : ∀ y ∈ items, y.id ≠ x.id) (hx2 : ∀ y ∈ session, y.id ≠ x.id) :
    ∃ db', ∃ l : List (Item P),
      Together db [callP n (.mergeCarts c t), callP m (.addItem t x)] db' ([.ok .done, .ok (.item x)].map .ret) ∧
      getCartItems (P := P) db' t = .items [] ∧ getCartItems db' c = .items l ∧
      (∀ i, quantity i l = quantity i items + quantity i session) ∧ ∀ y ∈ l, y.id ≠ x.id := by
  obtain ⟨s, hs⟩ := reached hr
  rw [get_items hs] at h1 h2
  cases h1; cases h2
  have hlen : ¬ (s t).length = 0 := fun h => hne (List.eq_nil_of_length_eq_zero h)
  -- the session's cart with the item
  have hnew : inCart x.id (s t) = none := in_cart_none.2 hx2
  have hadd : added x (s t) = s t ++ [x] := by simp only [added, hnew]
  have hin : inCart x.id (added x (s t)) = some x := by rw [hadd, in_cart_append, hnew]; simp [inCart]
  obtain ⟨db1, b1, e1, k1⟩ := shows_upsert hs t (added x (s t)) (added_nodup x _ (hs.nodup t)) m
  -- the customer's cart with the items that were read before
  obtain ⟨db2, b2, e2, k2⟩ := shows_upsert k1 c (merged (s c) (s t)) (merged_nodup _ _ (hs.nodup c) (hs.nodup t)) n
  obtain ⟨db3, e3, g1, g2, g3, g4⟩ := deleteOne_key plain db2 k2.keyed k2.one t
  have k3 := shows_del k2 t g1 g2 g3 g4
  refine ⟨db3, merged (s c) (s t), ?_, by rw [get_items k3]; simp [Carts.put], by rw [get_items k3]; simp [Carts.put, hct],
    merged_quantity _ _ (hs.nodup c), ?_⟩
  · simp only [callP, mergeCartsP, addItemP, reading]
    refine .call [] [_] _ _ _ _ _ ?_
    simp only [shows_get hs t, orErr, List.nil_append]
    refine .call [] [_] _ _ _ _ _ ?_
    simp only [shows_get hs c, orErr, List.nil_append, if_neg hlen]
    refine .call [_] [] _ _ _ _ _ ?_
    simp only [shows_get hs t, orErr, writing, List.cons_append, List.nil_append, add_to ⟨t, s t⟩ x zeroItem (hs.nodup t), hin, Option.getD_some]
    refine .call [_] [] _ _ _ _ _ ?_
    simp only [save, e1, unit, orErr, List.cons_append, List.nil_append]
    refine .call [] [_] _ _ _ _ _ ?_
    simp only [merge_items (hs.nodup c) (hs.nodup t) ho, save, e2, unit, orErr, List.nil_append]
    refine .call [] [_] _ _ _ _ _ ?_
    simp only [e3, orErr, List.nil_append]
    exact .none _ _
  · intro y hy
    simp only [merged, List.mem_append, List.mem_map, List.mem_filter] at hy
    rcases hy with ⟨z, hz, rfl⟩ | ⟨hy, -⟩
    · split
      · exact hx1 z hz
      · exact hx1 z hz
    · exact hx2 y hy

end Verif.Cart
