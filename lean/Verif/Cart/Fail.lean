import Verif.Cart.Props
import Verif.Trains.FailProps
/-
C139: the carts of SockShop when calls of the database fail.  The calls of the database and their replies are those of
`Trains/Programs.lean`.
-/
set_option linter.unusedSectionVars false
namespace Verif.Cart
open Verif.NoSQL
open Verif.Trains (Prog orErr reading writing Faithful Careful works)
variable {F P : Type} [Host F] [Single P F]

/-! ### The methods, call by call -/

/-- What a method returns. -/
def ofReply : Reply P → Ret (Reply P)
  | .error => .error
  | .panic => .panic
  | r => .ok r

/-- A call that reports an error only. -/
def unit {β : Type} : List (Doc F) × β × Outcome → List (Doc F) × Ret Unit
  | (db, _, .ok) => (db, .ok ())
  | (db, _, .error) => (db, .error)
  | (db, _, .panic) => (db, .panic)

/-- `s.db.Upsert(ctx, bson.D{{"id", customerID}}, cart)` -/
def save (customerID : Name) (c : Cart P) (newId : Nat) (db : List (Doc F)) : List (Doc F) × Ret Unit :=
  unit (upsert db [(kId', .str customerID)] (.obj (some (encCart c))) newId)

/-- `AddItem` (lines 68-83). -/
def addItemP (customerID : Name) (item : Item P) (newId : Nat) : Prog (List (Doc F)) (Reply P) :=
  reading (getCart · customerID) fun c => writing (save customerID (addTo c item).1 newId) (.item (addTo c item).2)

/-- `DeleteCart` (lines 86-88). -/
def deleteCartP (customerID : Name) : Prog (List (Doc F)) (Reply P) := writing (deleteMany · [(kId', .str customerID)]) .done

/-- `GetCart` (lines 91-97). -/
def getCartP (customerID : Name) : Prog (List (Doc F)) (Reply P) :=
  reading (getCart · customerID) fun (c : Cart P) => .ret (.ok (.items c.items))

/-- `GetItem` (lines 100-108). -/
def getItemP (customerID itemID : Name) : Prog (List (Doc F)) (Reply P) :=
  reading (getCart · customerID) fun (c : Cart P) => .ret (match findItem itemID c.items with
    | some i => match c.items[i]? with
      | some x => .ok (.item x)
      | none => .panic
    | none => .ok (.item zeroItem))

/-- `MergeCarts` (lines 111-150). -/
def mergeCartsP (customerID sessionID : Name) (newId : Nat) : Prog (List (Doc F)) (Reply P) :=
  reading (getCart · sessionID) fun (sessionCart : Cart P) => reading (getCart · customerID) fun (customerCart : Cart P) =>
    if sessionCart.items.length = 0 then .ret (.ok .done)
    else .call (save customerID { customerCart with items := mergeItems F customerCart.items sessionCart.items } newId)
      (orErr fun () => writing (deleteOne · [(kId', .str sessionID)]) .done)

/-- `RemoveItem` (lines 153-169). -/
def removeItemP (customerID itemID : Name) : Prog (List (Doc F)) (Reply P) :=
  reading (getCart · customerID) fun (c : Cart P) => match removeItem itemID c.items with
    | (_, false) => .ret (.ok .done)
    | (items, true) =>
      if items.length = 0 then deleteCartP customerID
      else writing (fun db => unit (replaceOne db [(kId', .str customerID)] (.obj (some (encCart { c with items := items }))))) .done

/-- `UpdateItem` (lines 172-200). -/
def updateItemP (customerID : Name) (item : Item P) (newId : Nat) : Prog (List (Doc F)) (Reply P) :=
  reading (getCart · customerID) fun (c : Cart P) => match updateIn c item with
    | none => .ret (.ok .done)
    | some c => if c.items.length = 0 then deleteCartP customerID else writing (save customerID c newId) .done

/-- One call. -/
def callP (newId : Nat) : Op P → Prog (List (Doc F)) (Reply P)
  | .getCart c => getCartP c
  | .deleteCart c => deleteCartP c
  | .mergeCarts c s => mergeCartsP c s newId
  | .getItem c i => getItemP c i
  | .addItem c x => addItemP c x newId
  | .removeItem c i => removeItemP c i
  | .updateItem c x => updateItemP c x newId

/-! ### When everything works -/

/-- The call of `Cart/Model.lean`, with its reply as a result. -/
def called (newId : Nat) (o : Op P) (db : List (Doc F)) : List (Doc F) × Ret (Reply P) :=
  ((call db newId o).1, ofReply (call db newId o).2)

private theorem run_write (f : List (Doc F) → List (Doc F) × Ret Unit) (a : Reply P) (s : List (Doc F)) :
    (writing f a).run works s = ((f s).1, match (f s).2 with
      | .ok () => .ok a
      | .error => .error
      | .panic => .panic) := by
  simp only [writing, Prog.run]
  generalize f s = r
  obtain ⟨d, r⟩ := r
  cases r <;> rfl

private theorem run_delete (c : Name) (s : List (Doc F)) :
    (deleteCartP (P := P) c).run works s = ((deleteCart (P := P) s c).1, ofReply (deleteCart (P := P) s c).2) := by
  rw [deleteCartP, run_write, deleteCart]
  generalize deleteMany s [(kId', .str c)] = r
  obtain ⟨d, r⟩ := r
  cases r <;> rfl

private theorem run_save {β : Type} {a : Reply P} (ha : ofReply a = .ok a) (u : List (Doc F) × β × Outcome) (f : List (Doc F) → List (Doc F) × Ret Unit)
    (s : List (Doc F)) (hf : f s = unit u) : (writing f a).run works s = (u.1, ofReply (ofOutcome a u.2.2)) := by
  rw [run_write, hf]
  obtain ⟨d, n, o⟩ := u
  cases o with
  | ok => simp only [unit, ofOutcome, ha]
  | _ => rfl

theorem run_works (newId : Nat) (o : Op P) (s : List (Doc F)) : (callP newId o).run works s = called newId o s := by
  cases o with
  | getCart c =>
    simp only [callP, called, call, getCartP, Trains.run_reading, getCartItems]
    cases (getCart s c : Ret (Cart P)) <;> rfl
  | deleteCart c => exact run_delete c s
  | getItem c i =>
    simp only [callP, called, call, getItemP, Trains.run_reading, getItem]
    cases (getCart s c : Ret (Cart P)) with
    | ok c =>
      simp only [Prog.run]
      cases findItem i c.items with
      | none => rfl
      | some j => simp only; cases c.items[j]? <;> rfl
    | error => rfl
    | panic => rfl
  | addItem c x =>
    simp only [callP, called, call, addItemP, Trains.run_reading, addItem]
    cases (getCart s c : Ret (Cart P)) with
    | ok c' =>
      simp only [addWrite]
      rw [run_save rfl _ _ _ rfl]
    | error => rfl
    | panic => rfl
  | mergeCarts c t =>
    simp only [callP, called, call, mergeCartsP, Trains.run_reading, mergeCarts]
    cases (getCart s t : Ret (Cart P)) with
    | ok t' =>
      simp only
      cases (getCart s c : Ret (Cart P)) with
      | ok c' =>
        simp only
        by_cases hl : t'.items.length = 0
        · simp only [if_pos hl]; rfl
        · simp only [if_neg hl, Prog.run, save]
          generalize upsert s _ _ _ = u
          obtain ⟨d, n, o⟩ := u
          cases o with
          | ok =>
            simp only [unit, orErr]
            rw [run_write]
            generalize deleteOne d _ = r
            obtain ⟨d, r⟩ := r
            cases r <;> rfl
          | error => rfl
          | panic => rfl
      | error => rfl
      | panic => rfl
    | error => rfl
    | panic => rfl
  | removeItem c i =>
    simp only [callP, called, call, removeItemP, Trains.run_reading, removeItemCall]
    cases (getCart s c : Ret (Cart P)) with
    | ok c' =>
      simp only
      rcases removeItem i c'.items with ⟨l, b⟩
      cases b with
      | false => rfl
      | true =>
        simp only
        by_cases hl : l.length = 0
        · simp only [if_pos hl]; exact run_delete c s
        · simp only [if_neg hl]
          rw [run_save rfl _ _ _ rfl]
    | error => rfl
    | panic => rfl
  | updateItem c x =>
    simp only [callP, called, call, updateItemP, Trains.run_reading, updateItem]
    cases (getCart s c : Ret (Cart P)) with
    | ok c' =>
      simp only
      cases updateIn c' x with
      | none => rfl
      | some c'' =>
        simp only
        by_cases hl : c''.items.length = 0
        · simp only [if_pos hl]; exact run_delete c s
        · simp only [if_neg hl]
          rw [run_save rfl _ _ _ rfl]
    | error => rfl
    | panic => rfl

/-! ### Failures -/

private theorem careful_read {β : Type} (f : List (Doc F) → Ret β) {k : β → Prog (List (Doc F)) (Reply P)} (h : ∀ b, Careful (k b)) :
    Careful (reading f k) :=
  .read _ _ (fun _ => rfl) rfl fun r => by
    cases r with
    | ok b => exact h b
    | error => exact .ret _
    | panic => exact .ret _

private theorem careful_write (f : List (Doc F) → List (Doc F) × Ret Unit) (a : Reply P) : Careful (writing f a) :=
  .write _ _ rfl fun r => by cases r <;> exact ⟨_, rfl⟩

/-- C139: every method but `MergeCarts`.  If all calls of the database work it does what it does without failures; otherwise it returns an
error, and either nothing has changed or, if a call had its effect without the service being told, everything has.
Missing from the full property: `MergeCarts` (`C139_merge_refuted`). -/
theorem C139_carts_partial (newId : Nat) (o : Op P) (h : ∀ c t, o ≠ .mergeCarts c t) :
    Faithful (callP (F := F) newId o) (called newId o) := by
  refine Careful.faithful ?_ fun s => run_works newId o s
  cases o with
  | getCart c => exact careful_read _ fun _ => .ret _
  | deleteCart c => exact careful_write _ _
  | getItem c i => exact careful_read _ fun _ => .ret _
  | addItem c x => exact careful_read _ fun _ => careful_write _ _
  | mergeCarts c t => exact absurd rfl (h c t)
  | removeItem c i =>
    refine careful_read _ fun c' => ?_
    rcases removeItem i c'.items with ⟨l, b⟩
    cases b with
    | false => exact .ret _
    | true =>
      by_cases hl : l.length = 0
      · simp only [if_pos hl]; exact careful_write _ _
      · simp only [if_neg hl]; exact careful_write _ _
  | updateItem c x =>
    refine careful_read _ fun c' => ?_
    cases updateIn c' x with
    | none => exact .ret _
    | some c'' =>
      simp only
      by_cases hl : c''.items.length = 0
      · simp only [if_pos hl]; exact careful_write _ _
      · simp only [if_neg hl]; exact careful_write _ _

/-- What a call that may fail does to the database, and whether it returned without an error. -/
def stepF (db : List (Doc F)) (o : Nat × Op P) (r : Nat → Trains.Reply) : List (Doc F) × Bool := Trains.done ((callP o.1 o.2).run r db)

/-- C139: after any history without merges, with any failing calls, the carts are as after a history without failures that leaves out only
calls that returned an error. -/
theorem C139_history_partial (history : List ((Nat × Op P) × (Nat → Trains.Reply))) (h : ∀ e ∈ history, ∀ c t, e.1.2 ≠ .mergeCarts c t) :
    Trains.AsIf (fun ops => (calls ([] : List (Doc F)) ops).1) history (Trains.withFailures stepF [] history) := by
  have calls_foldl : ∀ (ops : List (Nat × Op P)) (db : List (Doc F)), (calls db ops).1 = ops.foldl (fun db o => (call db o.1 o.2).1) db := by
    intro ops
    induction ops with
    | nil => intro db; rfl
    | cons e ops ih => intro db; obtain ⟨n, o⟩ := e; exact ih _
  simp only [calls_foldl]
  -- a step that leaves merges alone
  let safe (db : List (Doc F)) (o : Nat × Op P) (r : Nat → Trains.Reply) : List (Doc F) × Bool := match o.2 with
    | .mergeCarts _ _ => (db, false)
    | _ => stepF db o r
  have hs : ∀ (history : List ((Nat × Op P) × (Nat → Trains.Reply))) (db : List (Doc F)), (∀ e ∈ history, ∀ c t, e.1.2 ≠ .mergeCarts c t) →
      Trains.withFailures stepF db history = Trains.withFailures safe db history := by
    intro history
    induction history with
    | nil => intros; rfl
    | cons e history ih =>
      intro db h
      obtain ⟨⟨n, o⟩, r⟩ := e
      have ho : safe db (n, o) r = stepF db (n, o) r := by
        have := h ((n, o), r) (by simp)
        cases o <;> first | rfl | exact absurd rfl (this _ _)
      simp only [Trains.withFailures, ho]
      rw [ih _ fun e he => h e (List.mem_cons_of_mem _ he)]
  rw [hs history [] h]
  refine Trains.asIf (fun s op r => ?_) [] history
  obtain ⟨n, o⟩ := op
  by_cases hm : ∃ c t, o = .mergeCarts c t
  · obtain ⟨c, t, rfl⟩ := hm
    exact .inr ⟨rfl, rfl⟩
  · have hm : ∀ c t, o ≠ .mergeCarts c t := fun c t e => hm ⟨c, t, e⟩
    have ho : safe s (n, o) r = stepF s (n, o) r := by
      cases o <;> first | rfl | exact absurd rfl (hm _ _)
    rw [ho]
    exact (C139_carts_partial n o hm).step r s

/-- C139: `MergeCarts`.  If a call of the database fails, it returns an error, and nothing has changed, or the items of the session are in
the customer's cart and still in the session's, or everything is done. -/
theorem C139_merge_partial (newId : Nat) (c t : Name) (r : Nat → Trains.Reply) (db : List (Doc F)) :
    ((mergeCartsP (P := P) c t newId).hit r db = false → (mergeCartsP (P := P) c t newId).run r db = called newId (.mergeCarts c t) db) ∧
    ((mergeCartsP (P := P) c t newId).hit r db = true → ∃ db', (mergeCartsP (P := P) c t newId).run r db = (db', .error) ∧
      (db' = db ∨ db' = (mergeCarts (P := P) db c t newId).1 ∨ ∃ cc tc : Cart P, getCart db c = .ok cc ∧ getCart db t = .ok tc ∧
        db' = (save c { cc with items := mergeItems F cc.items tc.items } newId db).1)) := by
  refine ⟨fun h => ?_, fun h => ?_⟩
  · rw [Trains.run_unhit _ r db h]; exact run_works newId (.mergeCarts c t) db
  · have e := (congrArg Prod.fst (run_works (F := F) (P := P) newId (.mergeCarts c t) db))
    simp only [callP, called, call] at e
    rw [← e]
    clear e
    simp only [mergeCartsP, reading, Prog.run, Prog.hit] at h ⊢
    cases h0 : r 0 with
    | fails => exact ⟨_, rfl, .inl rfl⟩
    | lost => exact ⟨_, rfl, .inl rfl⟩
    | works =>
      simp only [h0] at h ⊢
      cases ht : (getCart db t : Ret (Cart P)) with
      | error => simp [ht, orErr, Prog.hit] at h
      | panic => simp [ht, orErr, Prog.hit] at h
      | ok tc =>
        simp only [ht, orErr, Prog.run, Prog.hit] at h ⊢
        cases h1 : r 1 with
        | fails => exact ⟨_, rfl, .inl rfl⟩
        | lost => exact ⟨_, rfl, .inl rfl⟩
        | works =>
          simp only [h1] at h ⊢
          cases hc : (getCart db c : Ret (Cart P)) with
          | error => simp [hc, orErr, Prog.hit] at h
          | panic => simp [hc, orErr, Prog.hit] at h
          | ok cc =>
            simp only [hc, orErr] at h ⊢
            by_cases hl : tc.items.length = 0
            · simp only [if_pos hl, Prog.hit] at h
              cases h
            · simp only [if_neg hl, Prog.run, Prog.hit] at h ⊢
              cases h2 : r 2 with
              | fails => exact ⟨_, rfl, .inl rfl⟩
              | lost => exact ⟨_, rfl, .inr (.inr ⟨cc, tc, rfl, rfl, rfl⟩)⟩
              | works =>
                simp only [h2] at h ⊢
                cases hs : (save c { cc with items := mergeItems F cc.items tc.items } newId db).2 with
                | error => simp [hs, orErr, Prog.hit] at h
                | panic => simp [hs, orErr, Prog.hit] at h
                | ok _ =>
                  simp only [hs, orErr, writing, Prog.run, Prog.hit] at h ⊢
                  cases h3 : r 3 with
                  | fails => exact ⟨_, rfl, .inr (.inr ⟨cc, tc, rfl, rfl, rfl⟩)⟩
                  | lost =>
                    refine ⟨_, rfl, .inr (.inl ?_)⟩
                    generalize deleteOne (F := F) _ _ = w
                    obtain ⟨d, w⟩ := w
                    cases w <;> rfl
                  | works =>
                    exfalso
                    simp only [h3] at h
                    revert h
                    generalize deleteOne (F := F) _ _ = w
                    obtain ⟨d, w⟩ := w
                    cases w <;> simp [orErr, Prog.hit]

/-- C139 refuted: if in `MergeCarts` of a session that is not empty only the last call fails, it returns an error, but the session's items
are in the customer's cart and still in the session's.  A second `MergeCarts`, in which nothing fails, adds them once more. -/
theorem C139_merge_refuted (db : List (Doc F)) (hr : Reached db P) (n m : Nat) (c t : Name) (hct : c ≠ t)
    (customer session : List (Item P)) (h1 : getCartItems db c = .items customer) (h2 : getCartItems db t = .items session)
    (hne : session ≠ []) (ho : InOrder (Host.decodeRoom (F := F) customer.length) customer session) (r : Nat → Trains.Reply)
    (h0 : ∀ i, i < 3 → r i = .works) (h3 : r 3 = .fails) :
    ∃ db' db'', ∃ l l' : List (Item P), (mergeCartsP (P := P) c t n).run r db = (db', .error) ∧
      getCartItems db' c = .items l ∧ (∀ i, quantity i l = quantity i customer + quantity i session) ∧
      getCartItems db' t = .items session ∧
      mergeCarts (P := P) db' c t m = (db'', .done) ∧
      getCartItems db'' c = .items l' ∧ ∀ i, quantity i l' = quantity i customer + 2 * quantity i session := by
  obtain ⟨s, hs⟩ := reached hr
  rw [get_items hs] at h1 h2
  cases h1; cases h2
  have hnd := merged_nodup _ _ (hs.nodup c) (hs.nodup t)
  obtain ⟨db1, b, e1, k1⟩ := shows_upsert hs c (merged (s c) (s t)) hnd n
  have hlen : ¬ (s t).length = 0 := fun h => hne (List.eq_nil_of_length_eq_zero h)
  have ht : s.put c (merged (s c) (s t)) t = s t := by simp [Carts.put, Ne.symm hct]
  have hc : s.put c (merged (s c) (s t)) c = merged (s c) (s t) := by simp [Carts.put]
  have ho' : InOrder (Host.decodeRoom (F := F) (s.put c (merged (s c) (s t)) c).length) (s.put c (merged (s c) (s t)) c)
      (s.put c (merged (s c) (s t)) t) := by
    rw [hc, ht]
    intro pre y post hp _
    have : (pre.filter fun z => (inCart z.id (merged (s c) (s t))).isNone) = [] := by
      refine List.filter_eq_nil_iff.2 fun z hz => ?_
      have hzt : z ∈ s t := by rw [hp]; exact List.mem_append_left _ hz
      have : (inCart z.id (merged (s c) (s t))).isSome := by
        rw [inCart, List.find?_isSome]
        have hid : z.id ∈ (merged (s c) (s t)).map (·.id) := by
          rw [merged_eq, List.map_append, mix_ids, List.mem_append]
          cases hi : inCart z.id (s c) with
          | some w =>
            left
            have hw := List.find?_some hi
            exact List.mem_map.2 ⟨w, List.mem_of_find?_eq_some hi, by simpa using hw⟩
          | none => exact .inr (List.mem_map.2 ⟨z, List.mem_filter.2 ⟨hzt, by simp [hi]⟩, rfl⟩)
        obtain ⟨w, hw, hwi⟩ := List.mem_map.1 hid
        exact ⟨w, hw, by simpa using hwi⟩
      cases hi : inCart z.id (merged (s c) (s t)) with
      | none => rw [hi] at this; cases this
      | some _ => simp
    rw [this]; exact Nat.zero_le _
  obtain ⟨db2, e2, k2⟩ := merge_call k1 m c t ho'
  refine ⟨db1, db2, merged (s c) (s t), merged (merged (s c) (s t)) (s t), ?_, ?_, merged_quantity _ _ (hs.nodup c), ?_, e2, ?_, ?_⟩
  · simp only [mergeCartsP, reading, Prog.run, h0 0 (by decide), h0 1 (by decide), shows_get hs t, shows_get hs c, orErr, if_neg hlen]
    simp only [Prog.run, h0 2 (by decide), save, merge_items (hs.nodup c) (hs.nodup t) ho, e1, unit, orErr, writing, h3]
  · rw [get_items k1, hc]
  · rw [get_items k1, ht]
  · rw [get_items k2]; simp [Carts.put, hct, Ne.symm hct]
  · intro i
    rw [merged_quantity _ _ hnd, merged_quantity _ _ (hs.nodup c)]
    omega

end Verif.Cart
