import Verif.Shipping.Spec
/-
C145: any number of queue masters (queuemaster.go), any of which may stop at any time and start again, for instance because its process
crashes.  Otherwise as `Shipping/Model.lean`: a step is one operation on the queue or the database.
-/
namespace Verif.Shipping.Many
open Verif.Shipping (Str Shipment shipped updateStatus)

structure State where
  queue : List Shipment
  /-- pushed by a `PostShipping` call that has not yet inserted it into the database -/
  inserting : List Shipment
  db : List Shipment
  /-- for each queue master, the shipment whose status it tries to update -/
  masters : List (Option Shipment)

/-- `n` queue masters and nothing to do. -/
def State.init (n : Nat) : State := ⟨[], [], [], List.replicate n none⟩

inductive Step where
  /-- `service.q.Push` (shippingservice.go line 55) -/
  | push (s : Shipment)
  /-- `service.db.InsertOne` (line 63) of one of the running calls -/
  | insert (i : Nat)
  /-- the same, failing: `PostShipping` returns an error -/
  | insertFails (i : Nat)
  /-- `q.q.Pop` (queuemaster.go line 59) of a queue master -/
  | pop (m : Nat)
  /-- `q.shipping.UpdateStatus` (line 74); on an error it is tried again -/
  | update (m : Nat)
  /-- the same, failing because of the database -/
  | updateFails (m : Nat)
  /-- the same, with its effect, but the reply is an error, for instance because the connection is lost -/
  | updateLost (m : Nat)
  /-- the queue master stops, and starts again at the top of its loop -/
  | stop (m : Nat)
deriving DecidableEq

/-- One step; a step that is not possible changes nothing. -/
def step (σ : State) : Step → State
  | .push s => { σ with queue := σ.queue ++ [s], inserting := σ.inserting ++ [s] }
  | .insert i => match σ.inserting[i]? with
    | none => σ
    | some s => { σ with inserting := σ.inserting.eraseIdx i, db := σ.db ++ [s] }
  | .insertFails i => { σ with inserting := σ.inserting.eraseIdx i }
  | .pop m => match σ.masters[m]?, σ.queue with
    | some none, s :: queue => { σ with queue, masters := σ.masters.set m (some s) }
    | _, _ => σ
  | .update m => match σ.masters[m]? with
    | some (some s) => match updateStatus s.id shipped σ.db with
      | none => σ
      | some db => { σ with db, masters := σ.masters.set m none }
    | _ => σ
  | .updateFails _ => σ
  | .updateLost m => match σ.masters[m]? with
    | some (some s) => match updateStatus s.id shipped σ.db with
      | none => σ
      | some db => { σ with db }
    | _ => σ
  | .stop m => { σ with masters := σ.masters.set m none }

def exec (σ : State) (l : List Step) : State := l.foldl step σ

/-- `GetShipment` (shippingservice.go lines 67-80). -/
def getShipment (σ : State) (id : Str) : Option Shipment := σ.db.find? fun s => s.id = id

/-! ### The terms of the statements -/

/-- The shipments handed over, in order. -/
def handedOver : List Step → List Shipment
  | [] => []
  | .push s :: l => s :: handedOver l
  | _ :: l => handedOver l

/-- How often a queue master stopped. -/
def stops : List Step → Nat
  | [] => 0
  | .stop _ :: l => stops l + 1
  | _ :: l => stops l

/-- The shipment is still waiting: in the queue or in the hands of a queue master. -/
def State.waiting (σ : State) (s : Shipment) : Prop := s ∈ σ.queue ∨ some s ∈ σ.masters

/-! ### Lemmas -/

private def held (σ : State) : List Shipment := σ.masters.filterMap id

private def marked (mark : List Str) (s : Shipment) : Shipment := if s.id ∈ mark then { s with status := shipped } else s

private theorem marked_id (mark : List Str) (s : Shipment) : (marked mark s).id = s.id := by unfold marked; split <;> rfl

private structure Inv (H : List Shipment) (n : Nat) (σ : State) (taken done lost posted dropped : List Shipment) (mark : List Str) : Prop where
  order : H = taken ++ σ.queue
  takes : taken.Perm (done ++ (lost ++ held σ))
  puts : H.Perm (posted ++ (σ.inserting ++ dropped))
  db : σ.db = posted.map (marked mark)
  early : ∀ i ∈ mark, (∃ s ∈ taken, s.id = i) ∧ ∃ s ∈ posted, s.id = i
  ended : ∀ s ∈ done, s.id ∈ mark ∧ s ∈ posted
  few : lost.length ≤ n

private theorem set_held (l : List (Option Shipment)) : ∀ (m : Nat) (x y : Option Shipment), l[m]? = some x →
    (y.toList ++ l.filterMap id).Perm (x.toList ++ (l.set m y).filterMap id) := by
  induction l with
  | nil => intro m x y h; cases h
  | cons a l ih =>
    intro m x y h
    cases m with
    | zero =>
      simp only [List.getElem?_cons_zero, Option.some.injEq] at h
      subst h
      cases a <;> cases y <;> simp
      exact List.Perm.swap _ _ _
    | succ m =>
      have := ih m x y (by simpa using h)
      rw [List.set_cons_succ]
      cases a with
      | none => simpa using this
      | some a =>
        simp only [List.filterMap_cons, id]
        exact (List.perm_middle.trans (this.cons a)).trans List.perm_middle.symm

private theorem same_of_id {l : List Shipment} (hn : (l.map (·.id)).Nodup) {s t : Shipment} (hs : s ∈ l) (ht : t ∈ l) (e : s.id = t.id) : s = t := by
  induction l with
  | nil => cases hs
  | cons a l ih =>
    rw [List.map_cons, List.nodup_cons] at hn
    rcases List.mem_cons.1 hs with rfl | hs' <;> rcases List.mem_cons.1 ht with rfl | ht'
    · rfl
    · exact absurd (List.mem_map.2 ⟨t, ht', e.symm⟩) hn.1
    · exact absurd (List.mem_map.2 ⟨s, hs', e⟩) hn.1
    · exact ih hn.2 hs' ht'

private theorem marked_other {mark : List Str} {i : Str} {s : Shipment} (h : s.id ≠ i) : marked (i :: mark) s = marked mark s := by
  simp [marked, h]

private theorem update_marked {i : Str} {mark : List Str} : ∀ {posted db : List Shipment}, (posted.map (·.id)).Nodup →
    updateStatus i shipped (posted.map (marked mark)) = some db → db = posted.map (marked (i :: mark)) ∧ ∃ s ∈ posted, s.id = i := by
  intro posted
  induction posted with
  | nil => intro db _ h; cases h
  | cons a posted ih =>
    intro db hn h
    rw [List.map_cons, List.nodup_cons] at hn
    rw [List.map_cons, updateStatus, marked_id] at h
    by_cases e : a.id = i
    · rw [if_pos e, Option.some.injEq] at h
      subst h
      refine ⟨?_, a, List.mem_cons_self, e⟩
      rw [List.map_cons]
      congr 1
      · simp only [marked, e, List.mem_cons, true_or, if_true]
        split <;> simp [e]
      · refine List.map_congr_left fun x hx => (marked_other fun e' => ?_).symm
        exact hn.1 (List.mem_map.2 ⟨x, hx, e'.trans e.symm⟩)
    · rw [if_neg e, Option.map_eq_some_iff] at h
      obtain ⟨db', h, rfl⟩ := h
      obtain ⟨h1, s, h2, h3⟩ := ih hn.2 h
      exact ⟨by rw [List.map_cons, marked_other e, h1], s, List.mem_cons_of_mem _ h2, h3⟩

private theorem mem_held {σ : State} {s : Shipment} : s ∈ held σ ↔ some s ∈ σ.masters := by
  simp [held, List.mem_filterMap]

private theorem erase_perm {l : List Shipment} {i : Nat} {s : Shipment} (h : l[i]? = some s) : l.Perm (s :: l.eraseIdx i) := by
  induction l generalizing i with
  | nil => cases h
  | cons a l ih =>
    cases i with
    | zero => simp only [List.getElem?_cons_zero, Option.some.injEq] at h; subst h; exact .refl _
    | succ i => exact ((ih (by simpa using h)).cons a).trans (List.Perm.swap _ _ _)

private theorem step_inv {H : List Shipment} {n : Nat} {σ : State} {taken done lost posted dropped : List Shipment} {mark : List Str}
    (h : Inv H n σ taken done lost posted dropped mark) (hn : (H.map (·.id)).Nodup) (a : Step) :
    ∃ taken done lost posted dropped mark, Inv (H ++ handedOver [a]) (n + stops [a]) (step σ a) taken done lost posted dropped mark := by
  have hpn : (posted.map (·.id)).Nodup := by
    have := (h.puts.map (·.id)).nodup_iff.1 hn
    rw [List.map_append, List.nodup_append] at this
    exact this.1
  have same : step σ a = σ → handedOver [a] = [] → ∃ taken done lost posted dropped mark,
      Inv (H ++ handedOver [a]) (n + stops [a]) (step σ a) taken done lost posted dropped mark := by
    intro e e'
    rw [e, e', List.append_nil]
    exact ⟨_, _, _, _, _, _, { h with few := Nat.le_add_right_of_le h.few }⟩
  cases a with
  | push s =>
    refine ⟨taken, done, lost, posted, dropped, mark, ?_, h.takes, ?_, h.db, h.early, h.ended, h.few⟩
    · show H ++ [s] = taken ++ (σ.queue ++ [s])
      rw [← List.append_assoc, ← h.order]
    · show (H ++ [s]).Perm (posted ++ (σ.inserting ++ [s] ++ dropped))
      have := h.puts.append_right [s]
      refine this.trans ?_
      simp only [List.append_assoc]
      exact (List.perm_append_comm.append_left _).append_left _
  | insert i =>
    cases hi : σ.inserting[i]? with
    | none => exact same (by simp [step, hi]) rfl
    | some s =>
      rw [show step σ (.insert i) = { σ with inserting := σ.inserting.eraseIdx i, db := σ.db ++ [s] } by simp [step, hi]]
      have hp : H.Perm (posted ++ [s] ++ (σ.inserting.eraseIdx i ++ dropped)) := by
        refine h.puts.trans ?_
        rw [List.append_assoc]
        exact ((erase_perm hi).append_right dropped).append_left posted
      have hs : s.id ∉ mark := by
        intro hm
        obtain ⟨-, t, ht, e⟩ := h.early _ hm
        have := (hp.map (·.id)).nodup_iff.1 hn
        rw [List.map_append, List.nodup_append] at this
        have := this.1
        rw [List.map_append, List.nodup_append] at this
        exact this.2.2 t.id (List.mem_map_of_mem ht) s.id (by simp) e
      refine ⟨taken, done, lost, posted ++ [s], dropped, mark, by simpa [handedOver] using h.order, h.takes, by simpa [handedOver] using hp, ?_, ?_, ?_,
        h.few⟩
      · show σ.db ++ [s] = _
        rw [List.map_append, h.db]
        simp [marked, hs]
      · intro j hj
        obtain ⟨h1, t, h2, h3⟩ := h.early j hj
        exact ⟨h1, t, List.mem_append_left _ h2, h3⟩
      · intro t ht
        exact ⟨(h.ended t ht).1, List.mem_append_left _ (h.ended t ht).2⟩
  | insertFails i =>
    cases hi : σ.inserting[i]? with
    | none =>
      refine same ?_ rfl
      simp only [step]
      rw [List.eraseIdx_of_length_le (List.getElem?_eq_none_iff.1 hi)]
    | some s =>
      refine ⟨taken, done, lost, posted, s :: dropped, mark, by simpa [handedOver, step] using h.order, h.takes, ?_, h.db, h.early, h.ended, h.few⟩
      show (H ++ []).Perm (posted ++ (σ.inserting.eraseIdx i ++ s :: dropped))
      rw [List.append_nil]
      refine h.puts.trans (List.Perm.append_left _ ?_)
      refine ((erase_perm hi).append_right dropped).trans ?_
      exact List.perm_middle.symm
  | pop m =>
    cases hm : σ.masters[m]? with
    | none => exact same (by simp [step, hm]) rfl
    | some x => cases x with
      | some s => exact same (by simp [step, hm]) rfl
      | none => cases hq : σ.queue with
        | nil => exact same (by simp [step, hm, hq]) rfl
        | cons s queue =>
          rw [show step σ (.pop m) = { σ with queue, masters := σ.masters.set m (some s) } by simp [step, hm, hq]]
          refine ⟨taken ++ [s], done, lost, posted, dropped, mark, ?_, ?_, by simpa [handedOver] using h.puts, h.db, ?_, h.ended, h.few⟩
          · have := h.order
            rw [hq] at this
            simpa [handedOver] using this
          · have hh : (s :: held σ).Perm ((σ.masters.set m (some s)).filterMap id) := by simpa [held] using set_held σ.masters m none (some s) hm
            show (taken ++ [s]).Perm (done ++ (lost ++ (σ.masters.set m (some s)).filterMap id))
            refine (h.takes.append_right [s]).trans ?_
            simp only [List.append_assoc]
            exact ((List.perm_append_comm.trans hh).append_left _).append_left _
          · intro j hj
            obtain ⟨⟨t, h1, h2⟩, h3⟩ := h.early j hj
            exact ⟨⟨t, List.mem_append_left _ h1, h2⟩, h3⟩
  | update m =>
    cases hm : σ.masters[m]? with
    | none => exact same (by simp [step, hm]) rfl
    | some x => cases x with
      | none => exact same (by simp [step, hm]) rfl
      | some s => cases hu : updateStatus s.id shipped σ.db with
        | none => exact same (by simp [step, hm, hu]) rfl
        | some db =>
          rw [show step σ (.update m) = { σ with db, masters := σ.masters.set m none } by simp [step, hm, hu]]
          rw [h.db] at hu
          obtain ⟨h1, t, h2, h3⟩ := update_marked hpn hu
          have hst : s ∈ taken := h.takes.mem_iff.2 (by simp [mem_held, List.mem_of_getElem? hm])
          have hts : t = s := same_of_id hn (h.puts.mem_iff.2 (by simp [h2])) (by rw [h.order]; simp [hst]) h3
          subst hts
          refine ⟨taken, t :: done, lost, posted, dropped, t.id :: mark, by simpa [handedOver] using h.order, ?_,
            by simpa [handedOver] using h.puts, h1, ?_, ?_, h.few⟩
          · have hh : (held σ).Perm (t :: (σ.masters.set m none).filterMap id) := by simpa [held] using set_held σ.masters m (some t) none hm
            show taken.Perm (t :: done ++ (lost ++ (σ.masters.set m none).filterMap id))
            refine (h.takes.trans ((hh.append_left _).append_left _)).trans ?_
            rw [← List.append_assoc, List.cons_append, ← List.append_assoc]
            exact List.perm_middle
          · intro j hj
            rcases List.mem_cons.1 hj with rfl | hj
            · exact ⟨⟨t, hst, rfl⟩, t, h2, rfl⟩
            · exact h.early j hj
          · intro u hu'
            rcases List.mem_cons.1 hu' with rfl | hu'
            · exact ⟨List.mem_cons_self, h2⟩
            · exact ⟨List.mem_cons_of_mem _ (h.ended u hu').1, (h.ended u hu').2⟩
  | updateFails m => exact same rfl rfl
  | updateLost m =>
    cases hm : σ.masters[m]? with
    | none => exact same (by simp [step, hm]) rfl
    | some x => cases x with
      | none => exact same (by simp [step, hm]) rfl
      | some s => cases hu : updateStatus s.id shipped σ.db with
        | none => exact same (by simp [step, hm, hu]) rfl
        | some db =>
          rw [show step σ (.updateLost m) = { σ with db } by simp [step, hm, hu]]
          rw [h.db] at hu
          obtain ⟨h1, h2⟩ := update_marked hpn hu
          have hst : s ∈ taken := h.takes.mem_iff.2 (by simp [mem_held, List.mem_of_getElem? hm])
          refine ⟨taken, done, lost, posted, dropped, s.id :: mark, by simpa [handedOver] using h.order, h.takes,
            by simpa [handedOver] using h.puts, h1, ?_, ?_, h.few⟩
          · intro j hj
            rcases List.mem_cons.1 hj with rfl | hj
            · exact ⟨⟨s, hst, rfl⟩, h2⟩
            · exact h.early j hj
          · exact fun u hu' => ⟨List.mem_cons_of_mem _ (h.ended u hu').1, (h.ended u hu').2⟩
  | stop m =>
    cases hm : σ.masters[m]? with
    | none =>
      refine same ?_ rfl
      simp only [step]
      rw [List.set_eq_of_length_le (List.getElem?_eq_none_iff.1 hm)]
    | some x =>
      have hh : (held σ).Perm (x.toList ++ (σ.masters.set m none).filterMap id) := by simpa [held] using set_held σ.masters m x none hm
      refine ⟨taken, done, lost ++ x.toList, posted, dropped, mark, by simpa [handedOver, step] using h.order, ?_,
        by simpa [handedOver, step] using h.puts, h.db, h.early, h.ended, ?_⟩
      · show taken.Perm (done ++ (lost ++ x.toList ++ (σ.masters.set m none).filterMap id))
        rw [List.append_assoc]
        exact h.takes.trans ((hh.append_left _).append_left _)
      · have := h.few
        cases x <;> simp [stops] <;> omega

private theorem handed_cons (a : Step) (l : List Step) : handedOver (a :: l) = handedOver [a] ++ handedOver l := by
  cases a <;> rfl

private theorem stops_cons (a : Step) (l : List Step) : stops (a :: l) = stops [a] + stops l := by
  cases a <;> simp [stops] <;> omega

private theorem exec_inv (l : List Step) : ∀ {H : List Shipment} {n : Nat} {σ : State}, ((H ++ handedOver l).map (·.id)).Nodup →
    (∃ taken done lost posted dropped mark, Inv H n σ taken done lost posted dropped mark) →
    ∃ taken done lost posted dropped mark, Inv (H ++ handedOver l) (n + stops l) (exec σ l) taken done lost posted dropped mark := by
  induction l with
  | nil => intro H n σ _ h; simpa [handedOver, stops, exec] using h
  | cons a l ih =>
    intro H n σ hn h
    rw [handed_cons, ← List.append_assoc] at hn ⊢
    rw [stops_cons, ← Nat.add_assoc]
    obtain ⟨_, _, _, _, _, _, h⟩ := h
    have hH : (H.map (·.id)).Nodup := by
      rw [List.append_assoc, List.map_append, List.nodup_append] at hn
      exact hn.1
    exact ih hn (step_inv h hH a)

private theorem reached (k : Nat) (l : List Step) (hn : ((handedOver l).map (·.id)).Nodup) :
    ∃ taken done lost posted dropped mark, Inv (handedOver l) (stops l) (exec (State.init k) l) taken done lost posted dropped mark := by
  have h0 : Inv [] 0 (State.init k) [] [] [] [] [] [] := by
    refine ⟨rfl, ?_, .nil, rfl, by simp, by simp, Nat.le_refl _⟩
    simp [held, State.init, List.filterMap_replicate]
  simpa using exec_inv l (H := []) (n := 0) (by simpa using hn) ⟨_, _, _, _, _, _, h0⟩

private theorem find_marked {mark : List Str} {posted : List Shipment} (hn : (posted.map (·.id)).Nodup) {s : Shipment} (hs : s ∈ posted) :
    (posted.map (marked mark)).find? (fun x => x.id = s.id) = some (marked mark s) := by
  induction posted with
  | nil => cases hs
  | cons a posted ih =>
    rw [List.map_cons, List.nodup_cons] at hn
    rw [List.map_cons, List.find?_cons, marked_id]
    rcases List.mem_cons.1 hs with rfl | hs
    · simp
    · have : a.id ≠ s.id := fun e => hn.1 (List.mem_map.2 ⟨s, hs, e.symm⟩)
      simp only [this, decide_false]
      exact ih hn.2 hs

/-! ### The theorems -/

/-- C145: with any number of queue masters, in every schedule, with any failures and any stops: a shipment that can be looked up is one that
was handed over, with its identifier, name and status, except that the status may be "shipped" once the shipment has left the queue.  The
shipments in the queue are the latest ones, in order. -/
theorem C145_status (k : Nat) (l : List Step) (hn : ((handedOver l).map (·.id)).Nodup) :
    (∀ id r, getShipment (exec (State.init k) l) id = some r → ∃ s ∈ handedOver l, s.id = id ∧
      (r = s ∨ (r = { s with status := shipped } ∧ s ∉ (exec (State.init k) l).queue))) ∧
    ∃ taken, handedOver l = taken ++ (exec (State.init k) l).queue := by
  obtain ⟨taken, done, lost, posted, dropped, mark, h⟩ := reached k l hn
  refine ⟨?_, taken, h.order⟩
  intro id r hr
  have hm := List.mem_of_find?_eq_some hr
  have hid : r.id = id := by simpa using List.find?_some hr
  rw [h.db] at hm
  obtain ⟨s, hs, rfl⟩ := List.mem_map.1 hm
  rw [marked_id] at hid
  refine ⟨s, h.puts.mem_iff.2 (by simp [hs]), hid, ?_⟩
  unfold marked
  split
  · next hmk =>
    refine .inr ⟨rfl, fun hq => ?_⟩
    obtain ⟨⟨t, ht, e⟩, -⟩ := h.early _ hmk
    rw [h.order, List.map_append, List.nodup_append] at hn
    exact hn.2.2 t.id (List.mem_map_of_mem ht) s.id (List.mem_map_of_mem hq) e
  · exact .inl rfl

/-- C145: every shipment handed over waits, or is shipped and can be looked up, or is one of the lost ones, and there is at most one of
these for every stop of a queue master. -/
theorem C145_accounted (k : Nat) (l : List Step) (hn : ((handedOver l).map (·.id)).Nodup) :
    ∃ lost : List Shipment, lost.length ≤ stops l ∧ ∀ s ∈ handedOver l, (exec (State.init k) l).waiting s ∨ s ∈ lost ∨
      getShipment (exec (State.init k) l) s.id = some { s with status := shipped } := by
  obtain ⟨taken, done, lost, posted, dropped, mark, h⟩ := reached k l hn
  have hpn : (posted.map (·.id)).Nodup := by
    have := (h.puts.map (·.id)).nodup_iff.1 hn
    rw [List.map_append, List.nodup_append] at this
    exact this.1
  refine ⟨lost, h.few, fun s hs => ?_⟩
  rw [h.order] at hs
  rcases List.mem_append.1 hs with hs | hs
  · have := h.takes.mem_iff.1 hs
    simp only [List.mem_append, mem_held] at this
    rcases this with hd | hl | hh
    · refine .inr (.inr ?_)
      obtain ⟨h1, h2⟩ := h.ended s hd
      unfold getShipment
      rw [h.db, find_marked hpn h2]
      simp [marked, h1]
    · exact .inr (.inl hl)
    · exact .inl (.inr hh)
  · exact .inl (.inl hs)

/-- All queue masters update the shipment they have, then the first one takes and updates `q` more. -/
def finish (k q : Nat) : List Step := (List.range k).map .update ++ (List.replicate q [Step.pop 0, Step.update 0]).flatten

private def Known (σ : State) : Prop := ∀ s, σ.waiting s → s.id ∈ σ.db.map (·.id)

private theorem update_some (id : Str) : ∀ db : List Shipment, id ∈ db.map (·.id) →
    ∃ db', updateStatus id shipped db = some db' ∧ db'.map (·.id) = db.map (·.id) := by
  intro db
  induction db with
  | nil => intro h; cases h
  | cons a db ih =>
    intro h
    rw [updateStatus]
    by_cases e : a.id = id
    · exact ⟨_, if_pos e, rfl⟩
    · rw [if_neg e]
      obtain ⟨db', h1, h2⟩ := ih (by simpa [Ne.symm e] using h)
      exact ⟨a :: db', by rw [h1]; rfl, by simp [h2]⟩

private theorem update_frees {σ : State} (h : Known σ) (m : Nat) : (step σ (.update m)).masters = σ.masters.set m none ∧
    (step σ (.update m)).queue = σ.queue ∧ Known (step σ (.update m)) := by
  have known : ∀ σ' : State, σ'.masters = σ.masters.set m none → σ'.queue = σ.queue → σ'.db.map (·.id) = σ.db.map (·.id) → Known σ' := by
    intro σ' e1 e2 e3 s hs
    rw [e3]
    refine h s ?_
    rcases hs with hs | hs
    · exact .inl (e2 ▸ hs)
    · rw [e1] at hs
      rcases List.mem_or_eq_of_mem_set hs with hs | hs
      · exact .inr hs
      · cases hs
  have noop : σ.masters.set m none = σ.masters → step σ (.update m) = σ → (step σ (.update m)).masters = σ.masters.set m none ∧
      (step σ (.update m)).queue = σ.queue ∧ Known (step σ (.update m)) := by
    intro e1 e2
    rw [e2, e1]
    exact ⟨rfl, rfl, h⟩
  cases hm : σ.masters[m]? with
  | none => exact noop (List.set_eq_of_length_le (List.getElem?_eq_none_iff.1 hm)) (by simp [step, hm])
  | some x => cases x with
    | none =>
      refine noop ?_ (by simp [step, hm])
      obtain ⟨hi, e⟩ := List.getElem?_eq_some_iff.1 hm
      rw [← e, List.set_getElem_self]
    | some s =>
      obtain ⟨db', h1, h2⟩ := update_some s.id σ.db (h s (.inr (List.mem_of_getElem? hm)))
      have e : step σ (.update m) = { σ with db := db', masters := σ.masters.set m none } := by simp [step, hm, h1]
      rw [e]
      exact ⟨rfl, rfl, known _ rfl rfl h2⟩

private theorem updates_free {σ : State} (h : Known σ) (k : Nat) : (exec σ ((List.range k).map .update)).queue = σ.queue ∧
    Known (exec σ ((List.range k).map .update)) ∧ (exec σ ((List.range k).map .update)).masters.length = σ.masters.length ∧
    ∀ i, i < k → ∀ x, (exec σ ((List.range k).map .update)).masters[i]? = some x → x = none := by
  induction k with
  | zero => exact ⟨rfl, h, rfl, fun i hi => absurd hi (Nat.not_lt_zero i)⟩
  | succ k ih =>
    obtain ⟨h1, h2, h3, h4⟩ := ih
    have e : exec σ ((List.range (k + 1)).map .update) = step (exec σ ((List.range k).map .update)) (.update k) := by
      simp [exec, List.range_succ]
    rw [e]
    obtain ⟨g1, g2, g3⟩ := update_frees h2 k
    refine ⟨g2.trans h1, g3, by rw [g1, List.length_set, h3], ?_⟩
    intro i hi x hx
    rw [g1, List.getElem?_set] at hx
    split at hx
    · split at hx
      · cases hx; rfl
      · cases hx
    · exact h4 i (by omega) x hx

private theorem pops_free (q : Nat) : ∀ σ : State, Known σ → σ.queue.length ≤ q → σ.masters ≠ [] → (∀ x ∈ σ.masters, x = none) →
    ∀ s, ¬ (exec σ (List.replicate q [Step.pop 0, Step.update 0]).flatten).waiting s := by
  induction q with
  | zero =>
    intro σ _ hq _ hm s hs
    rcases hs with hs | hs
    · have hs : s ∈ σ.queue := hs
      rw [List.length_eq_zero_iff.1 (Nat.le_zero.1 hq)] at hs
      cases hs
    · cases hm _ hs
  | succ q ih =>
    intro σ hk hq hne hm
    have e : exec σ (List.replicate (q + 1) [Step.pop 0, Step.update 0]).flatten =
        exec (step (step σ (.pop 0)) (.update 0)) (List.replicate q [Step.pop 0, Step.update 0]).flatten := by
      simp [exec, List.replicate_succ]
    rw [e]
    obtain ⟨x, ms, e0⟩ := List.exists_cons_of_ne_nil hne
    have hx : x = none := hm x (by simp [e0])
    subst hx
    have h0 : σ.masters[0]? = some none := by simp [e0]
    cases hqs : σ.queue with
    | nil =>
      have e1 : step σ (.pop 0) = σ := by simp [step, h0, hqs]
      obtain ⟨g1, g2, g3⟩ := update_frees hk 0
      rw [e1]
      refine ih _ g3 (by rw [g2, hqs]; exact Nat.zero_le _) (by rw [g1, e0]; simp) ?_
      rw [g1, e0]
      intro y hy
      exact hm y (by rw [e0]; simpa using hy)
    | cons s queue =>
      have e1 : step σ (.pop 0) = { σ with queue, masters := some s :: ms } := by simp [step, h0, hqs, e0]
      have hk1 : Known (step σ (.pop 0)) := by
        rw [e1]
        intro t ht
        refine hk t ?_
        rcases ht with ht | ht
        · exact .inl (by rw [hqs]; exact List.mem_cons_of_mem _ ht)
        · rcases List.mem_cons.1 ht with ht | ht
          · cases ht
            exact .inl (by rw [hqs]; exact List.mem_cons_self)
          · exact .inr (by rw [e0]; exact List.mem_cons_of_mem _ ht)
      obtain ⟨g1, g2, g3⟩ := update_frees hk1 0
      have g1 : (step (step σ (.pop 0)) (.update 0)).masters = none :: ms := by rw [g1, e1]; rfl
      have g2 : (step (step σ (.pop 0)) (.update 0)).queue = queue := by rw [g2, e1]
      refine ih _ g3 (by rw [g2]; rw [hqs, List.length_cons] at hq; omega) (by rw [g1]; simp) ?_
      rw [g1]
      intro y hy
      exact hm y (by rw [e0]; exact hy)

private theorem handed_append (l l' : List Step) : handedOver (l ++ l') = handedOver l ++ handedOver l' := by
  induction l with
  | nil => rfl
  | cons a l ih => rw [List.cons_append, handed_cons, ih, handed_cons a l, List.append_assoc]

private theorem stops_append (l l' : List Step) : stops (l ++ l') = stops l + stops l' := by
  induction l with
  | nil => simp [stops]
  | cons a l ih => rw [List.cons_append, stops_cons, ih, stops_cons a l, Nat.add_assoc]

private theorem finish_steps (k q : Nat) : handedOver (finish k q) = [] ∧ stops (finish k q) = 0 := by
  have key : ∀ l : List Step, (∀ a ∈ l, (∃ m, a = .update m) ∨ ∃ m, a = .pop m) → handedOver l = [] ∧ stops l = 0 := by
    intro l
    induction l with
    | nil => exact fun _ => ⟨rfl, rfl⟩
    | cons a l ih =>
      intro h
      obtain ⟨h1, h2⟩ := ih fun b hb => h b (List.mem_cons_of_mem _ hb)
      rcases h a List.mem_cons_self with ⟨m, rfl⟩ | ⟨m, rfl⟩ <;> exact ⟨h1, h2⟩
  refine key _ fun a ha => ?_
  unfold finish at ha
  rcases List.mem_append.1 ha with ha | ha
  · obtain ⟨m, -, rfl⟩ := List.mem_map.1 ha
    exact .inl ⟨m, rfl⟩
  · obtain ⟨b, hb, ha⟩ := List.mem_flatten.1 ha
    rw [List.eq_of_mem_replicate hb] at ha
    simp only [List.mem_cons, List.not_mem_nil, or_false] at ha
    rcases ha with rfl | rfl
    · exact .inr ⟨0, rfl⟩
    · exact .inl ⟨0, rfl⟩

private theorem exec_masters (l : List Step) : ∀ σ : State, (exec σ l).masters.length = σ.masters.length := by
  induction l with
  | nil => exact fun _ => rfl
  | cons a l ih =>
    intro σ
    show (exec (step σ a) l).masters.length = _
    rw [ih]
    cases a <;> simp only [step] <;> (repeat' split) <;> simp

/-- C145: if no queue master stops and every shipment handed over can be looked up, the queue masters need to update what they have, and one
of them to take as many as there are in the queue, and every shipment handed over is shipped.  Missing from the full property: stops
(`C145_stop_refuted`), and shipments whose insertion failed (`C82_stuck_refuted`). -/
theorem C145_all_shipped_partial (k : Nat) (hk : 0 < k) (l : List Step) (hn : ((handedOver l).map (·.id)).Nodup) (hs : stops l = 0)
    (hi : ∀ s ∈ handedOver l, ∃ r, getShipment (exec (State.init k) l) s.id = some r) (q : Nat)
    (hq : (exec (State.init k) l).queue.length ≤ q) :
    ∀ s ∈ handedOver l, getShipment (exec (State.init k) (l ++ finish k q)) s.id = some { s with status := shipped } := by
  obtain ⟨f1, f2⟩ := finish_steps k q
  have eh : handedOver (l ++ finish k q) = handedOver l := by rw [handed_append, f1, List.append_nil]
  obtain ⟨lost, h1, h2⟩ := C145_accounted k (l ++ finish k q) (by rw [eh]; exact hn)
  rw [stops_append, hs, f2] at h1
  have h1 := List.length_eq_zero_iff.1 (Nat.le_zero.1 h1)
  subst h1
  rw [eh] at h2
  intro s hs'
  rcases h2 s hs' with hw | hw | hw
  · refine absurd hw ?_
    have hkn : Known (exec (State.init k) l) := by
      intro t ht
      have : t ∈ handedOver l := by
        obtain ⟨taken, done, lost, posted, dropped, mark, h⟩ := reached k l hn
        rw [h.order]
        rcases ht with ht | ht
        · exact List.mem_append_right _ ht
        · exact List.mem_append_left _ (h.takes.mem_iff.2 (by simp [mem_held, ht]))
      obtain ⟨r, hr⟩ := hi t this
      exact List.mem_map.2 ⟨r, List.mem_of_find?_eq_some hr, by simpa using List.find?_some hr⟩
    have hl := exec_masters l (State.init k)
    rw [show (State.init k).masters.length = k by simp [State.init]] at hl
    have ee : exec (State.init k) (l ++ finish k q) =
        exec (exec (exec (State.init k) l) ((List.range k).map .update)) (List.replicate q [Step.pop 0, Step.update 0]).flatten := by
      simp [exec, finish, List.foldl_append]
    rw [ee]
    generalize exec (State.init k) l = σ at *
    obtain ⟨g1, g2, g3, g4⟩ := updates_free hkn k
    refine pops_free q _ g2 (by rw [g1]; exact hq) ?_ ?_ s
    · intro e0
      rw [e0, hl] at g3
      simp at g3
      omega
    · intro x hx
      obtain ⟨i, hi', rfl⟩ := List.mem_iff_getElem.1 hx
      exact g4 i (by omega) _ (List.getElem?_eq_getElem hi')
  · cases hw
  · exact hw

private structure Gone (s : Shipment) (σ : State) : Prop where
  queue : ∀ x ∈ σ.queue, x.id ≠ s.id
  masters : ∀ x, some x ∈ σ.masters → x.id ≠ s.id
  inserting : ∀ x ∈ σ.inserting, x.id = s.id → x = s
  db : ∀ x ∈ σ.db, x.id = s.id → x = s

private theorem update_other {id i : Str} (hne : id ≠ i) : ∀ {db db' : List Shipment}, updateStatus id shipped db = some db' →
    ∀ x ∈ db', x.id = i → x ∈ db := by
  intro db
  induction db with
  | nil => intro db' h; cases h
  | cons a db ih =>
    intro db' h x hx e
    rw [updateStatus] at h
    by_cases ea : a.id = id
    · rw [if_pos ea, Option.some.injEq] at h
      subst h
      rcases List.mem_cons.1 hx with rfl | hx
      · exact absurd (ea.symm.trans e) hne
      · exact List.mem_cons_of_mem _ hx
    · rw [if_neg ea, Option.map_eq_some_iff] at h
      obtain ⟨db1, h, rfl⟩ := h
      rcases List.mem_cons.1 hx with rfl | hx
      · exact List.mem_cons_self
      · exact List.mem_cons_of_mem _ (ih h x hx e)

private theorem gone_step {s : Shipment} {σ : State} (h : Gone s σ) (a : Step) (ha : ∀ x ∈ handedOver [a], x.id ≠ s.id) : Gone s (step σ a) := by
  have hset : ∀ (m : Nat) (y : Option Shipment), (∀ x, y = some x → x.id ≠ s.id) → ∀ x, some x ∈ σ.masters.set m y → x.id ≠ s.id := by
    intro m y hy x hx
    rcases List.mem_or_eq_of_mem_set hx with hx | hx
    · exact h.masters x hx
    · exact hy x hx.symm
  cases a with
  | push x =>
    have hx := ha x (by simp [handedOver])
    refine ⟨?_, h.masters, ?_, h.db⟩
    · intro y hy
      rcases List.mem_append.1 hy with hy | hy
      · exact h.queue y hy
      · rw [List.mem_singleton.1 hy]; exact hx
    · intro y hy e
      rcases List.mem_append.1 hy with hy | hy
      · exact h.inserting y hy e
      · rw [List.mem_singleton.1 hy] at e; exact absurd e hx
  | insert i =>
    simp only [step]
    split
    · exact h
    · next x hx =>
      refine ⟨h.queue, h.masters, fun y hy => h.inserting y (List.mem_of_mem_eraseIdx hy), ?_⟩
      intro y hy
      rcases List.mem_append.1 hy with hy | hy
      · exact h.db y hy
      · rw [List.mem_singleton.1 hy]; exact h.inserting x (List.mem_of_getElem? hx)
  | insertFails i => exact ⟨h.queue, h.masters, fun y hy => h.inserting y (List.mem_of_mem_eraseIdx hy), h.db⟩
  | pop m =>
    simp only [step]
    split
    · next x queue _ hq =>
      refine ⟨fun y hy => h.queue y (by rw [hq]; exact List.mem_cons_of_mem _ hy), hset m _ ?_, h.inserting, h.db⟩
      intro y hy
      cases hy
      exact h.queue x (by rw [hq]; exact List.mem_cons_self)
    · exact h
  | update m =>
    simp only [step]
    split
    · next x hx =>
      split
      · exact h
      · next db hu =>
        exact ⟨h.queue, hset m none (fun _ e => by cases e), h.inserting,
          fun y hy e => h.db y (update_other (h.masters x (List.mem_of_getElem? hx)) hu y hy e) e⟩
    · exact h
  | updateFails m => exact h
  | updateLost m =>
    simp only [step]
    split
    · next x hx =>
      split
      · exact h
      · next db hu =>
        exact ⟨h.queue, h.masters, h.inserting,
          fun y hy e => h.db y (update_other (h.masters x (List.mem_of_getElem? hx)) hu y hy e) e⟩
    · exact h
  | stop m => exact ⟨h.queue, hset m none (fun _ e => by cases e), h.inserting, h.db⟩

/-- C145 refuted: a shipment that a queue master has taken from the queue when it stops is lost.  Unless its status has been updated already,
it is never shipped: whatever happens from then on, its record stays as it was handed over. -/
theorem C145_stop_refuted (k : Nat) (l : List Step) (hn : ((handedOver l).map (·.id)).Nodup) (m : Nat) (s : Shipment)
    (hm : (exec (State.init k) l).masters[m]? = some (some s))
    (hs : ∀ r, getShipment (exec (State.init k) l) s.id = some r → r = s) (l' : List Step) (hl : ∀ x ∈ handedOver l', x.id ≠ s.id) :
    ∀ r, getShipment (exec (State.init k) (l ++ .stop m :: l')) s.id = some r → r = s := by
  have start : Gone s (step (exec (State.init k) l) (.stop m)) := by
    obtain ⟨taken, done, lost, posted, dropped, mark, h⟩ := reached k l hn
    generalize exec (State.init k) l = σ at *
    have hh : (held σ).Perm (s :: (σ.masters.set m none).filterMap id) := by simpa [held] using set_held σ.masters m (some s) none hm
    have ht : taken.Perm (done ++ (lost ++ s :: (σ.masters.set m none).filterMap id)) := h.takes.trans ((hh.append_left _).append_left _)
    have hst : s ∈ taken := ht.mem_iff.2 (by simp)
    have hsH : s ∈ handedOver l := by rw [h.order]; exact List.mem_append_left _ hst
    have hn' := hn
    rw [h.order, List.map_append, List.nodup_append] at hn'
    have hpn : (posted.map (·.id)).Nodup := by
      have := (h.puts.map (·.id)).nodup_iff.1 hn
      rw [List.map_append, List.nodup_append] at this
      exact this.1
    refine ⟨fun x hx e => ?_, fun x hx e => ?_, fun x hx e => ?_, fun x hx e => ?_⟩
    · exact hn'.2.2 s.id (List.mem_map_of_mem hst) x.id (List.mem_map_of_mem hx) e.symm
    · have := (ht.map (·.id)).nodup_iff.1 hn'.1
      rw [List.map_append, List.nodup_append, List.map_append, List.nodup_append, List.map_cons, List.nodup_cons] at this
      exact this.2.1.2.1.1 (List.mem_map.2 ⟨x, List.mem_filterMap.2 ⟨some x, hx, rfl⟩, e⟩)
    · exact same_of_id hn (h.puts.mem_iff.2 (by have hx : x ∈ σ.inserting := hx; simp [hx])) hsH e
    · have hx : x ∈ σ.db := hx
      rw [h.db] at hx
      obtain ⟨y, hy, rfl⟩ := List.mem_map.1 hx
      rw [marked_id] at e
      refine hs _ ?_
      unfold getShipment
      rw [h.db, ← e]
      exact find_marked hpn hy
  have stays : ∀ (l' : List Step) (σ : State), Gone s σ → (∀ x ∈ handedOver l', x.id ≠ s.id) → Gone s (exec σ l') := by
    intro l'
    induction l' with
    | nil => exact fun _ h _ => h
    | cons a l' ih =>
      intro σ h ha
      rw [handed_cons] at ha
      exact ih _ (gone_step h a fun x hx => ha x (List.mem_append_left _ hx)) fun x hx => ha x (List.mem_append_right _ hx)
  intro r hr
  have e : exec (State.init k) (l ++ .stop m :: l') = exec (step (exec (State.init k) l) (.stop m)) l' := by simp [exec]
  rw [e] at hr
  exact (stays l' _ start hl).db r (List.mem_of_find?_eq_some hr) (by simpa using List.find?_some hr)

/-! ### One queue master that never stops -/

private def lift : Shipping.Step → Step
  | .push s => .push s
  | .insert i => .insert i
  | .insertFails i => .insertFails i
  | .pop => .pop 0
  | .update => .update 0
  | .updateFails => .updateFails 0

private def liftState (σ : Shipping.State) : State := ⟨σ.queue, σ.inserting, σ.db, [σ.master]⟩

private theorem lift_step (σ : Shipping.State) (a : Shipping.Step) : step (liftState σ) (lift a) = liftState (Shipping.step σ a) := by
  cases a with
  | push s => rfl
  | insert i =>
    simp only [lift, step, Shipping.step, liftState]
    cases σ.inserting[i]? <;> rfl
  | insertFails i => rfl
  | pop =>
    obtain ⟨queue, inserting, db, master⟩ := σ
    cases master <;> cases queue <;> rfl
  | update =>
    obtain ⟨queue, inserting, db, master⟩ := σ
    cases master with
    | none => rfl
    | some s =>
      simp only [lift, step, Shipping.step, liftState, List.getElem?_cons_zero]
      cases updateStatus s.id shipped db <;> rfl
  | updateFails => rfl

/-- One queue master that never stops is the model of C82. -/
theorem one_master (l : List Shipping.Step) (id : Str) : ∃ l', handedOver l' = Shipping.handedOver l ∧ stops l' = 0 ∧
    (exec (State.init 1) l').queue = (Shipping.exec Shipping.State.init l).queue ∧
    getShipment (exec (State.init 1) l') id = Shipping.getShipment (Shipping.exec Shipping.State.init l) id := by
  have key : ∀ (l : List Shipping.Step) (σ : Shipping.State), exec (liftState σ) (l.map lift) = liftState (Shipping.exec σ l) := by
    intro l
    induction l with
    | nil => exact fun _ => rfl
    | cons a l ih =>
      intro σ
      show exec (step (liftState σ) (lift a)) (l.map lift) = _
      rw [lift_step, ih]
      rfl
  have e : exec (State.init 1) (l.map lift) = liftState (Shipping.exec Shipping.State.init l) := key l Shipping.State.init
  refine ⟨l.map lift, ?_, ?_, by rw [e]; rfl, by rw [e]; rfl⟩
  · clear e
    induction l with
    | nil => rfl
    | cons a l ih => cases a <;> simpa [handedOver, Shipping.handedOver, lift] using ih
  · clear e
    induction l with
    | nil => rfl
    | cons a l ih => cases a <;> simpa [stops, lift] using ih

end Verif.Shipping.Many
