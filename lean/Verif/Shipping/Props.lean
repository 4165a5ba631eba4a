import Verif.Shipping.Spec
/-
C82: shipments.
-/
namespace Verif.Shipping

private theorem update_none {id st : Str} {l : List Shipment} : updateStatus id st l = none ↔ ∀ s ∈ l, s.id ≠ id := by
  induction l with
  | nil => simp [updateStatus]
  | cons s l ih =>
    simp only [updateStatus]
    split
    · next h => simp [h]
    · next h => simp [h, ih]

private theorem update_some {id st : Str} {l l' : List Shipment} (h : updateStatus id st l = some l')
    (hn : (l.map (·.id)).Nodup) :
    l' = l.map (fun s => if s.id = id then { s with status := st } else s) ∧ ∃ s ∈ l, s.id = id := by
  induction l generalizing l' with
  | nil => simp [updateStatus] at h
  | cons s l ih =>
    simp only [List.map_cons, List.nodup_cons, List.mem_map, not_exists, not_and] at hn
    simp only [updateStatus] at h
    split at h
    · next hs =>
      cases h
      refine ⟨?_, s, .head _, hs⟩
      simp only [List.map_cons, hs, if_true]
      congr 1
      symm
      conv => rhs; rw [← List.map_id l]
      apply List.map_congr_left
      intro x hx
      rw [if_neg]
      · rfl
      · intro e
        exact hn.1 x hx (e.trans hs.symm)
    · next hs =>
      cases hu : updateStatus id st l with
      | none => rw [hu] at h; simp at h
      | some m =>
        rw [hu] at h
        cases h
        obtain ⟨h1, x, hx, h2⟩ := ih hu hn.2
        refine ⟨?_, x, .tail _ hx, h2⟩
        simp only [List.map_cons, hs, if_false]
        rw [← h1]

/-- What holds in every state: `done` are the shipments that the queue master is through with, `lost` those whose insert
failed. -/
private structure Inv (pushed done lost : List Shipment) (σ : State) : Prop where
  order : pushed = done ++ σ.master.toList ++ σ.queue
  kept : ∃ posted, σ.db = posted.map (fun s => if s ∈ done then { s with status := shipped } else s) ∧
    (posted ++ σ.inserting ++ lost).Perm pushed
  stored : ∀ s ∈ done, ∃ r ∈ σ.db, r.id = s.id

private theorem eraseIdx_perm {α : Type} {l : List α} {i : Nat} {s : α} (h : l[i]? = some s) :
    (s :: l.eraseIdx i).Perm l := by
  induction l generalizing i with
  | nil => simp at h
  | cons a l ih =>
    cases i with
    | zero => simp at h; simp [h]
    | succ i =>
      simp only [List.getElem?_cons_succ] at h
      simp only [List.eraseIdx_cons_succ]
      exact (List.Perm.swap ..).trans ((ih h).cons a)

private theorem posted_ids {posted done : List Shipment} :
    (posted.map (fun s => if s ∈ done then { s with status := shipped } else s)).map (·.id) = posted.map (·.id) := by
  rw [List.map_map]
  apply List.map_congr_left
  intro s _
  simp only [Function.comp]
  split <;> rfl

private theorem unique_id {l : List Shipment} (h : (l.map (·.id)).Nodup) {x y : Shipment} (hx : x ∈ l) (hy : y ∈ l)
    (e : x.id = y.id) : x = y := by
  induction l with
  | nil => simp at hx
  | cons a l ih =>
    simp only [List.map_cons, List.nodup_cons, List.mem_map, not_exists, not_and] at h
    rcases List.mem_cons.1 hx with h1 | h1 <;> rcases List.mem_cons.1 hy with h2 | h2
    · rw [h1, h2]
    · exact absurd (by rw [← e, h1]) (h.1 y h2)
    · exact absurd (by rw [e, h2]) (h.1 x h1)
    · exact ih h.2 h1 h2

/-- One step keeps the invariant; a failing insert adds at most one to `lost`. -/
private theorem inv_step {pushed done lost : List Shipment} {σ : State} (h : Inv pushed done lost σ) (a : Step)
    (hn : ((pushed ++ handedOver [a]).map (·.id)).Nodup) :
    ∃ done' lost', Inv (pushed ++ handedOver [a]) done' lost' (step σ a) ∧ ((∀ i, a ≠ .insertFails i) → lost' = lost) := by
  obtain ⟨ho, ⟨posted, hk, hp⟩, hs⟩ := h
  have hnp : (pushed.map (·.id)).Nodup := by
    rw [List.map_append, List.nodup_append] at hn
    exact hn.1
  cases a with
  | push s =>
    refine ⟨done, lost, ⟨?_, ⟨posted, hk, ?_⟩, hs⟩, fun _ => rfl⟩
    · simp only [step, handedOver, ho]
      simp
    · simp only [step, handedOver]
      have : (posted ++ (σ.inserting ++ [s]) ++ lost).Perm (posted ++ σ.inserting ++ lost ++ [s]) := by
        simp only [List.append_assoc]
        refine List.Perm.append_left _ (List.Perm.append_left _ ?_)
        exact List.perm_append_comm
      exact this.trans (List.Perm.append_right _ hp)
  | insert i =>
    simp only [handedOver, List.append_nil] at hn ⊢
    simp only [step]
    cases hi : σ.inserting[i]? with
    | none => exact ⟨done, lost, ⟨ho, ⟨posted, hk, hp⟩, hs⟩, fun _ => rfl⟩
    | some s =>
      simp only []
      have hpi := eraseIdx_perm hi
      by_cases hd : s ∈ done
      · -- it would be in the database already
        exfalso
        obtain ⟨r, hr, e⟩ := hs s hd
        rw [hk] at hr
        obtain ⟨x, hx, rfl⟩ := List.mem_map.1 hr
        have hx' : x.id = s.id := by
          rw [← e]; split <;> rfl
        have hnn : ((posted ++ σ.inserting ++ lost).map (·.id)).Nodup := (hp.map _).nodup_iff.2 hnp
        rw [List.map_append, List.map_append, List.nodup_append, List.nodup_append] at hnn
        have := hnn.1.2.2 x.id (List.mem_map.2 ⟨x, hx, rfl⟩) s.id
          (List.mem_map.2 ⟨s, List.mem_of_getElem? hi, rfl⟩)
        exact this hx'
      · refine ⟨done, lost, ⟨ho, ⟨posted ++ [s], ?_, ?_⟩, ?_⟩, fun _ => rfl⟩
        · simp only [List.map_append, List.map_cons, List.map_nil, hd, if_false, hk]
        · refine List.Perm.trans ?_ hp
          simp only [List.append_assoc]
          refine List.Perm.append_left _ ?_
          rw [← List.append_assoc, List.singleton_append]
          exact List.Perm.append_right _ hpi
        · intro x hx
          obtain ⟨r, hr, e⟩ := hs x hx
          exact ⟨r, by simp [hr], e⟩
  | insertFails i =>
    simp only [handedOver, List.append_nil] at hn ⊢
    simp only [step]
    cases hi : σ.inserting[i]? with
    | none =>
      refine ⟨done, lost, ⟨ho, ⟨posted, hk, ?_⟩, hs⟩, fun _ => rfl⟩
      rw [List.getElem?_eq_none_iff] at hi
      rw [List.eraseIdx_of_length_le hi]
      exact hp
    | some s =>
      have hpi := eraseIdx_perm hi
      refine ⟨done, s :: lost, ⟨ho, ⟨posted, hk, ?_⟩, hs⟩, fun h => absurd rfl (h i)⟩
      refine List.Perm.trans ?_ hp
      simp only [List.append_assoc]
      refine List.Perm.append_left _ ?_
      refine List.Perm.trans List.perm_middle ?_
      exact List.Perm.append_right _ hpi
  | pop =>
    simp only [handedOver, List.append_nil] at hn ⊢
    simp only [step]
    split
    · next s queue hm hq =>
      refine ⟨done, lost, ⟨?_, ⟨posted, hk, hp⟩, hs⟩, fun _ => rfl⟩
      rw [ho, hm, hq]
      simp
    · exact ⟨done, lost, ⟨ho, ⟨posted, hk, hp⟩, hs⟩, fun _ => rfl⟩
  | update =>
    simp only [handedOver, List.append_nil] at hn ⊢
    simp only [step]
    cases hm : σ.master with
    | none => exact ⟨done, lost, ⟨by rw [ho], ⟨posted, hk, hp⟩, hs⟩, fun _ => rfl⟩
    | some s =>
      simp only []
      cases hu : updateStatus s.id shipped σ.db with
      | none => exact ⟨done, lost, ⟨by rw [ho], ⟨posted, hk, hp⟩, hs⟩, fun _ => rfl⟩
      | some db =>
        simp only []
        have hnn : ((posted ++ σ.inserting ++ lost).map (·.id)).Nodup := (hp.map _).nodup_iff.2 hnp
        have hnposted : (posted.map (·.id)).Nodup := by
          rw [List.map_append, List.map_append, List.nodup_append, List.nodup_append] at hnn
          exact hnn.1.1
        have hndb : (σ.db.map (·.id)).Nodup := by rw [hk, posted_ids]; exact hnposted
        obtain ⟨e, r, hr, er⟩ := update_some hu hndb
        have hmem : s ∈ pushed := by rw [ho, hm]; simp
        refine ⟨done ++ [s], lost, ⟨?_, ⟨posted, ?_, hp⟩, ?_⟩, fun _ => rfl⟩
        · rw [ho, hm]; simp
        · rw [e, hk, List.map_map]
          apply List.map_congr_left
          intro x hx
          simp only [Function.comp, List.mem_append, List.mem_singleton]
          have hxp : x ∈ pushed := hp.mem_iff.1 (by simp [hx])
          have hxs : x.id = s.id ↔ x = s := ⟨fun e => unique_id hnp hxp hmem e, fun e => by rw [e]⟩
          by_cases hd : x ∈ done
          · simp only [hd, if_true, true_or]
            by_cases hxs' : x.id = s.id
            · simp [hxs']
            · simp [hxs']
          · simp only [hd, if_false, false_or]
            by_cases hxs' : x = s
            · simp [hxs']
            · simp [hxs', hxs]
        · intro x hx
          have key : ∀ y ∈ σ.db, ∃ z ∈ db, z.id = y.id := by
            intro y hy
            refine ⟨if y.id = s.id then { y with status := shipped } else y, ?_, by split <;> rfl⟩
            rw [e]
            exact List.mem_map.2 ⟨y, hy, rfl⟩
          rcases List.mem_append.1 hx with hx | hx
          · obtain ⟨y, hy, e1⟩ := hs x hx
            obtain ⟨z, hz, e2⟩ := key y hy
            exact ⟨z, hz, e2.trans e1⟩
          · rw [List.mem_singleton] at hx
            subst hx
            obtain ⟨z, hz, e2⟩ := key r hr
            exact ⟨z, hz, e2.trans er⟩
  | updateFails =>
    simp only [handedOver, List.append_nil] at hn ⊢
    exact ⟨done, lost, ⟨ho, ⟨posted, hk, hp⟩, hs⟩, fun _ => rfl⟩

private theorem handed_append (l m : List Step) : handedOver (l ++ m) = handedOver l ++ handedOver m := by
  induction l with
  | nil => rfl
  | cons a l ih => cases a <;> simp [handedOver, ih]

private theorem inv_exec (l : List Step) {pushed done lost : List Shipment} {σ : State} (h : Inv pushed done lost σ)
    (hn : ((pushed ++ handedOver l).map (·.id)).Nodup) :
    ∃ done' lost', Inv (pushed ++ handedOver l) done' lost' (exec σ l) ∧ (NoLoss l → lost' = lost) := by
  induction l generalizing pushed done lost σ with
  | nil =>
    refine ⟨done, lost, ?_, fun _ => rfl⟩
    simp only [handedOver, List.append_nil]
    exact h
  | cons a l ih =>
    have e : pushed ++ handedOver (a :: l) = (pushed ++ handedOver [a]) ++ handedOver l := by
      rw [show a :: l = [a] ++ l from rfl, handed_append, List.append_assoc]
    rw [e] at hn ⊢
    have hn1 : ((pushed ++ handedOver [a]).map (·.id)).Nodup := by
      rw [List.map_append, List.nodup_append] at hn
      exact hn.1
    obtain ⟨d1, l1, h1, e1⟩ := inv_step h a hn1
    obtain ⟨d2, l2, h2, e2⟩ := ih h1 hn
    refine ⟨d2, l2, h2, ?_⟩
    intro hl
    rw [e2 fun i hi => hl i (.tail _ hi), e1 fun i hi => hl i (by simp [hi])]

private theorem inv_init : Inv [] [] [] State.init := ⟨rfl, ⟨[], rfl, by simp [State.init]⟩, by simp⟩

private theorem inv_reached (l : List Step) (hn : ((handedOver l).map (·.id)).Nodup) :
    ∃ done lost, Inv (handedOver l) done lost (exec State.init l) ∧ (NoLoss l → lost = []) := by
  have := inv_exec l inv_init (by simpa using hn)
  simpa using this

/-- C82: in every schedule of calls and queue master, with any failures, a shipment that can be looked up has the
identifier and name it was handed over with, and its status is "shipped" exactly when it waits no more, and else the
status it was handed over with.  The waiting shipments are the latest ones, in order: the queue master takes them one by
one, without leaving one out or taking one twice. -/
theorem C82_status (l : List Step) (hn : ((handedOver l).map (·.id)).Nodup) :
    (∀ id r, getShipment (exec State.init l) id = some r → ∃ s ∈ handedOver l, s.id = id ∧
      (((exec State.init l).waiting s ∧ r = s) ∨ (¬ (exec State.init l).waiting s ∧ r = { s with status := shipped }))) ∧
    ∃ done, handedOver l = done ++ ((exec State.init l).master.toList ++ (exec State.init l).queue) := by
  obtain ⟨done, lost, ⟨ho, ⟨posted, hk, hp⟩, hs⟩, -⟩ := inv_reached l hn
  refine ⟨?_, done, by rw [← List.append_assoc]; exact ho⟩
  intro id r hr
  have hm := List.mem_of_find?_eq_some hr
  have hid : r.id = id := by simpa using List.find?_some hr
  rw [hk] at hm
  obtain ⟨s, hs', e⟩ := List.mem_map.1 hm
  have hsp : s ∈ handedOver l := hp.mem_iff.1 (by simp [hs'])
  refine ⟨s, hsp, ?_, ?_⟩
  · rw [← hid, ← e]; split <;> rfl
  · have hdist : ∀ x ∈ done, ¬ (exec State.init l).waiting x := by
      intro x hx hw
      rw [ho, List.append_assoc, List.map_append, List.nodup_append] at hn
      refine hn.2.2 x.id (List.mem_map.2 ⟨x, hx, rfl⟩) x.id ?_ rfl
      apply List.mem_map_of_mem
      rcases hw with hw | hw
      · exact List.mem_append_right _ hw
      · rw [hw]; simp
    by_cases hd : s ∈ done
    · exact .inr ⟨hdist s hd, by rw [← e, if_pos hd]⟩
    · refine .inl ⟨?_, by rw [← e, if_neg hd]⟩
      rw [ho] at hsp
      simp only [List.mem_append, hd, false_or] at hsp
      rcases hsp with h | h
      · exact .inr (by simpa using h)
      · exact .inl h

private theorem exec_append (σ : State) (l m : List Step) : exec σ (l ++ m) = exec (exec σ l) m := List.foldl_append ..

/-- Rounds of the queue master, with every shipment in the database. -/
private theorem drain (n : Nat) (σ : State) (hlen : σ.queue.length ≤ n) (hdb : ∀ s ∈ σ.master.toList ++ σ.queue, ∃ r ∈ σ.db, r.id = s.id) :
    (exec σ (rounds (n + 1))).queue = [] ∧ (exec σ (rounds (n + 1))).master = none ∧
      (exec σ (rounds (n + 1))).inserting = σ.inserting := by
  have upd : ∀ (τ : State), (∀ s ∈ τ.master.toList ++ τ.queue, ∃ r ∈ τ.db, r.id = s.id) →
      (step τ .update).master = none ∧ (step τ .update).queue = τ.queue ∧ (step τ .update).inserting = τ.inserting ∧
        ∀ s, (∃ r ∈ τ.db, r.id = s) → ∃ r ∈ (step τ .update).db, r.id = s := by
    intro τ hτ
    simp only [step]
    cases hm : τ.master with
    | none => exact ⟨hm, rfl, rfl, fun s h => h⟩
    | some s =>
      simp only []
      obtain ⟨r, hr, e⟩ := hτ s (by simp [hm])
      cases hu : updateStatus s.id shipped τ.db with
      | none => exact absurd e (update_none.1 hu r hr)
      | some db =>
        refine ⟨rfl, rfl, rfl, ?_⟩
        simp only []
        have : ∀ (l l' : List Shipment), updateStatus s.id shipped l = some l' → l'.map (·.id) = l.map (·.id) := by
          intro l
          induction l with
          | nil => simp [updateStatus]
          | cons a l ih =>
            intro l' h
            simp only [updateStatus] at h
            split at h
            · cases h; rfl
            · cases hx : updateStatus s.id shipped l with
              | none => rw [hx] at h; simp at h
              | some m =>
                rw [hx] at h
                cases h
                simp [ih m hx]
        intro x ⟨r', hr', e'⟩
        have hmem : r'.id ∈ db.map (·.id) := by rw [this _ _ hu]; exact List.mem_map_of_mem hr'
        obtain ⟨z, hz, ez⟩ := List.mem_map.1 hmem
        exact ⟨z, hz, ez.trans e'⟩
  induction n generalizing σ with
  | zero =>
    have hq : σ.queue = [] := List.length_eq_zero_iff.1 (by omega)
    obtain ⟨h1, h2, h3, -⟩ := upd σ hdb
    show (step (step σ .update) .pop).queue = [] ∧ (step (step σ .update) .pop).master = none ∧
      (step (step σ .update) .pop).inserting = _
    rw [hq] at h2
    generalize step σ .update = τ at h1 h2 h3
    simp only [step, h1, h2, h3, and_self]
  | succ n ih =>
    obtain ⟨h1, h2, h3, h4⟩ := upd σ hdb
    show (exec (step (step σ .update) .pop) (rounds (n + 1))).queue = [] ∧
      (exec (step (step σ .update) .pop) (rounds (n + 1))).master = none ∧
      (exec (step (step σ .update) .pop) (rounds (n + 1))).inserting = _
    generalize step σ .update = τ at h1 h2 h3 h4
    have hpop : (step τ .pop).inserting = σ.inserting ∧ (step τ .pop).queue.length ≤ n ∧
        ∀ s ∈ (step τ .pop).master.toList ++ (step τ .pop).queue, ∃ r ∈ (step τ .pop).db, r.id = s.id := by
      simp only [step, h1]
      cases hq : τ.queue with
      | nil => simp only [h1, h3, hq]; simp
      | cons s q =>
        simp only [h3, Option.toList_some, List.singleton_append]
        refine ⟨trivial, ?_, ?_⟩
        · rw [← h2, hq] at hlen
          simp at hlen
          omega
        · intro x hx
          apply h4
          apply hdb
          rw [← h2, hq]
          exact List.mem_append_right _ hx
    obtain ⟨g1, g2, g3⟩ := hpop
    obtain ⟨i1, i2, i3⟩ := ih (step τ .pop) g2 g3
    exact ⟨i1, i2, by rw [i3, g1]⟩

private theorem handed_rounds (n : Nat) : handedOver (rounds n) = [] := by
  induction n with
  | zero => rfl
  | succ n ih => exact ih

private theorem noLoss_rounds (n : Nat) : NoLoss (rounds n) := by
  intro i
  induction n with
  | zero => simp [rounds]
  | succ n ih => simp [rounds, ih]

/-- C82: in any schedule in which no insert fails, once all `PostShipping` calls have returned, the queue master needs as many rounds as
there are shipments in the queue, and one more, to ship everything: every shipment handed over can be looked up and is
shipped.  Missing from the full property: failing inserts (`C82_stuck_refuted`). -/
theorem C82_all_shipped_partial (l : List Step) (hn : ((handedOver l).map (·.id)).Nodup) (hl : NoLoss l)
    (hi : (exec State.init l).inserting = []) (n : Nat) (hq : (exec State.init l).queue.length ≤ n) :
    ∀ s ∈ handedOver l, getShipment (exec State.init (l ++ rounds (n + 1))) s.id = some { s with status := shipped } := by
  obtain ⟨done, lost, ⟨ho, ⟨posted, hk, hp⟩, hs⟩, hlost⟩ := inv_reached l hn
  have hlost := hlost hl
  subst hlost
  simp only [hi, List.append_nil] at hp
  have hdb : ∀ s ∈ (exec State.init l).master.toList ++ (exec State.init l).queue, ∃ r ∈ (exec State.init l).db, r.id = s.id := by
    intro s hs'
    have : s ∈ posted := hp.mem_iff.2 (by rw [ho, List.append_assoc]; exact List.mem_append_right _ hs')
    have hid : s.id ∈ (exec State.init l).db.map (·.id) := by rw [hk, posted_ids]; exact List.mem_map_of_mem this
    obtain ⟨r, hr, e⟩ := List.mem_map.1 hid
    exact ⟨r, hr, e⟩
  obtain ⟨d1, d2, d3⟩ := drain n (exec State.init l) hq hdb
  have hho : handedOver (l ++ rounds (n + 1)) = handedOver l := by rw [handed_append, handed_rounds, List.append_nil]
  obtain ⟨done', lost', ⟨ho', ⟨posted', hk', hp'⟩, hs'⟩, hlost'⟩ := inv_reached (l ++ rounds (n + 1)) (by rw [hho]; exact hn)
  have hlost' := hlost' (by
    intro i h
    rcases List.mem_append.1 h with h | h
    · exact hl i h
    · exact noLoss_rounds _ i h)
  subst hlost'
  rw [exec_append] at ho' hk' hp'
  rw [d3, hi, hho] at hp'
  rw [d1, d2, hho] at ho'
  simp only [Option.toList_none, List.append_nil] at ho' hp'
  intro s hsm
  have hsp : s ∈ posted' := hp'.mem_iff.2 hsm
  have hnp : (posted'.map (·.id)).Nodup := (hp'.map _).nodup_iff.2 hn
  unfold getShipment
  rw [exec_append, hk']
  have hall : posted'.map (fun s => if s ∈ done' then { s with status := shipped } else s) =
      posted'.map fun s => { s with status := shipped } := by
    apply List.map_congr_left
    intro x hx
    rw [if_pos]
    rw [← ho']
    exact hp'.mem_iff.1 hx
  rw [hall, List.find?_map]
  have : posted'.find? ((fun r => decide (r.id = s.id)) ∘ fun s => ({ s with status := shipped } : Shipment)) = some s := by
    clear hall hk' hp' hs' ho'
    induction posted' with
    | nil => simp at hsp
    | cons x xs ih =>
      simp only [List.map_cons, List.nodup_cons, List.mem_map, not_exists, not_and] at hnp
      rw [List.find?_cons]
      simp only [Function.comp]
      by_cases hx : x.id = s.id
      · simp only [hx, decide_true]
        rcases List.mem_cons.1 hsp with h1 | h1
        · rw [h1]
        · exact absurd hx.symm (hnp.1 s h1)
      · simp only [hx, decide_false]
        rcases List.mem_cons.1 hsp with h1 | h1
        · exact absurd (by rw [h1]) hx
        · exact ih h1 hnp.2
  rw [this]
  rfl

/-- C82 refuted: if the insert of a shipment fails after the shipment has been queued, and the queue master takes it, the queue
master is stuck with it for ever: whatever happens from then on, the statuses of all other shipments stay as they are, also of
those handed over later. -/
theorem C82_stuck_refuted (σ : State) (s : Shipment) (hm : σ.master = some s) (hdb : ∀ r ∈ σ.db, r.id ≠ s.id)
    (hi : ∀ r ∈ σ.inserting, r.id ≠ s.id) (l : List Step) (hl : ∀ x ∈ handedOver l, x.id ≠ s.id) :
    (exec σ l).master = some s ∧ (∃ later, (exec σ l).queue = σ.queue ++ later) ∧
      ∀ r ∈ (exec σ l).db, r ∈ σ.db ∨ r ∈ σ.inserting ∨ r ∈ handedOver l := by
  induction l generalizing σ with
  | nil => exact ⟨hm, ⟨[], by simp [exec]⟩, fun r hr => .inl hr⟩
  | cons a l ih =>
    have key : (step σ a).master = some s ∧ (∀ r ∈ (step σ a).db, r ∈ σ.db ∨ r ∈ σ.inserting) ∧
        (∀ r ∈ (step σ a).inserting, r ∈ σ.inserting ∨ r ∈ handedOver [a]) ∧ ∃ later, (step σ a).queue = σ.queue ++ later := by
      cases a with
      | push x =>
        refine ⟨hm, fun r hr => .inl hr, ?_, [x], rfl⟩
        intro r hr
        simpa [step, handedOver] using hr
      | insert i =>
        simp only [step]
        cases hx : σ.inserting[i]? with
        | none => exact ⟨hm, fun r hr => .inl hr, fun r hr => .inl hr, [], by simp⟩
        | some x =>
          refine ⟨hm, ?_, fun r hr => .inl (List.mem_of_mem_eraseIdx hr), [], by simp⟩
          intro r hr
          rcases List.mem_append.1 hr with hr | hr
          · exact .inl hr
          · rw [List.mem_singleton] at hr
            subst hr
            exact .inr (List.mem_of_getElem? hx)
      | insertFails i =>
        exact ⟨hm, fun r hr => .inl hr, fun r hr => .inl (List.mem_of_mem_eraseIdx hr), [], by simp [step]⟩
      | pop =>
        simp only [step, hm]
        exact ⟨trivial, fun r hr => .inl hr, fun r hr => .inl hr, [], by simp⟩
      | update =>
        simp only [step, hm, update_none.2 hdb]
        exact ⟨trivial, fun r hr => .inl hr, fun r hr => .inl hr, [], by simp⟩
      | updateFails => exact ⟨hm, fun r hr => .inl hr, fun r hr => .inl hr, [], by simp [step]⟩
    obtain ⟨k1, k2, k3, later, k4⟩ := key
    have e : handedOver (a :: l) = handedOver [a] ++ handedOver l := handed_append [a] l
    rw [e] at hl ⊢
    obtain ⟨i1, ⟨later', i2⟩, i3⟩ := ih (step σ a) k1
      (fun r hr => (k2 r hr).elim (hdb r) (hi r))
      (fun r hr => (k3 r hr).elim (hi r) (fun h => hl r (List.mem_append_left _ h)))
      (fun x hx => hl x (List.mem_append_right _ hx))
    refine ⟨i1, ⟨later ++ later', ?_⟩, ?_⟩
    · show (exec (step σ a) l).queue = _
      rw [i2, k4, List.append_assoc]
    · intro r hr
      rcases i3 r hr with h | h | h
      · rcases k2 r h with h | h
        · exact .inl h
        · exact .inr (.inl h)
      · rcases k3 r h with h | h
        · exact .inr (.inl h)
        · exact .inr (.inr (List.mem_append_left _ h))
      · exact .inr (.inr (List.mem_append_right _ h))

/-! ### Concrete cases -/

private def s1 : Shipment := ⟨['1'], ['a'], ['w']⟩
private def s2 : Shipment := ⟨['2'], ['b'], ['w']⟩

-- C82_status, C82_all_shipped_partial: the first shipment is taken before it is in the database
private def good : List Step := [.push s1, .pop, .update, .push s2, .updateFails, .insert 1, .update, .insert 0]

example : ((handedOver good).map (·.id)).Nodup ∧ (exec State.init good).inserting = [] ∧ (exec State.init good).queue.length ≤ 1 := by
  decide
example : NoLoss good := by intro i; simp [good]
example : getShipment (exec State.init good) ['1'] = some s1 := by decide
example : getShipment (exec State.init (good ++ rounds 2)) ['2'] = some { s2 with status := shipped } := by decide

-- C82_stuck_refuted: the first insert fails, the second shipment is never shipped
private def bad : List Step := [.push s1, .push s2, .insertFails 0, .insert 0, .pop]
example : (exec State.init bad).master = some s1 ∧ (∀ r ∈ (exec State.init bad).db, r.id ≠ s1.id) ∧
    (∀ r ∈ (exec State.init bad).inserting, r.id ≠ s1.id) := by decide

end Verif.Shipping
