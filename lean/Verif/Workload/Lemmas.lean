import Verif.Workload.Spec
/- Helper lemmas for C08 and C09. -/
namespace Verif.Workload

def flat (l : List Api) : List Nat := l.flatMap fun a => List.replicate a.proportion.toNat a.fn

theorem fill_eq (m : PropMap) (last fn n i k : Nat) :
    fill m last fn n i k = if last + i ≤ k ∧ k < last + i + n then some fn else m k := by
  induction n generalizing m i with
  | zero => simp [fill]; omega
  | succ n ih =>
    simp only [fill, ih]
    by_cases h1 : last + (i + 1) ≤ k ∧ k < last + (i + 1) + n
    · rw [if_pos h1, if_pos (by omega)]
    · rw [if_neg h1]
      by_cases h2 : k = last + i
      · rw [if_pos h2, if_pos (by omega)]
      · rw [if_neg h2, if_neg (by omega)]

theorem fillAll_eq (l : List Api) : ∀ (m : PropMap) (last : Nat), (∀ k, last ≤ k → m k = none) →
    ∀ k, fillAll m last l k = if k < last then m k else (flat l)[k - last]? := by
  induction l with
  | nil =>
    intro m last hm k
    simp only [fillAll, flat, List.flatMap_nil, List.getElem?_nil]
    split
    · rfl
    · exact hm k (by omega)
  | cons a as ih =>
    intro m last hm k
    simp only [fillAll]
    rw [ih]
    · simp only [flat, List.flatMap_cons, fill_eq]
      by_cases h1 : k < last
      · rw [if_pos (by omega), if_neg (by omega), if_pos h1]
      · rw [if_neg h1]
        by_cases h2 : k < last + a.proportion.toNat
        · rw [if_pos h2, if_pos (by omega), List.getElem?_append_left (by simp; omega)]
          simp [List.getElem?_replicate]; omega
        · rw [if_neg h2, List.getElem?_append_right (by simp; omega)]
          simp only [List.length_replicate]
          congr 1; omega
    · intro k hk
      rw [fill_eq, if_neg (by omega)]
      exact hm k (by omega)

theorem propMap_eq (l : List Api) (k : Nat) : propMap l k = (flat l)[k]? := by
  simp [propMap, fillAll_eq l (fun _ => none) 0 (fun _ _ => rfl) k]

theorem range_filter_count (L : List Nat) (f : Nat) :
    ((List.range L.length).filter fun n => L[n]? = some f).length = L.count f := by
  induction L with
  | nil => simp
  | cons a L ih =>
    rw [List.length_cons, List.range_succ_eq_map, List.filter_cons, List.count_cons]
    have : ((List.range L.length).map Nat.succ).filter (fun n => decide ((a :: L)[n]? = some f)) =
        ((List.range L.length).filter (fun n => decide (L[n]? = some f))).map Nat.succ := by
      rw [List.filter_map]; congr 1
    rw [this]
    by_cases h : a = f <;> simp [h] <;> simpa using ih

theorem flat_perm {a b : List Api} (h : a.Perm b) : (flat a).Perm (flat b) := by
  induction h with
  | nil => exact .refl _
  | cons x _ ih => simp only [flat, List.flatMap_cons]; exact ih.append_left _
  | swap x y l =>
    simp only [flat, List.flatMap_cons]
    rw [← List.append_assoc, ← List.append_assoc]
    exact (List.perm_append_comm).append_right _
  | trans _ _ i1 i2 => exact i1.trans i2

theorem total_cons (a : Api) (l : List Api) : total (a :: l) = a.proportion + total l := by
  suffices ∀ (l : List Api) (t : Int), l.foldl (fun t a => t + a.proportion) t =
      t + l.foldl (fun t a => t + a.proportion) 0 by
    simp only [total, List.foldl_cons]; rw [this]; omega
  intro l
  induction l with
  | nil => simp
  | cons a l ih => intro t; simp only [List.foldl_cons]; rw [ih, ih (0 + a.proportion)]; omega

theorem flat_length_ge (l : List Api) : total l ≤ ((flat l).length : Int) := by
  induction l with
  | nil => simp [total, flat]
  | cons a l ih =>
    rw [total_cons]
    simp only [flat, List.flatMap_cons, List.length_append, List.length_replicate] at ih ⊢
    push_cast; omega

theorem flat_length (l : List Api) (h : ∀ a ∈ l, 0 ≤ a.proportion) : ((flat l).length : Int) = total l := by
  induction l with
  | nil => simp [total, flat]
  | cons a l ih =>
    have := ih (fun x hx => h x (by simp [hx]))
    have ha := h a (by simp)
    rw [total_cons]
    simp only [flat, List.flatMap_cons, List.length_append, List.length_replicate] at this ⊢
    push_cast; omega

theorem count_flat_zero (l : List Api) (f : Nat) (h : f ∉ l.map (·.fn)) : (flat l).count f = 0 := by
  rw [List.count_eq_zero]
  intro hm
  simp only [flat, List.mem_flatMap, List.mem_replicate] at hm
  obtain ⟨a, ha, hf⟩ := hm
  exact h (List.mem_map.2 ⟨a, ha, hf.2.symm⟩)

theorem count_flat (l : List Api) (hn : (l.map (·.fn)).Nodup) (a : Api) (ha : a ∈ l) :
    (flat l).count a.fn = a.proportion.toNat := by
  induction l with
  | nil => simp at ha
  | cons b l ih =>
    simp only [List.map_cons, List.nodup_cons] at hn
    simp only [flat, List.flatMap_cons, List.count_append]
    rcases List.mem_cons.1 ha with rfl | ha
    · have := count_flat_zero l a.fn hn.1
      simp only [flat] at this
      simp [this]
    · have hne : b.fn ≠ a.fn := fun h => hn.1 (h ▸ List.mem_map.2 ⟨a, ha, rfl⟩)
      have := ih hn.2 ha
      simp only [flat] at this
      rw [this]
      simp [List.count_replicate, hne]

/-! ### The run of the engine -/

@[simp] theorem started_append (a b) : started (a ++ b) = started a ++ started b := by simp [started]
@[simp] theorem results_append (a b) : results (a ++ b) = results a ++ results b := by simp [results]
@[simp] theorem started_s (r) : started [.started r] = [r] := rfl
@[simp] theorem started_f (r s) : started [.finished r s] = [] := rfl
@[simp] theorem results_s (r) : results [.started r] = [] := rfl
@[simp] theorem results_f (r s) : results [.finished r s] = [(r, s)] := rfl

structure Inv (s : State) : Prop where
  startedRange : started s.log = List.range s.next
  startedPerm : (started s.log).Perm (s.running ++ (results s.log).map (·.1))
  resultsPerm : (results s.log).Perm (s.sending ++ s.buf ++ s.stats)
  wg : s.wg = s.running.length + s.sending.length + s.leaving
  launching : s.launching = true ↔ s.main = .sleeping ∨ s.main = .stopping
  closed : s.chanClosed = true ↔ s.main = .closed ∨ s.main = .returned
  quiet : s.chanClosed = true → s.running = [] ∧ s.sending = [] ∧ s.leaving = 0
  collector : s.collectorDone = true → s.chanClosed = true ∧ s.buf = []
  ret : s.main = .returned → s.collectorDone = true
  bufLe : s.buf.length ≤ s.cap

theorem inv_init (cap : Nat) : Inv (init cap) := by
  constructor <;> simp [init, started, results]

theorem inv_tick {s : State} (h : Inv s) (hl : s.launching = true) (cr : Bool) :
    Inv { s with crashed := cr, log := s.log ++ [.started s.next], next := s.next + 1,
                 running := s.next :: s.running, wg := s.wg + 1 } := by
  obtain ⟨h1, h2, h3, h4, h5, h6, h7, h8, h9, h10⟩ := h
  have hm := h5.1 hl
  refine ⟨?_, ?_, by simpa using h3, ?_, h5, h6, ?_, h8, h9, h10⟩
  · simp [h1, List.range_succ]
  · simp only [started_append, started_s, results_append, results_s, List.append_nil, List.cons_append]
    exact (List.perm_append_comm).trans (by simpa using h2)
  · simp [h4]; omega
  · intro hc
    have := h6.1 hc
    rcases hm with hm | hm <;> simp [hm] at this

theorem inv_step {m s a s'} (h : Inv s) (hs : step m s a = some s') : Inv s' := by
  have h0 := h
  obtain ⟨h1, h2, h3, h4, h5, h6, h7, h8, h9, h10⟩ := h
  cases a with
  | tick n =>
    simp only [step] at hs
    split at hs
    · rename_i hc
      cases hm : m n with
      | none => simp only [hm] at hs; cases hs; exact inv_tick h0 hc.1 true
      | some f => simp only [hm] at hs; cases hs; exact inv_tick h0 hc.1 s.crashed
    · cases hs
  | timeUp =>
    simp only [step] at hs
    split at hs
    · rename_i hc; cases hs
      refine ⟨h1, h2, h3, h4, ?_, ?_, h7, h8, by simp, h10⟩
      · simp [h5, hc]
      · simp [h6, hc]
    · cases hs
  | handshake =>
    simp only [step] at hs
    split at hs
    · rename_i hc; cases hs
      refine ⟨h1, h2, h3, h4, by simp, ?_, h7, h8, by simp, h10⟩
      simp [h6, hc.1]
    · cases hs
  | finish r st =>
    simp only [step] at hs
    split at hs
    · rename_i hc; cases hs
      have hp := List.perm_cons_erase hc
      refine ⟨by simpa using h1, ?_, ?_, ?_, h5, h6, ?_, h8, h9, h10⟩
      · simp only [started_append, started_f, List.append_nil, results_append, results_f, List.map_append,
          List.map_cons, List.map_nil]
        refine h2.trans ((hp.append_right _).trans ?_)
        rw [← List.append_assoc]
        exact (List.perm_append_singleton r _).symm
      · simp only [results_append, results_f]
        refine (List.perm_append_comm).trans ?_
        simpa using h3
      · have := List.length_erase_of_mem hc
        have hpos := List.length_pos_of_mem hc
        simp [h4, this]; omega
      · intro hcl
        have := h7 hcl
        simp [this.1] at hc
    · cases hs
  | send r st =>
    simp only [step] at hs
    split at hs
    · rename_i hc
      split at hs
      · cases hs; exact ⟨h1, h2, h3, h4, h5, h6, h7, h8, h9, h10⟩
      · rename_i hcl
        split at hs
        · rename_i hlen; cases hs
          have hp := List.perm_cons_erase hc
          refine ⟨h1, h2, ?_, ?_, h5, h6, fun hh => absurd hh hcl, ?_, h9, by simp; omega⟩
          · refine h3.trans ?_
            refine ((hp.append_right s.buf).append_right s.stats).trans ?_
            refine List.Perm.append_right _ ?_
            rw [← List.append_assoc]
            exact (List.perm_append_singleton _ _).symm
          · have := List.length_erase_of_mem hc
            have hpos := List.length_pos_of_mem hc
            simp [h4, this]; omega
          · intro hh; exact absurd (h8 hh).1 hcl
        · cases hs
    · cases hs
  | handoff r st =>
    simp only [step] at hs
    split at hs
    · rename_i hc; cases hs
      obtain ⟨hc, hb, hcl, hcd⟩ := hc
      have hp := List.perm_cons_erase hc
      refine ⟨h1, h2, ?_, ?_, h5, h6, fun hh => absurd hh hcl, fun hh => absurd hh hcd, h9, h10⟩
      · refine h3.trans ?_
        refine ((hp.append_right s.buf).append_right s.stats).trans ?_
        rw [← List.append_assoc]
        exact (List.perm_append_singleton _ _).symm
      · have := List.length_erase_of_mem hc
        have hpos := List.length_pos_of_mem hc
        simp [h4, this]; omega
    · cases hs
  | leave =>
    simp only [step] at hs
    split at hs
    · cases hs
      refine ⟨h1, h2, h3, by simp [h4]; omega, h5, h6, ?_, h8, h9, h10⟩
      intro hh; have := h7 hh; exact ⟨this.1, this.2.1, by simp [this.2.2]⟩
    · cases hs
  | collect =>
    simp only [step] at hs
    cases hb : s.buf with
    | nil => simp [hb] at hs
    | cons x rest =>
      simp only [hb] at hs
      split at hs
      · cases hs
      · rename_i hcd; cases hs
        refine ⟨h1, h2, ?_, h4, h5, h6, h7, fun hh => absurd hh hcd, h9, ?_⟩
        · refine h3.trans ?_
          rw [hb]
          simp only [List.append_assoc]
          refine List.Perm.append_left _ ?_
          rw [← List.append_assoc]
          exact (List.perm_append_singleton _ _).symm
        · simp [hb] at h10; simp; omega
  | wait =>
    simp only [step] at hs
    split at hs
    · rename_i hc; cases hs
      obtain ⟨hm, hw⟩ := hc
      refine ⟨h1, h2, h3, h4, ?_, by simp, ?_, ?_, by simp, h10⟩
      · simp [h5, hm]
      · intro _
        rw [h4] at hw
        exact ⟨List.length_eq_zero_iff.1 (show s.running.length = 0 by omega),
          List.length_eq_zero_iff.1 (show s.sending.length = 0 by omega), show s.leaving = 0 by omega⟩
      · intro hh; exact ⟨rfl, (h8 hh).2⟩
    · cases hs
  | exitCollector =>
    simp only [step] at hs
    split at hs
    · rename_i hc; cases hs
      exact ⟨h1, h2, h3, h4, h5, h6, h7, fun _ => ⟨hc.1, hc.2.1⟩, fun _ => rfl, h10⟩
    · cases hs
  | ret =>
    simp only [step] at hs
    split at hs
    · rename_i hc; cases hs
      refine ⟨h1, h2, h3, h4, ?_, ?_, h7, h8, fun _ => hc.2, h10⟩
      · simp [h5, hc.1]
      · simp [h6, hc.1]
    · cases hs

theorem inv_exec {m} (acts) : ∀ {s s'}, Inv s → exec m s acts = some s' → Inv s' := by
  induction acts with
  | nil => intro s s' h he; simp [exec] at he; exact he ▸ h
  | cons a as ih =>
    intro s s' h he
    simp only [exec] at he
    cases hs : step m s a with
    | none => simp [hs] at he
    | some t => simp only [hs] at he; exact ih (inv_step h hs) he

theorem printStats_eq (l : List Stat) : printStats l =
    ((l.length : Int), ((l.countP (·.isError) : Nat) : Int), (l.map (·.duration)).sum) := by
  suffices ∀ (l : List Stat) (a b c : Int), l.foldl (fun (x : Int × Int × Int) st =>
      (x.1 + 1, if st.isError then x.2.1 + 1 else x.2.1, x.2.2 + st.duration)) (a, b, c) =
      (a + l.length, b + (l.countP (·.isError) : Nat), c + (l.map (·.duration)).sum) by
    have := this l 0 0 0
    simpa [printStats] using this
  intro l
  induction l with
  | nil => simp
  | cons x l ih =>
    intro a b c
    simp only [List.foldl_cons, ih, List.length_cons, List.countP_cons, List.map_cons, List.sum_cons]
    refine Prod.ext ?_ (Prod.ext ?_ ?_)
    · simp; omega
    · cases x.isError <;> simp <;> omega
    · simp; omega

end Verif.Workload
