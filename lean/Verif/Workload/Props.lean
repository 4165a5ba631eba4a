import Verif.Workload.Lemmas
/-
C08 and C09: the workload generator.
-/
namespace Verif.Workload

/-- C08 for non-negative proportions: if IsValid accepts the workload and the APIs have distinct request
functions, then (whatever order the sort leaves equal entries in) each of the draws 0..99 selects the
request function of one of the APIs, and each API is selected by exactly as many draws as its proportion.
Missing from the full property: negative proportions, which IsValid accepts
(`C08_negative_proportions_refuted`). -/
theorem C08_draws_match_proportions_partial (apis sorted : List Api) (hs : IsSorted apis sorted)
    (hv : isValid apis = true) (hfn : (apis.map (·.fn)).Nodup) (hpos : ∀ a ∈ apis, 0 ≤ a.proportion) :
    (∀ n, n < 100 → ∃ a ∈ apis, propMap sorted n = some a.fn) ∧
    (∀ a ∈ apis, (draws (propMap sorted) a.fn : Int) = a.proportion) := by
  have htot : total apis = 100 := by simpa [isValid] using hv
  have hp := flat_perm hs.1
  have hlen : (flat sorted).length = 100 := by
    have h1 := flat_length apis hpos
    have h2 := hp.length_eq
    omega
  refine ⟨?_, ?_⟩
  · intro n hn
    have hm : (flat sorted)[n]'(by omega) ∈ flat apis := hp.mem_iff.1 (List.getElem_mem _)
    simp only [flat, List.mem_flatMap, List.mem_replicate] at hm
    obtain ⟨a, ha, _, hf⟩ := hm
    refine ⟨a, ha, ?_⟩
    rw [propMap_eq, List.getElem?_eq_getElem (by omega)]
    exact congrArg some hf
  · intro a ha
    have : draws (propMap sorted) a.fn = (flat sorted).count a.fn := by
      rw [← range_filter_count, hlen]
      simp only [draws, propMap_eq]
    rw [this, hp.count_eq, count_flat apis hfn a ha]
    have := hpos a ha
    omega

/-- C08, for every workload accepted by IsValid, also with negative proportions: every draw selects the
request function of one of the APIs, so no draw finds a nil function. -/
theorem C08_every_draw_selects_an_api (apis sorted : List Api) (hs : IsSorted apis sorted)
    (hv : isValid apis = true) (n : Nat) (hn : n < 100) :
    ∃ a ∈ apis, 0 < a.proportion ∧ propMap sorted n = some a.fn := by
  have htot : total apis = 100 := by simpa [isValid] using hv
  have hp := flat_perm hs.1
  have hlen : 100 ≤ (flat sorted).length := by
    have h1 := flat_length_ge apis
    have h2 := hp.length_eq
    omega
  have hm : (flat sorted)[n]'(by omega) ∈ flat apis := hp.mem_iff.1 (List.getElem_mem _)
  simp only [flat, List.mem_flatMap, List.mem_replicate] at hm
  obtain ⟨a, ha, hne, hf⟩ := hm
  refine ⟨a, ha, by omega, ?_⟩
  rw [propMap_eq, List.getElem?_eq_getElem (by omega)]
  exact congrArg some hf

/-- C08 refuted in general: the proportions 60, 60, -20 are accepted, and then the second API gets 40 of
the 100 draws instead of 60. -/
theorem C08_negative_proportions_refuted :
    ∃ apis : List Api, isValid apis = true ∧ (apis.map (·.fn)).Nodup ∧ IsSorted apis apis ∧
      ∃ a ∈ apis, 0 ≤ a.proportion ∧ (draws (propMap apis) a.fn : Int) ≠ a.proportion := by
  refine ⟨[⟨0, 60⟩, ⟨1, 60⟩, ⟨2, -20⟩], by decide, by decide, ⟨.refl _, by decide⟩, ⟨1, 60⟩, by decide, by decide, ?_⟩
  have : draws (propMap [⟨0, 60⟩, ⟨1, 60⟩, ⟨2, -20⟩]) 1 = 40 := by
    simp only [draws, propMap_eq]
    decide
  simp [this]

/-- C09: when the run has returned, the statistics contain exactly one record per request started, and
they are exactly the records the requests returned. -/
theorem C09_one_record_per_request (m : PropMap) (cap : Nat) (acts : List Act) (s : State)
    (h : exec m (init cap) acts = some s) (hret : s.main = .returned) :
    s.stats.Perm (results s.log) ∧ (s.stats.map (·.1)).Perm (started s.log) ∧ (started s.log).Nodup := by
  have hi := inv_exec acts (inv_init cap) h
  have hcd := hi.ret hret
  have hcl := (hi.collector hcd)
  have hq := hi.quiet hcl.1
  have h1 := hi.resultsPerm
  have h2 := hi.startedPerm
  rw [hq.2.1, hcl.2] at h1
  rw [hq.1] at h2
  refine ⟨by simpa using h1.symm, ?_, ?_⟩
  · exact ((by simpa using h1.symm : s.stats.Perm (results s.log)).map _).trans (by simpa using h2.symm)
  · rw [hi.startedRange]; exact List.nodup_range

/-- C09, the printed report: the number of requests printed is the number started, and the number of errors
printed is the number of requests that ended with an error. -/
theorem C09_report_counts (m : PropMap) (cap : Nat) (acts : List Act) (s : State)
    (h : exec m (init cap) acts = some s) (hret : s.main = .returned) :
    (printStats (s.stats.map (·.2))).1 = (started s.log).length ∧
    (printStats (s.stats.map (·.2))).2.1 = ((results s.log).countP (·.2.isError) : Nat) := by
  obtain ⟨h1, h2, _⟩ := C09_one_record_per_request m cap acts s h hret
  rw [printStats_eq]
  refine ⟨?_, ?_⟩
  · have := h2.length_eq; simp at this ⊢; omega
  · simp only [List.countP_map]
    rw [← h1.countP_eq]
    rfl

/-- C09, the printed average latency: it is computed from the sum of the durations of all requests started.
Simplification: the sum is not cut to 64 bits. -/
theorem C09_report_latency (m : PropMap) (cap : Nat) (acts : List Act) (s : State)
    (h : exec m (init cap) acts = some s) (hret : s.main = .returned) :
    (printStats (s.stats.map (·.2))).2.2 = ((results s.log).map (·.2.duration)).sum := by
  obtain ⟨h1, -, -⟩ := C09_one_record_per_request m cap acts s h hret
  have hs : ∀ {l l' : List Int}, l.Perm l' → l.sum = l'.sum := by
    intro l l' hp
    induction hp with
    | nil => rfl
    | cons x _ ih => simp only [List.sum_cons, ih]
    | swap x y l => simp only [List.sum_cons]; omega
    | trans _ _ ih1 ih2 => exact ih1.trans ih2
  rw [printStats_eq]
  simp only [List.map_map]
  exact hs (h1.map _)

/-- C09, at any moment of the run no record has been invented or duplicated. -/
theorem C09_no_record_invented (m : PropMap) (cap : Nat) (acts : List Act) (s : State)
    (h : exec m (init cap) acts = some s) :
    (s.stats.map (·.1)).Nodup ∧ ∀ x ∈ s.stats, x ∈ results s.log := by
  have hi := inv_exec acts (inv_init cap) h
  have hn : (started s.log).Nodup := by rw [hi.startedRange]; exact List.nodup_range
  refine ⟨?_, fun x hx => hi.resultsPerm.mem_iff.2 (by simp [hx])⟩
  have h1 := (hi.startedPerm.nodup_iff).1 hn
  have h2 := (List.nodup_append.1 h1).2.1
  have h3 := ((hi.resultsPerm.map (·.1)).nodup_iff).1 h2
  rw [List.map_append] at h3
  exact (List.nodup_append.1 h3).2.1

/-- C09, safety of the shutdown: with a proportion map that covers all draws (C08) no goroutine panics; in
particular no request sends on the closed channel. -/
theorem C09_no_panic (m : PropMap) (hm : ∀ n, n < 100 → m n ≠ none) (cap : Nat) (acts : List Act) (s : State)
    (h : exec m (init cap) acts = some s) : s.crashed = false := by
  suffices ∀ (acts : List Act) (s0 : State), Inv s0 → s0.crashed = false →
      ∀ s, exec m s0 acts = some s → s.crashed = false from
    this acts _ (inv_init cap) rfl s h
  intro acts
  induction acts with
  | nil => intro s0 _ hc s h; simp [exec] at h; exact h ▸ hc
  | cons a as ih =>
    intro s0 hi hc s h
    simp only [exec] at h
    cases hs : step m s0 a with
    | none => simp [hs] at h
    | some t =>
      simp only [hs] at h
      refine ih t (inv_step hi hs) ?_ s h
      cases a with
      | tick n =>
        simp only [step] at hs
        split at hs
        · rename_i hl
          obtain ⟨f, hf⟩ := Option.ne_none_iff_exists'.1 (hm n hl.2)
          simp only [hf] at hs; cases hs; exact hc
        · cases hs
      | send r st =>
        simp only [step] at hs
        split at hs
        · rename_i hmem
          split at hs
          · rename_i hcl
            have := (hi.quiet hcl).2.1
            simp [this] at hmem
          · split at hs
            · cases hs; exact hc
            · cases hs
        · cases hs
      | collect =>
        simp only [step] at hs
        split at hs
        · cases hs
        · split at hs
          · cases hs
          · cases hs; exact hc
      | _ =>
        simp only [step] at hs
        split at hs
        · cases hs; exact hc
        · cases hs

/-- Upper bound on the number of steps left once the launcher has stopped. -/
def remaining (s : State) : Nat :=
  4 * s.running.length + 3 * s.sending.length + s.leaving + s.buf.length + (if s.collectorDone then 0 else 1) +
    (match s.main with | .sleeping => 4 | .stopping => 3 | .waiting => 2 | .closed => 1 | .returned => 0)

/-- C09, the run ends: once the run's time is up, as long as it has not returned, some goroutine other than
the launcher's timer can take a step (possibly a request that has yet to return); and once the launcher has
stopped no schedule has more than `remaining s` steps.  Hence every run in which requests return ends. -/
theorem C09_run_ends (m : PropMap) (cap : Nat) (acts : List Act) (s : State)
    (h : exec m (init cap) acts = some s) (hup : timeIsUp s) :
    (s.main ≠ .returned → ∃ a s', (∀ n, a ≠ .tick n) ∧ step m s a = some s') ∧
    (s.launching = false → ∀ acts' s', exec m s acts' = some s' → acts'.length ≤ remaining s) := by
  have hi := inv_exec acts (inv_init cap) h
  refine ⟨?_, ?_⟩
  · intro hne
    by_cases hr : s.running = []
    · by_cases hsd : s.sending = []
      · by_cases hlv : 0 < s.leaving
        · exact ⟨.leave, _, by simp, by simp only [step, hlv, if_true]; rfl⟩
        · cases hm : s.main with
          | sleeping => exact absurd hm hup
          | stopping =>
            have hl := hi.launching.2 (.inr hm)
            exact ⟨.handshake, _, by simp, by simp only [step, hm, hl]; rfl⟩
          | waiting =>
            have hw : s.wg = 0 := by rw [hi.wg, hr, hsd]; simp; omega
            exact ⟨.wait, _, by simp, by simp only [step, hm, hw]; rfl⟩
          | closed =>
            have hc := hi.closed.2 (.inl hm)
            by_cases hcd : s.collectorDone = true
            · exact ⟨.ret, _, by simp, by simp only [step, hm, hcd]; rfl⟩
            · cases hb : s.buf with
              | nil => exact ⟨.exitCollector, _, by simp, by simp only [step, hc, hb, hcd]; rfl⟩
              | cons x rest => exact ⟨.collect, _, by simp, by simp only [step, hb, hcd]; rfl⟩
          | returned => exact absurd hm hne
      · obtain ⟨x, l, hx⟩ := List.exists_cons_of_ne_nil hsd
        have hmem : (x.1, x.2) ∈ s.sending := by rw [hx]; simp
        have hcl : s.chanClosed = false := by
          cases hc : s.chanClosed with
          | false => rfl
          | true => exact absurd (hi.quiet hc).2.1 hsd
        have hcd : s.collectorDone = false := by
          cases hc : s.collectorDone with
          | false => rfl
          | true => have := (hi.collector hc).1; simp [hcl] at this
        cases hb : s.buf with
        | nil => exact ⟨.handoff x.1 x.2, _, by simp, by simp only [step, hmem, hb, hcl, hcd]; rfl⟩
        | cons y rest => exact ⟨.collect, _, by simp, by simp only [step, hb, hcd]; rfl⟩
    · obtain ⟨x, l, hx⟩ := List.exists_cons_of_ne_nil hr
      have hmem : x ∈ s.running := by rw [hx]; simp
      exact ⟨.finish x ⟨0, 0, false⟩, _, by simp, by simp only [step, hmem, if_true]; rfl⟩
  · intro hl acts'
    clear h hup
    induction acts' generalizing s with
    | nil => intro s' _; simp
    | cons a as ih =>
      intro s' he
      simp only [exec] at he
      cases hs : step m s a with
      | none => simp [hs] at he
      | some t =>
        simp only [hs] at he
        have hit := inv_step hi hs
        suffices t.launching = false ∧ remaining t < remaining s by
          have := ih t hit this.1 s' he
          simp; omega
        clear ih he hit
        cases a with
        | tick n => simp [step, hl] at hs
        | timeUp =>
          simp only [step] at hs
          split at hs
          · rename_i hc; cases hs; exact ⟨hl, by simp [remaining, hc]⟩
          · cases hs
        | handshake => simp [step, hl] at hs
        | finish r st =>
          simp only [step] at hs
          split at hs
          · rename_i hc; cases hs
            have h1 := List.length_erase_of_mem hc
            have h2 := List.length_pos_of_mem hc
            exact ⟨hl, by simp [remaining, h1]; omega⟩
          · cases hs
        | send r st =>
          simp only [step] at hs
          split at hs
          · rename_i hc
            split at hs
            · rename_i hcl
              have := (hi.quiet hcl).2.1
              simp [this] at hc
            · split at hs
              · cases hs
                have h1 := List.length_erase_of_mem hc
                have h2 := List.length_pos_of_mem hc
                exact ⟨hl, by simp [remaining, h1]; omega⟩
              · cases hs
          · cases hs
        | handoff r st =>
          simp only [step] at hs
          split at hs
          · rename_i hc; cases hs
            have h1 := List.length_erase_of_mem hc.1
            have h2 := List.length_pos_of_mem hc.1
            exact ⟨hl, by simp [remaining, h1]; omega⟩
          · cases hs
        | leave =>
          simp only [step] at hs
          split at hs
          · cases hs; exact ⟨hl, by simp [remaining]; omega⟩
          · cases hs
        | collect =>
          simp only [step] at hs
          cases hb : s.buf with
          | nil => simp [hb] at hs
          | cons x rest =>
            simp only [hb] at hs
            split at hs
            · cases hs
            · cases hs; exact ⟨hl, by simp [remaining, hb]⟩
        | wait =>
          simp only [step] at hs
          split at hs
          · rename_i hc; cases hs; exact ⟨hl, by simp [remaining, hc.1]⟩
          · cases hs
        | exitCollector =>
          simp only [step] at hs
          split at hs
          · rename_i hc; cases hs; exact ⟨hl, by simp [remaining, hc.2.2]⟩
          · cases hs
        | ret =>
          simp only [step] at hs
          split at hs
          · rename_i hc; cases hs; exact ⟨hl, by simp [remaining, hc.1]⟩
          · cases hs

/-! ### Concrete cases -/

/-- A typical mix: 80 reads, 20 writes. -/
example : isValid [⟨0, 80⟩, ⟨1, 20⟩] = true ∧ IsSorted [⟨0, 80⟩, ⟨1, 20⟩] [⟨0, 80⟩, ⟨1, 20⟩] ∧
    ([⟨0, 80⟩, ⟨1, 20⟩].map Api.fn).Nodup := ⟨by decide, ⟨.refl _, by decide⟩, by decide⟩

/-- A run with two requests, one failing, that returns. -/
example : ∃ s, exec (propMap [⟨0, 100⟩]) (init 1)
      [.tick 3, .tick 5, .finish 1 ⟨0, 1, true⟩, .timeUp, .send 1 ⟨0, 1, true⟩, .handshake,
       .finish 0 ⟨0, 2, false⟩, .collect, .leave, .handoff 0 ⟨0, 2, false⟩, .leave, .wait, .exitCollector, .ret] = some s ∧
    s.main = .returned ∧ s.stats.length = 2 ∧ printStats (s.stats.map (·.2)) = (2, 1, 3) := by
  have h3 : propMap [⟨0, 100⟩] 3 = some 0 := by rw [propMap_eq]; decide
  have h5 : propMap [⟨0, 100⟩] 5 = some 0 := by rw [propMap_eq]; decide
  simp [exec, step, init, h3, h5, printStats]

end Verif.Workload
