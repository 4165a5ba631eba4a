import Verif.Compile.Get
/-
A whole compilation ends, with everything that was asked for found.
-/
namespace Verif.Compile
open Verif.Wiring (Name Ptr)
variable {env : Env} {Legal : Space → Name → Prop} {spaces : List Space} {ptrs : List (Space × Name)} {cur : List Job}

theorem getChildren_mono {f f' : Nat} (hle : f ≤ f') {sp : Space} {x : St × Res} : ∀ (cs : List Name) (s : St),
    getChildren env f sp cs s = some x → getChildren env f' sp cs s = some x := by
  intro cs
  induction cs with
  | nil => intro s h; exact h
  | cons c cs ih =>
    intro s h
    rw [getChildren] at h ⊢
    cases hb : exec env f s (.get sp true c) with
    | none => rw [hb] at h; simp at h
    | some y =>
      rw [exec_mono env hle hb]
      rw [hb] at h
      obtain ⟨s', r⟩ := y
      cases r with
      | ok t => exact ih _ h
      | err => exact h
      | panic => exact h

theorem runJob_mono {f f' : Nat} (hle : f ≤ f') {s : St} {j : Job} {x : St × Res} (h : runJob env f s j = some x) :
    runJob env f' s j = some x := by
  cases j with
  | get n => exact exec_mono env hle h
  | children sp => exact getChildren_mono hle _ _ h
  | dst sp svc =>
    rw [runJob] at h ⊢
    cases hp : env.ptr svc with
    | none => rw [hp] at h; exact h
    | some p =>
      rw [hp] at h
      simp only at h ⊢
      cases hb : exec env f s (.get sp true p.interfaceNode) with
      | none => rw [hb] at h; simp at h
      | some y =>
        rw [exec_mono env hle hb]
        rw [hb] at h
        obtain ⟨s', r⟩ := y
        cases r with
        | ok t =>
          cases t with
          | addr a =>
            simp only at h ⊢
            split at h
            · next c => rw [if_pos c]; exact h
            · next c =>
              rw [if_neg c]
              cases hb' : exec env f s' (.get sp false (p.dstModifiers.headD "")) with
              | none => rw [hb'] at h; simp at h
              | some y =>
                rw [exec_mono env hle hb']
                rw [hb'] at h
                exact h
          | _ => exact h
        | err => exact h
        | panic => exact h

theorem runQueue_succ : ∀ (f : Nat) (s : St) (x : St × Ending), runQueue env f s = some x → runQueue env (f + 1) s = some x := by
  intro f
  induction f with
  | zero => intro s x h; simp [runQueue] at h
  | succ f ih =>
    intro s x h
    rw [runQueue] at h ⊢
    cases hq : s.queue with
    | nil => rw [hq] at h; exact h
    | cons j rest =>
      rw [hq] at h
      simp only at h ⊢
      cases hb : runJob env f { s with queue := rest } j with
      | none => rw [hb] at h; simp at h
      | some y =>
        rw [runJob_mono (Nat.le_succ f) hb]
        rw [hb] at h
        obtain ⟨s', r⟩ := y
        cases r with
        | ok t => exact ih _ _ h
        | err => exact h
        | panic => exact h

theorem runQueue_mono {f f' : Nat} (hle : f ≤ f') {s : St} {x : St × Ending} (h : runQueue env f s = some x) :
    runQueue env f' s = some x := by
  induction hle with
  | refl => exact h
  | step _ ih => exact runQueue_succ _ _ _ ih

theorem children_ok (snd : Sound env Legal spaces ptrs) {sp : Space} : ∀ (cs : List Name) (s : St), Inv env Legal cur s → Live s sp →
    (∀ c ∈ cs, ∃ h t, Den env Legal h sp c t ∧ Plain env sp c t) → ∃ f s' t, getChildren env f sp cs s = some (s', .ok t) ∧ Inv env Legal cur s' ∧
      Ext s s' ∧ s'.left spaces ptrs ≤ s.left spaces ptrs ∧ ∀ c ∈ cs, s'.seen sp c ≠ none := by
  intro cs
  induction cs with
  | nil => intro s i _ _; exact ⟨0, s, _, rfl, i, Ext.refl s, Nat.le_refl _, by simp⟩
  | cons c cs ih =>
    intro s i hlive hd
    obtain ⟨h, t, d, hpl⟩ := hd c (List.mem_cons_self ..)
    obtain ⟨s1, ⟨f1, hr⟩, hs1, hg⟩ := getOk (cur := cur) snd h h sp c t (Nat.le_refl _) d s true i hlive (by simp) fun _ => hpl
    obtain ⟨f2, s2, t2, hr2, i2, ext2, hl2, hc2⟩ := ih s1 hg.inv (hg.ext.live hlive) fun c hc => hd c (List.mem_cons_of_mem _ hc)
    refine ⟨max f1 f2, s2, t2, ?_, i2, hg.ext.trans ext2, Nat.le_trans hl2 hg.left, ?_⟩
    · rw [getChildren, exec_mono env (Nat.le_max_left f1 f2) hr]
      exact getChildren_mono (Nat.le_max_right f1 f2) _ _ hr2
    · intro c' hc'
      rcases List.mem_cons.1 hc' with rfl | hc'
      · exact ext2.seen_ne (by rw [hs1]; simp)
      · exact hc2 c' hc'

/-- A deferred function succeeds, and does what it was deferred for. -/
theorem job_ok (snd : Sound env Legal spaces ptrs) {s : St} {j : Job} (i : Inv env Legal [j] s) :
    ∃ f s' t, runJob env f s j = some (s', .ok t) ∧ Inv env Legal [] s' ∧ Ext s s' ∧ s'.left spaces ptrs ≤ s.left spaces ptrs ∧
      ∀ n, j = .get n → s'.seen [] n ≠ none := by
  have hj := i.jobs j (by simp)
  have drop : ∀ s', Inv env Legal [j] s' →
      (∀ x r, j = .children (x :: r) → ∀ c ∈ env.children x, s'.seen (x :: r) c ≠ none) →
      (∀ sp n, j = .dst sp n → DstDone env s' sp n) → Inv env Legal [] s' := by
    intro s' i' h1 h2
    refine ⟨i'.seen, i'.level, i'.space, i'.owner, i'.dest, i'.destOk, i'.subs, ?_, ?_, ?_, i'.distinct, i'.marked, i'.nodes, i'.edges, i'.owned,
      i'.crossed, i'.added⟩
    · intro x r hx
      rcases i'.kids x r hx with hm | hc
      · rcases List.mem_append.1 hm with hm | hm
        · exact .inr (h1 x r (List.mem_singleton.1 hm).symm)
        · exact .inl (by simpa using hm)
      · exact .inr hc
    · intro q x ty hx hl ha
      rcases i'.ptrs q x ty hx hl ha with hm | hc
      · rcases List.mem_append.1 hm with hm | hm
        · exact .inr (h2 q x (List.mem_singleton.1 hm).symm)
        · exact .inl (by simpa using hm)
      · exact .inr hc
    · intro j' hj'
      exact i'.jobs j' (by simp only [List.nil_append] at hj'; simp [hj'])
  cases j with
  | get n =>
    obtain ⟨h, t, d, hpl⟩ := hj
    obtain ⟨s1, ⟨f1, hr⟩, hs1, hg⟩ := getOk (cur := [Job.get n]) snd h h [] n t (Nat.le_refl _) d s true i (.inl rfl) (by simp)
      fun _ => hpl
    refine ⟨f1, s1, t, hr, drop s1 hg.inv (by simp) (by simp), hg.ext, hg.left, ?_⟩
    intro m hm
    cases hm
    rw [hs1]
    simp
  | children sp =>
    cases hlv : s.level sp with
    | none => exact absurd hlv hj
    | some l =>
      obtain ⟨x, r, ty, rfl, hl, ha, hx⟩ := i.level sp l hlv
      obtain ⟨h, t, _, d⟩ := i.seen_some hx
      obtain ⟨f, s', t', hr, i', ext', hle, hc⟩ := children_ok (cur := [Job.children (x :: r)]) snd (sp := x :: r) (env.children x) s i
        (.inr hj) (snd.children r x ty l d.legal hl ha).2
      refine ⟨f, s', t', hr, drop s' i' ?_ (by simp), ext', hle, by simp⟩
      intro y r' e c hc'
      cases e
      exact hc c hc'
  | dst sp n =>
    obtain ⟨hlive, lg, ty, hl, ha⟩ := hj
    obtain ⟨_, p, hp, h, t, d, hc, hdst⟩ := snd.pointer sp n ty lg hl ha
    obtain ⟨s1, ⟨f1, hr1⟩, hs1, hg1⟩ := getOk (cur := [Job.dst sp n]) snd h h sp _ t (Nat.le_refl _) d s true i hlive (by simp)
      (plain hc)
    by_cases hta : ∃ a, t = .addr a
    · obtain ⟨a, rfl⟩ := hta
      by_cases hda : (s1.dest a).isSome = true
      · refine ⟨f1, s1, .addr a, by simp [runJob, hp, hr1, hda], drop s1 hg1.inv (by simp) ?_, hg1.ext, hg1.left, by simp⟩
        intro sp' n' e
        cases e
        refine ⟨p, .addr a, hp, hs1, ?_⟩
        intro b e
        cases e
        intro e
        rw [e] at hda
        cases hda
      · obtain ⟨h', t', d', hb, hio⟩ := hdst a rfl
        obtain ⟨s2, ⟨f2, hr2⟩, hs2, hg2⟩ := getOk (cur := [Job.dst sp n]) snd h' h' sp _ t' (Nat.le_refl _) d' s1 false hg1.inv
          (hg1.ext.live hlive) (fun _ => hio) (by simp)
        have hset : s2.dest a ≠ none := hg2.inv.dest sp _ a (by rw [hs2]; simp) hb
        have hset' : (s2.dest a).isSome = true := by
          cases e : s2.dest a with
          | none => exact absurd e hset
          | some u => rfl
        refine ⟨max f1 f2, s2, .addr a, ?_, drop s2 hg2.inv (by simp) ?_, hg1.ext.trans hg2.ext, Nat.le_trans hg2.left hg1.left, by simp⟩
        · have r1 := exec_mono env (Nat.le_max_left f1 f2) hr1
          have r2 := exec_mono env (Nat.le_max_right f1 f2) hr2
          simp only [runJob, hp, r1, r2]
          rw [if_neg hda, if_pos hset']
        · intro sp' n' e
          cases e
          refine ⟨p, .addr a, hp, hg2.ext.seen _ _ _ hs1, ?_⟩
          intro b e
          cases e
          exact hset
    · refine ⟨f1, s1, t, ?_, drop s1 hg1.inv (by simp) ?_, hg1.ext, hg1.left, by simp⟩
      · simp only [runJob, hp, hr1]
        cases t <;> first | rfl | exact absurd ⟨_, rfl⟩ hta
      · intro sp' n' e
        cases e
        exact ⟨p, t, hp, hs1, fun a e => absurd ⟨a, e⟩ hta⟩

theorem queue_ok (snd : Sound env Legal spaces ptrs) (want : List Name) : ∀ (N : Nat) (s : St), s.left spaces ptrs ≤ N →
    Inv env Legal [] s → (∀ n ∈ want, Job.get n ∈ s.queue ∨ s.seen [] n ≠ none) → ∃ f s', runQueue env f s = some (s', .success) ∧
      Inv env Legal [] s' ∧ s'.queue = [] ∧ ∀ n ∈ want, s'.seen [] n ≠ none := by
  intro N
  induction N with
  | zero =>
    intro s hle i hw
    have hq : s.queue = [] := by
      have : s.queue.length = 0 := by unfold St.left at hle; omega
      exact List.eq_nil_of_length_eq_zero this
    refine ⟨1, s, by simp [runQueue, hq], i, hq, ?_⟩
    intro n hn
    rcases hw n hn with h | h
    · rw [hq] at h; cases h
    · exact h
  | succ N ih =>
    intro s hle i hw
    cases hq : s.queue with
    | nil =>
      refine ⟨1, s, by simp [runQueue, hq], i, hq, ?_⟩
      intro n hn
      rcases hw n hn with h | h
      · rw [hq] at h; cases h
      · exact h
    | cons j rest =>
      have i0 : Inv env Legal [j] { s with queue := rest } := by
        have hmem : ∀ j', j' ∈ [] ++ s.queue ↔ j' ∈ [j] ++ rest := by intro j'; rw [hq]; simp
        refine ⟨i.seen, i.level, i.space, i.owner, i.dest, i.destOk, i.subs, ?_, ?_, ?_, i.distinct, i.marked, i.nodes, i.edges, i.owned,
          i.crossed, i.added⟩
        · intro x r hx
          exact (i.kids x r hx).imp (hmem _).1 id
        · intro q x ty hx hl ha
          exact (i.ptrs q x ty hx hl ha).imp (hmem _).1 id
        · intro j' hj'
          exact i.jobs j' ((hmem j').2 hj')
      obtain ⟨f1, s1, t, hr, i1, ext1, hle1, hget⟩ := job_ok (spaces := spaces) (ptrs := ptrs) snd i0
      have hlt : s1.left spaces ptrs ≤ N := by
        have : St.left spaces ptrs { s with queue := rest } + 1 = s.left spaces ptrs := by
          simp only [St.left, hq, List.length_cons]
          omega
        omega
      obtain ⟨f2, s2, hr2, i2, hq2, hw2⟩ := ih s1 hlt i1 (by
        intro n hn
        rcases hw n hn with h | h
        · rw [hq] at h
          rcases List.mem_cons.1 h with h | h
          · exact .inr (hget n h.symm)
          · exact .inl (ext1.queue _ h)
        · exact .inr (ext1.seen_ne h))
      refine ⟨max f1 f2 + 1, s2, ?_, i2, hq2, hw2⟩
      rw [runQueue, hq]
      simp only [runJob_mono (Nat.le_max_left f1 f2) hr]
      exact runQueue_mono (Nat.le_max_right f1 f2) hr2

/-- A compilation whose requests all stand for something succeeds, with the invariant. -/
theorem compile_ok (snd : Sound env Legal spaces ptrs) (nodes : List Name) (hn : ∀ n ∈ nodes, ∃ h t, Den env Legal h [] n t ∧ Plain env [] n t) :
    ∃ f s, compile env f nodes = some (s, .success) ∧ Inv env Legal [] s ∧ s.queue = [] ∧ ∀ n ∈ nodes, s.seen [] n ≠ none := by
  refine queue_ok (spaces := spaces) (ptrs := ptrs) snd nodes _ { St.init with queue := (nodes.map .get).reverse } (Nat.le_refl _) ?_ ?_
  · refine ⟨?_, ?_, ?_, ?_, ?_, ?_, ?_, ?_, ?_, ?_, ?_, ?_, ?_, ?_, ?_, ?_, ?_⟩ <;> simp [St.init]
    intro n hm
    exact hn n hm
  · intro n hm
    exact .inl (by simp [hm])

theorem compile_det {f f' : Nat} {nodes : List Name} {x y : St × Ending} (h : compile env f nodes = some x)
    (h' : compile env f' nodes = some y) : x = y := by
  have h1 := runQueue_mono (Nat.le_max_left f f') h
  have h2 := runQueue_mono (Nat.le_max_right f f') h'
  rw [h1] at h2
  exact Option.some.inj h2

end Verif.Compile
