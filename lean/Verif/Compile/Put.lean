import Verif.Compile.Inv
/-
The invariant holds after a name has been found.
-/
namespace Verif.Compile
open Verif.Wiring (Name Ptr)
variable {env : Env} {Legal : Space → Name → Prop} {spaces : List Space} {ptrs : List (Space × Name)} {cur : List Job}

/-- What the namespace's handler is told when name `n` is found. -/
inductive NPut (env : Env) (Legal : Space → Name → Prop) (s s' : St) (sp : Space) (n : Name) (t : Tree) : Prop where
  | keep : s'.nodes = s.nodes → s'.edges = s.edges → s'.added = s.added → (∀ u, Owns env Legal sp n u → s.added sp u.name = true) →
      (∀ u, Crosses env Legal sp n u → s.added sp u.name = true) → NPut env Legal s s' sp n t
  | node : s'.nodes = (fun q => if q = sp then s.nodes q ++ [t] else s.nodes q) → s'.edges = s.edges →
      s'.added = (fun q x => if q = sp ∧ x = t.name then true else s.added q x) → s.added sp t.name = false → Owns env Legal sp n t →
      NPut env Legal s s' sp n t
  | edge : s'.nodes = s.nodes → s'.edges = (fun q => if q = sp then s.edges q ++ [t] else s.edges q) →
      s'.added = (fun q x => if q = sp ∧ x = t.name then true else s.added q x) → s.added sp t.name = false → Crosses env Legal sp n t →
      NPut env Legal s s' sp n t
  | hide : s'.nodes = s.nodes → s'.edges = s.edges →
      s'.added = (fun q x => if q = sp ∧ x = t.name then true else s.added q x) → s.added sp t.name = false → Hidden env Legal sp n t →
      NPut env Legal s s' sp n t

theorem Owns.eq {sp : Space} {n : Name} {t u : Tree} {h : Nat} (o : Owns env Legal sp n u) (d : Den env Legal h sp n t) : u = t := by
  obtain ⟨_, _, _, d', _⟩ := o
  exact (d'.det d).2

theorem Crosses.eq {sp : Space} {n : Name} {t u : Tree} {h : Nat} (o : Crosses env Legal sp n u) (d : Den env Legal h sp n t) : u = t := by
  obtain ⟨_, _, _, d', _⟩ := o
  exact (d'.det d).2

theorem Owns.not_crosses {sp : Space} {n : Name} {t u : Tree} (o : Owns env Legal sp n t) (c : Crosses env Legal sp n u) : False := by
  obtain ⟨_, _, _, _, l, a, _⟩ := o
  obtain ⟨_, _, _, _, l', a', _⟩ := c
  rw [l] at l'
  cases l'
  rw [a] at a'
  cases a'

theorem nodup_append_new {l l' : List Name} {x : Name} (h : (l ++ l').Nodup) (hx : x ∉ l ++ l') : (l ++ [x] ++ l').Nodup := by
  rw [List.nodup_append] at h ⊢
  simp only [List.mem_append, not_or] at hx
  refine ⟨List.nodup_append.2 ⟨h.1, by simp, ?_⟩, h.2.1, ?_⟩
  · intro a ha b hb
    rw [List.mem_singleton.1 hb]
    intro e
    exact hx.1 (e ▸ ha)
  · intro a ha b hb
    rcases List.mem_append.1 ha with ha | ha
    · exact h.2.2 a ha b hb
    · rw [List.mem_singleton.1 ha]
      intro e
      exact hx.2 (e ▸ hb)

theorem nodup_append_end {l l' : List Name} {x : Name} (h : (l ++ l').Nodup) (hx : x ∉ l ++ l') : (l ++ (l' ++ [x])).Nodup := by
  rw [← List.append_assoc, List.nodup_append]
  refine ⟨h, by simp, ?_⟩
  intro a ha b hb
  rw [List.mem_singleton.1 hb]
  intro e
  exact hx (e ▸ ha)

theorem Inv.put_space {s s' : St} (i : Inv env Legal cur s) {sp : Space} {n : Name} {t : Tree} {h : Nat} (d : Den env Legal h sp n t)
    (hlive : Live s sp) (hnone : s.seen sp n = none)
    (hseen : s'.seen = fun q x => if q = sp ∧ x = n then some (some t) else s.seen q x)
    (hlevel : ∀ q l, s.level q = some l → s'.level q = some l)
    (hlevel' : ∀ q l, s'.level q = some l → s.level q = some l ∨ (q = n :: sp ∧ ∃ ty, env.look n = some (n, ty, some (.space l)) ∧
      env.accepts sp ty = true ∧ Job.children q ∈ s'.queue))
    (hqueue : ∀ j ∈ s.queue, j ∈ s'.queue) (hqueue' : ∀ j ∈ s'.queue, j ∈ s.queue ∨ JobOk env Legal s' j)
    (howner : ∀ v u, s'.owner v = some u → s.owner v = some u ∨
      ∃ h ty md target, env.look n = some (n, ty, some (.check md target)) ∧ Den env Legal h sp md (.visibility v))
    (hdest : ∀ a, s.dest a ≠ none → s'.dest a ≠ none)
    (hdestOk : ∀ a u, s'.dest a = some u → s.dest a = some u ∨ (u = t ∧ ∃ ty k,
      env.look n = some (n, ty, some k) ∧ env.accepts sp ty = true ∧ Serves k n t a))
    (hbinds : ∀ a, Binds env Legal sp n a → s'.dest a ≠ none)
    (hptr : ∀ ty, env.look n = some (n, ty, some .ptr) → env.accepts sp ty = true → Job.dst sp n ∈ cur ++ s.queue)
    (hspace : ∀ ty l, env.look n = some (n, ty, some (.space l)) → env.accepts sp ty = true → s'.level (n :: sp) = some l)
    (hsub : ∀ sp' n', Sub env Legal sp n sp' n' → s'.seen sp' n' ≠ none)
    (hN : NPut env Legal s s' sp n t) : Inv env Legal cur s' ∧ Ext s s' := by
  have hn : ∀ q x o, s'.seen q x = some o → (q = sp ∧ x = n ∧ o = some t) ∨ s.seen q x = some o := by
    intro q x o e
    rw [hseen] at e
    simp only at e
    split at e
    · next c => exact .inl ⟨c.1, c.2, by injection e with e; exact e.symm⟩
    · exact .inr e
  have hn' : ∀ q x, s'.seen q x ≠ none → (q = sp ∧ x = n) ∨ s.seen q x ≠ none := by
    intro q x e
    rw [hseen] at e
    simp only at e
    split at e
    · next c => exact .inl c
    · exact .inr e
  have hnew : s'.seen sp n = some (some t) := by rw [hseen]; simp
  have hext : Ext s s' := by
    refine ⟨?_, hlevel, hdest, hqueue⟩
    intro q x o e
    rw [hseen]
    simp only
    split
    · next c => rw [c.1, c.2, hnone] at e; cases e
    · exact e
  have hmem : ∀ j, j ∈ cur ++ s.queue → j ∈ cur ++ s'.queue := by
    intro j hj
    rcases List.mem_append.1 hj with hj | hj
    · exact List.mem_append_left _ hj
    · exact List.mem_append_right _ (hqueue j hj)
  refine ⟨?_, hext⟩
  have base : ∀ (hd : ∀ q, ((s'.nodes q ++ s'.edges q).map Tree.name).Nodup)
      (hm : ∀ q u, u ∈ s'.nodes q ++ s'.edges q → s'.added q u.name = true)
      (h1 : ∀ q u, u ∈ s'.nodes q → ∃ m, Owns env Legal q m u ∧ s'.seen q m ≠ none)
      (h2 : ∀ q u, u ∈ s'.edges q → ∃ m, Crosses env Legal q m u ∧ s'.seen q m ≠ none)
      (h3 : ∀ q m u, s'.seen q m ≠ none → Owns env Legal q m u → s'.added q u.name = true)
      (h4 : ∀ q m u, s'.seen q m ≠ none → Crosses env Legal q m u → s'.added q u.name = true)
      (h5 : ∀ q m, s'.added q m = true → (∃ u ∈ s'.nodes q ++ s'.edges q, u.name = m) ∨
        ∃ k u, Hidden env Legal q k u ∧ u.name = m ∧ ∀ n' u, Reach env Legal q k q n' → Owns env Legal q n' u → u.name ≠ m),
      Inv env Legal cur s' := by
    intro hd hm h1 h2 h3 h4 h5
    refine ⟨?_, ?_, ?_, ?_, ?_, ?_, ?_, ?_, ?_, ?_, hd, hm, h1, h2, h3, h4, h5⟩
    · intro q x o e
      rcases hn q x o e with ⟨rfl, rfl, rfl⟩ | e
      · exact ⟨hext.live hlive, h, t, rfl, d⟩
      · obtain ⟨hl, r⟩ := i.seen _ _ _ e
        exact ⟨hext.live hl, r⟩
    · intro q l e
      rcases hlevel' q l e with e | ⟨rfl, ty, hl, ha, _⟩
      · obtain ⟨x, r, ty, e1, e2, e3, e4⟩ := i.level _ _ e
        exact ⟨x, r, ty, e1, e2, e3, hext.seen_ne e4⟩
      · exact ⟨n, sp, ty, rfl, hl, ha, by rw [hnew]; simp⟩
    · intro q x ty l e hl ha
      rcases hn' q x e with ⟨rfl, rfl⟩ | e
      · exact hspace ty l hl ha
      · exact hlevel _ _ (i.space _ _ _ _ e hl ha)
    · intro v u e
      rcases howner v u e with e | ⟨h', ty, md, target, hl, hv⟩
      · obtain ⟨h', q, c, ty, md, target, hl, hv, hs⟩ := i.owner _ _ e
        exact ⟨h', q, c, ty, md, target, hl, hv, hext.seen_ne hs⟩
      · exact ⟨h', sp, n, ty, md, target, hl, hv, by rw [hnew]; simp⟩
    · intro q x a e hb
      rcases hn' q x e with ⟨rfl, rfl⟩ | e
      · exact hbinds a hb
      · exact hdest a (i.dest _ _ _ e hb)
    · intro a u e
      rcases hdestOk a u e with e | ⟨rfl, ty, k, hl, ha, ht⟩
      · obtain ⟨h', q, m, ty, k, hd', hl, ha, ht, hs⟩ := i.destOk _ _ e
        exact ⟨h', q, m, ty, k, hd', hl, ha, ht, hext.seen_ne hs⟩
      · exact ⟨h, sp, n, ty, k, d, hl, ha, ht, by rw [hnew]; simp⟩
    · intro q x q' x' e hs
      rcases hn' q x e with ⟨rfl, rfl⟩ | e
      · exact hsub q' x' hs
      · exact hext.seen_ne (i.subs q x q' x' e hs)
    · intro x r e
      cases e0 : s'.level (x :: r) with
      | none => exact absurd e0 e
      | some l =>
        rcases hlevel' _ l e0 with e1 | ⟨_, _, _, _, hj⟩
        · exact (i.kids x r (by rw [e1]; simp)).imp (hmem _) fun hc c hm => hext.seen_ne (hc c hm)
        · exact .inl (List.mem_append_right _ hj)
    · intro q x ty e hl ha
      rcases hn' q x e with ⟨rfl, rfl⟩ | e
      · exact .inl (hmem _ (hptr ty hl ha))
      · exact (i.ptrs _ _ _ e hl ha).imp (hmem _) hext.done
    · intro j hj
      rcases List.mem_append.1 hj with hj | hj
      · exact hext.job (i.jobs j (List.mem_append_left _ hj))
      · rcases hqueue' j hj with hj | hj
        · exact hext.job (i.jobs j (List.mem_append_right _ hj))
        · exact hj
  cases hN with
  | keep e1 e2 e3 o1 c1 =>
    apply base
    · intro q; rw [e1, e2]; exact i.distinct q
    · intro q u; rw [e1, e2, e3]; exact i.marked q u
    · intro q u hu
      rw [e1] at hu
      obtain ⟨m, ho, hs⟩ := i.nodes q u hu
      exact ⟨m, ho, hext.seen_ne hs⟩
    · intro q u hu
      rw [e2] at hu
      obtain ⟨m, ho, hs⟩ := i.edges q u hu
      exact ⟨m, ho, hext.seen_ne hs⟩
    · intro q m u hs ho
      rw [e3]
      rcases hn' q m hs with ⟨rfl, rfl⟩ | hs
      · exact o1 u ho
      · exact i.owned q m u hs ho
    · intro q m u hs ho
      rw [e3]
      rcases hn' q m hs with ⟨rfl, rfl⟩ | hs
      · exact c1 u ho
      · exact i.crossed q m u hs ho
    · intro q m hm
      rw [e3] at hm
      rw [e1, e2]
      exact i.added q m hm
  | node e1 e2 e3 hf ho =>
    have hfresh : t.name ∉ (s.nodes sp ++ s.edges sp).map Tree.name := by
      intro hm
      obtain ⟨u, hu, hn⟩ := List.mem_map.1 hm
      rw [← hn, i.marked sp u hu] at hf
      cases hf
    have hadd : ∀ q x, s.added q x = true → s'.added q x = true := by
      intro q x hx
      rw [e3]
      simp only
      split
      · rfl
      · exact hx
    have haddT : s'.added sp t.name = true := by rw [e3]; simp
    apply base
    · intro q
      rw [e1, e2]
      simp only
      split
      · next c =>
        subst c
        have := nodup_append_new (x := t.name) (by simpa using i.distinct q) (by simpa using hfresh)
        simpa using this
      · exact i.distinct q
    · intro q u hu
      rw [e1, e2] at hu
      simp only at hu
      split at hu
      · next c =>
        subst c
        rcases List.mem_append.1 hu with hu | hu
        · rcases List.mem_append.1 hu with hu | hu
          · exact hadd _ _ (i.marked q u (List.mem_append_left _ hu))
          · rw [List.mem_singleton.1 hu]; exact haddT
        · exact hadd _ _ (i.marked q u (List.mem_append_right _ hu))
      · exact hadd _ _ (i.marked q u hu)
    · intro q u hu
      rw [e1] at hu
      simp only at hu
      have old : u ∈ s.nodes q → ∃ m, Owns env Legal q m u ∧ s'.seen q m ≠ none := by
        intro hu
        obtain ⟨m, ho, hs⟩ := i.nodes q u hu
        exact ⟨m, ho, hext.seen_ne hs⟩
      split at hu
      · next c =>
        subst c
        rcases List.mem_append.1 hu with hu | hu
        · exact old hu
        · rw [List.mem_singleton.1 hu]
          exact ⟨n, ho, by rw [hnew]; simp⟩
      · exact old hu
    · intro q u hu
      rw [e2] at hu
      obtain ⟨m, ho, hs⟩ := i.edges q u hu
      exact ⟨m, ho, hext.seen_ne hs⟩
    · intro q m u hs hu
      rcases hn' q m hs with ⟨rfl, rfl⟩ | hs
      · rw [hu.eq d]; exact haddT
      · exact hadd _ _ (i.owned q m u hs hu)
    · intro q m u hs hu
      rcases hn' q m hs with ⟨rfl, rfl⟩ | hs
      · rw [hu.eq d]; exact haddT
      · exact hadd _ _ (i.crossed q m u hs hu)
    · intro q m hm
      rw [e3] at hm
      simp only at hm
      rw [e1, e2]
      split at hm
      · next c =>
        obtain ⟨rfl, rfl⟩ := c
        exact .inl ⟨t, by simp, rfl⟩
      · rcases i.added q m hm with ⟨u, hu, hn⟩ | hh
        · refine .inl ⟨u, ?_, hn⟩
          simp only
          split
          · simp only [List.mem_append] at hu ⊢
            exact hu.imp .inl id
          · exact hu
        · exact .inr hh
  | edge e1 e2 e3 hf ho =>
    have hfresh : t.name ∉ (s.nodes sp ++ s.edges sp).map Tree.name := by
      intro hm
      obtain ⟨u, hu, hn⟩ := List.mem_map.1 hm
      rw [← hn, i.marked sp u hu] at hf
      cases hf
    have hadd : ∀ q x, s.added q x = true → s'.added q x = true := by
      intro q x hx
      rw [e3]
      simp only
      split
      · rfl
      · exact hx
    have haddT : s'.added sp t.name = true := by rw [e3]; simp
    apply base
    · intro q
      rw [e1, e2]
      simp only
      split
      · next c =>
        subst c
        have := nodup_append_end (x := t.name) (by simpa using i.distinct q) (by simpa using hfresh)
        simpa using this
      · exact i.distinct q
    · intro q u hu
      rw [e1, e2] at hu
      simp only at hu
      split at hu
      · next c =>
        subst c
        rcases List.mem_append.1 hu with hu | hu
        · exact hadd _ _ (i.marked q u (List.mem_append_left _ hu))
        · rcases List.mem_append.1 hu with hu | hu
          · exact hadd _ _ (i.marked q u (List.mem_append_right _ hu))
          · rw [List.mem_singleton.1 hu]; exact haddT
      · exact hadd _ _ (i.marked q u hu)
    · intro q u hu
      rw [e1] at hu
      obtain ⟨m, ho, hs⟩ := i.nodes q u hu
      exact ⟨m, ho, hext.seen_ne hs⟩
    · intro q u hu
      rw [e2] at hu
      simp only at hu
      have old : u ∈ s.edges q → ∃ m, Crosses env Legal q m u ∧ s'.seen q m ≠ none := by
        intro hu
        obtain ⟨m, ho, hs⟩ := i.edges q u hu
        exact ⟨m, ho, hext.seen_ne hs⟩
      split at hu
      · next c =>
        subst c
        rcases List.mem_append.1 hu with hu | hu
        · exact old hu
        · rw [List.mem_singleton.1 hu]
          exact ⟨n, ho, by rw [hnew]; simp⟩
      · exact old hu
    · intro q m u hs hu
      rcases hn' q m hs with ⟨rfl, rfl⟩ | hs
      · rw [hu.eq d]; exact haddT
      · exact hadd _ _ (i.owned q m u hs hu)
    · intro q m u hs hu
      rcases hn' q m hs with ⟨rfl, rfl⟩ | hs
      · rw [hu.eq d]; exact haddT
      · exact hadd _ _ (i.crossed q m u hs hu)
    · intro q m hm
      rw [e3] at hm
      simp only at hm
      rw [e1, e2]
      split at hm
      · next c =>
        obtain ⟨rfl, rfl⟩ := c
        exact .inl ⟨t, by simp, rfl⟩
      · rcases i.added q m hm with ⟨u, hu, hn⟩ | hh
        · refine .inl ⟨u, ?_, hn⟩
          simp only
          split
          · simp only [List.mem_append] at hu ⊢
            exact hu.imp id .inl
          · exact hu
        · exact .inr hh
  | hide e1 e2 e3 hf hh =>
    have hreach : ∀ q x, Reach env Legal sp n q x → (q = sp ∧ x = n) ∨ s.seen q x ≠ none := by
      intro q x hr
      induction hr with
      | refl => exact .inl ⟨rfl, rfl⟩
      | step _ hs ih =>
        rcases ih with ⟨rfl, rfl⟩ | ih
        · exact hn' _ _ (hsub _ _ hs)
        · exact .inr (i.subs _ _ _ _ ih hs)
    have hadd : ∀ q x, s.added q x = true → s'.added q x = true := by
      intro q x hx
      rw [e3]
      simp only
      split
      · rfl
      · exact hx
    have haddT : s'.added sp t.name = true := by rw [e3]; simp
    apply base
    · intro q; rw [e1, e2]; exact i.distinct q
    · intro q u hu; rw [e1, e2] at hu; exact hadd _ _ (i.marked q u hu)
    · intro q u hu
      rw [e1] at hu
      obtain ⟨m, ho, hs⟩ := i.nodes q u hu
      exact ⟨m, ho, hext.seen_ne hs⟩
    · intro q u hu
      rw [e2] at hu
      obtain ⟨m, ho, hs⟩ := i.edges q u hu
      exact ⟨m, ho, hext.seen_ne hs⟩
    · intro q m u hs hu
      rcases hn' q m hs with ⟨rfl, rfl⟩ | hs
      · rw [hu.eq d]; exact haddT
      · exact hadd _ _ (i.owned q m u hs hu)
    · intro q m u hs hu
      rcases hn' q m hs with ⟨rfl, rfl⟩ | hs
      · rw [hu.eq d]; exact haddT
      · exact hadd _ _ (i.crossed q m u hs hu)
    · intro q m hm
      rw [e3] at hm
      simp only at hm
      rw [e1, e2]
      split at hm
      · next c =>
        obtain ⟨rfl, rfl⟩ := c
        refine .inr ⟨n, t, hh, rfl, ?_⟩
        intro n' u hr hu e
        rcases hreach _ _ hr with ⟨-, rfl⟩ | hs
        · obtain ⟨_, _, _, _, l1, a1, p1⟩ := hu
          obtain ⟨_, _, _, _, l2, h2⟩ := hh
          rw [l1] at l2
          cases l2
          rcases h2 with h2 | h2
          · rw [p1] at h2; cases h2
          · rw [a1] at h2; cases h2.1
        · have := i.owned _ _ _ hs hu
          rw [e, hf] at this
          cases this
      · exact i.added q m hm

theorem Inv.put {s s' : St} (i : Inv env Legal cur s) {sp : Space} {n : Name} {t : Tree} {h : Nat} (d : Den env Legal h sp n t)
    (hlive : Live s sp) (hnone : s.seen sp n = none)
    (hseen : s'.seen = fun q x => if q = sp ∧ x = n then some (some t) else s.seen q x) (hlevel : s'.level = s.level)
    (hqueue : s'.queue = s.queue)
    (howner : ∀ v u, s'.owner v = some u → s.owner v = some u ∨
      ∃ h ty md target, env.look n = some (n, ty, some (.check md target)) ∧ Den env Legal h sp md (.visibility v))
    (hdest : ∀ a, s.dest a ≠ none → s'.dest a ≠ none)
    (hdestOk : ∀ a u, s'.dest a = some u → s.dest a = some u ∨ (u = t ∧ ∃ ty k,
      env.look n = some (n, ty, some k) ∧ env.accepts sp ty = true ∧ Serves k n t a))
    (hbinds : ∀ a, Binds env Legal sp n a → s'.dest a ≠ none)
    (hptr : ∀ ty, env.look n = some (n, ty, some .ptr) → env.accepts sp ty = true → Job.dst sp n ∈ cur ++ s.queue)
    (hspace : ∀ ty l, env.look n = some (n, ty, some (.space l)) → env.accepts sp ty = true → s.level (n :: sp) = some l)
    (hsub : ∀ sp' n', Sub env Legal sp n sp' n' → s'.seen sp' n' ≠ none)
    (hN : NPut env Legal s s' sp n t) : Inv env Legal cur s' ∧ Ext s s' :=
  i.put_space d hlive hnone hseen (fun q l e => by rw [hlevel]; exact e) (fun q l e => .inl (by rw [hlevel] at e; exact e))
    (fun j hj => by rw [hqueue]; exact hj) (fun j hj => .inl (by rw [hqueue] at hj; exact hj)) howner hdest hdestOk hbinds hptr
    (fun ty l hl ha => by rw [hlevel]; exact hspace ty l hl ha) hsub hN

theorem afterBuild_seen (s : St) (sp : Space) (n : Name) (pr : Bool) (t : Tree) :
    (s.afterBuild sp n pr t).seen = fun q x => if q = sp ∧ x = n then some (some t) else s.seen q x := by
  unfold St.afterBuild
  cases s.added sp t.name <;> cases pr <;> rfl

theorem afterBuild_rest (s : St) (sp : Space) (n : Name) (pr : Bool) (t : Tree) :
    (s.afterBuild sp n pr t).level = s.level ∧ (s.afterBuild sp n pr t).queue = s.queue ∧ (s.afterBuild sp n pr t).owner = s.owner ∧
      (s.afterBuild sp n pr t).dest = s.dest := by
  unfold St.afterBuild
  cases s.added sp t.name <;> cases pr <;> exact ⟨rfl, rfl, rfl, rfl⟩

theorem afterParent_seen (s : St) (sp : Space) (n : Name) (e pr : Bool) (t : Tree) :
    (s.afterParent sp n e pr t).seen = fun q x => if q = sp ∧ x = n then some (some t) else s.seen q x := by
  unfold St.afterParent
  cases s.added sp t.name <;> cases (!t.isMeta && e && !pr) <;> rfl

theorem afterParent_rest (s : St) (sp : Space) (n : Name) (e pr : Bool) (t : Tree) :
    (s.afterParent sp n e pr t).level = s.level ∧ (s.afterParent sp n e pr t).queue = s.queue ∧
      (s.afterParent sp n e pr t).owner = s.owner ∧ (s.afterParent sp n e pr t).dest = s.dest := by
  unfold St.afterParent
  cases s.added sp t.name <;> cases (!t.isMeta && e && !pr) <;> exact ⟨rfl, rfl, rfl, rfl⟩

/-- Changing what the handlers are not told about leaves the invariants about that alone. -/
theorem afterBuild_put {s : St} {sp : Space} {n : Name} {k : Kind} {t : Tree} {h : Nat} {ty : Ty} (d : Den env Legal h sp n t)
    (hl : env.look n = some (n, ty, some k)) (ha : env.accepts sp ty = true) {s0 : St} (e1 : s.nodes = s0.nodes) (e2 : s.edges = s0.edges)
    (e3 : s.added = s0.added) : NPut env Legal s0 (s.afterBuild sp n k.proxy t) sp n t := by
  unfold St.afterBuild
  cases hadd : s.added sp t.name with
  | true =>
    refine .keep e1 e2 e3 ?_ ?_
    · intro u hu; rw [hu.eq d, ← e3]; exact hadd
    · intro u hu; rw [hu.eq d, ← e3]; exact hadd
  | false =>
    cases hp : k.proxy with
    | false =>
      refine .node ?_ e2 ?_ (by rw [← e3]; exact hadd) ⟨h, ty, k, d, hl, ha, hp⟩
      · rw [← e1]; rfl
      · rw [← e3]; rfl
    | true =>
      refine .hide e1 e2 ?_ (by rw [← e3]; exact hadd) ⟨h, ty, k, d, hl, .inl hp⟩
      rw [← e3]; rfl

theorem afterParent_put {s : St} {sp : Space} {n : Name} {k : Kind} {t : Tree} {h : Nat} {ty : Ty} {e : Bool} (d : Den env Legal h sp n t)
    (hl : env.look n = some (n, ty, some k)) (ha : env.accepts sp ty = false) (he : e = false → k.quiet = true)
    (hc : e = true → t.isCtr = false) :
    NPut env Legal s (s.afterParent sp n e k.proxy t) sp n t := by
  unfold St.afterParent
  cases hadd : s.added sp t.name with
  | true =>
    refine .keep rfl rfl rfl ?_ ?_
    · intro u hu; rw [hu.eq d]; exact hadd
    · intro u hu; rw [hu.eq d]; exact hadd
  | false =>
    cases hm : t.isMeta with
    | true => exact .hide rfl rfl rfl hadd ⟨h, ty, k, d, hl, .inr ⟨ha, .inl hm⟩⟩
    | false =>
      cases hp : k.proxy with
      | true =>
        have : (!false && e && !true) = false := by cases e <;> rfl
        rw [this]
        exact .hide rfl rfl rfl hadd ⟨h, ty, k, d, hl, .inl hp⟩
      | false =>
        cases e with
        | false => exact .hide rfl rfl rfl hadd ⟨h, ty, k, d, hl, .inr ⟨ha, .inr (he rfl)⟩⟩
        | true =>
          refine .edge rfl rfl rfl hadd ⟨h, ty, k, d, hl, ha, ?_, hm⟩
          cases k with
          | enter x next => cases hp
          | container a => rw [d.container hl] at hc; cases hc rfl
          | _ => rfl

theorem setSeen_put {s : St} {sp : Space} {n dn : Name} {k : Option Kind} {t : Tree} {ty : Ty}
    (hl : env.look n = some (dn, ty, k)) (hne : dn ≠ n) : NPut env Legal s (s.setSeen sp n (some t)) sp n t := by
  refine .keep rfl rfl rfl ?_ ?_
  · intro u ⟨_, _, _, _, hl', _⟩
    rw [hl] at hl'
    cases hl'
    exact absurd rfl hne
  · intro u ⟨_, _, _, _, hl', _⟩
    rw [hl] at hl'
    cases hl'
    exact absurd rfl hne

end Verif.Compile
