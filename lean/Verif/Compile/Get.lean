import Verif.Compile.Put
/-
Getting a name that stands for a node gives the node, whatever has been built before.
-/
namespace Verif.Compile
open Verif.Wiring (Name Ptr)
variable {env : Env} {Legal : Space → Name → Prop} {spaces : List Space} {ptrs : List (Space × Name)} {cur : List Job}

theorem binds_alias {sp : Space} {n dn a : Name} {ty : Ty} {k : Option Kind} (hl : env.look n = some (dn, ty, k)) (hne : dn ≠ n)
    (b : Binds env Legal sp n a) : Binds env Legal sp dn a := by
  cases b with
  | alias hl' _ b =>
    rw [hl] at hl'
    cases hl'
    exact b
  | climb hl' _ _ =>
    rw [hl] at hl'
    cases hl'
    exact absurd rfl hne
  | enter hl' _ _ =>
    rw [hl] at hl'
    cases hl'
    exact absurd rfl hne
  | server hl' _ _ =>
    rw [hl] at hl'
    cases hl'
    exact absurd rfl hne
  | container hl' _ _ =>
    rw [hl] at hl'
    cases hl'
    exact absurd rfl hne

theorem binds_climb {sp : Space} {n a : Name} {ty : Ty} {k : Option Kind} (hl : env.look n = some (n, ty, k))
    (ha : env.accepts sp ty = false) (b : Binds env Legal sp n a) : Binds env Legal sp.tail n a := by
  cases b with
  | alias hl' hne _ =>
    rw [hl] at hl'
    cases hl'
    exact absurd rfl hne
  | climb _ _ b => exact b
  | enter hl' ha' _ =>
    rw [hl] at hl'
    cases hl'
    rw [ha] at ha'
    cases ha'
  | server hl' ha' _ =>
    rw [hl] at hl'
    cases hl'
    rw [ha] at ha'
    cases ha'
  | container hl' ha' _ =>
    rw [hl] at hl'
    cases hl'
    rw [ha] at ha'
    cases ha'

theorem binds_built {sp : Space} {n a : Name} {ty : Ty} {k : Kind} (hl : env.look n = some (n, ty, some k))
    (ha : env.accepts sp ty = true) (b : Binds env Legal sp n a) :
    (∃ x next, k = .enter x next ∧ Binds env Legal (x :: sp) next a) ∨
      (∃ h addr, ((∃ next, k = .grpcServer next addr) ∨ k = .container addr) ∧ Den env Legal h sp addr (.addr a)) := by
  cases b with
  | alias hl' hne _ =>
    rw [hl] at hl'
    cases hl'
    exact absurd rfl hne
  | climb hl' ha' _ =>
    rw [hl] at hl'
    cases hl'
    rw [ha] at ha'
    cases ha'
  | enter hl' _ b =>
    rw [hl] at hl'
    cases hl'
    exact .inl ⟨_, _, rfl, b⟩
  | server hl' _ d =>
    rw [hl] at hl'
    cases hl'
    exact .inr ⟨_, _, .inl ⟨_, rfl⟩, d⟩
  | container hl' _ d =>
    rw [hl] at hl'
    cases hl'
    exact .inr ⟨_, _, .inr rfl, d⟩

theorem sub_alias {sp sp' : Space} {n dn n' : Name} {ty : Ty} {k : Option Kind} (hl : env.look n = some (dn, ty, k)) (hne : dn ≠ n)
    (b : Sub env Legal sp n sp' n') : sp' = sp ∧ n' = dn := by
  cases b with
  | alias hl' _ =>
    rw [hl] at hl'
    cases hl'
    exact ⟨rfl, rfl⟩
  | climb hl' _ =>
    rw [hl] at hl'
    cases hl'
    exact absurd rfl hne
  | built hl' _ _ =>
    rw [hl] at hl'
    cases hl'
    exact absurd rfl hne

theorem sub_climb {sp sp' : Space} {n n' : Name} {ty : Ty} {k : Option Kind} (hl : env.look n = some (n, ty, k))
    (ha : env.accepts sp ty = false) (b : Sub env Legal sp n sp' n') : sp' = sp.tail ∧ n' = n := by
  cases b with
  | alias hl' hne =>
    rw [hl] at hl'
    cases hl'
    exact absurd rfl hne
  | climb _ _ => exact ⟨rfl, rfl⟩
  | built hl' ha' _ =>
    rw [hl] at hl'
    cases hl'
    rw [ha] at ha'
    cases ha'

theorem sub_built {sp sp' : Space} {n n' : Name} {ty : Ty} {k : Kind} (hl : env.look n = some (n, ty, some k))
    (ha : env.accepts sp ty = true) (b : Sub env Legal sp n sp' n') : Asks env Legal sp n k sp' n' := by
  cases b with
  | alias hl' hne =>
    rw [hl] at hl'
    cases hl'
    exact absurd rfl hne
  | climb hl' ha' =>
    rw [hl] at hl'
    cases hl'
    rw [ha] at ha'
    cases ha'
  | built hl' _ b =>
    rw [hl] at hl'
    cases hl'
    exact b

theorem instOk_alias {sp : Space} {n dn : Name} {ty : Ty} {k : Option Kind} (hl : env.look n = some (dn, ty, k)) (hne : dn ≠ n)
    (b : InstOk env sp n) : InstOk env sp dn := by
  cases b with
  | alias hl' _ b =>
    rw [hl] at hl'
    cases hl'
    exact b
  | built hl' _ =>
    rw [hl] at hl'
    cases hl'
    exact absurd rfl hne
  | proxy hl' _ _ _ =>
    rw [hl] at hl'
    cases hl'
    exact absurd rfl hne

theorem instOk_climb {sp : Space} {n : Name} {ty : Ty} {k : Kind} (hl : env.look n = some (n, ty, some k))
    (ha : env.accepts sp ty = false) (b : InstOk env sp n) : k.quiet = true ∧ InstOk env sp.tail n := by
  cases b with
  | alias hl' hne _ =>
    rw [hl] at hl'
    cases hl'
    exact absurd rfl hne
  | built hl' ha' =>
    rw [hl] at hl'
    cases hl'
    rw [ha] at ha'
    cases ha'
  | proxy hl' _ hp b =>
    rw [hl] at hl'
    cases hl'
    exact ⟨hp, b⟩

theorem plain {sp : Space} {n : Name} {t : Tree} {P : Prop} (h : t.isCtr = false) : P → Plain env sp n t := by
  intro _ h'
  rw [h] at h'
  cases h'

theorem service_plain {t : Tree} (h : t.isService = true) : t.isCtr = false := by
  cases t <;> first | rfl | cases h

theorem plain_alias {sp : Space} {n dn : Name} {t : Tree} {ty : Ty} {k : Option Kind} (hl : env.look n = some (dn, ty, k)) (hne : dn ≠ n)
    (h : Plain env sp n t) : Plain env sp dn t := by
  intro h'
  obtain ⟨ty', k', hl', _⟩ := h h'
  rw [hl] at hl'
  cases hl'
  exact absurd rfl hne

theorem plain_climb {sp : Space} {n : Name} {t : Tree} {ty : Ty} {k : Option Kind} (hl : env.look n = some (n, ty, k))
    (ha : env.accepts sp ty = false) (h : Plain env sp n t) : t.isCtr = false := by
  cases hc : t.isCtr with
  | false => rfl
  | true =>
    obtain ⟨ty', k', hl', ha'⟩ := h hc
    rw [hl] at hl'
    cases hl'
    rw [ha] at ha'
    cases ha'

theorem left_put {s s' : St} {sp : Space} {n : Name} {t : Tree}
    (hseen : s'.seen = fun q x => if q = sp ∧ x = n then some (some t) else s.seen q x) (hlevel : s'.level = s.level)
    (hqueue : s'.queue = s.queue) : s'.left spaces ptrs ≤ s.left spaces ptrs := by
  have := filter_length_le (fun q : Space × Name => (s.seen q.1 q.2).isNone) (fun q => (s'.seen q.1 q.2).isNone) ptrs (by
    intro q _ hq
    rw [hseen] at hq
    simp only at hq
    split at hq
    · cases hq
    · exact hq)
  unfold St.left
  rw [hlevel, hqueue]
  omega

theorem left_put_ptr {s s' : St} {sp : Space} {n : Name} {t : Tree}
    (hseen : s'.seen = fun q x => if q = sp ∧ x = n then some (some t) else s.seen q x) (hlevel : s'.level = s.level)
    (hqueue : s'.queue = s.queue) (hnone : s.seen sp n = none) (hm : (sp, n) ∈ ptrs) : s'.left spaces ptrs + 1 ≤ s.left spaces ptrs := by
  have := filter_length_lt (fun q : Space × Name => (s.seen q.1 q.2).isNone) (fun q => (s'.seen q.1 q.2).isNone) ptrs (by
    intro q _ hq
    rw [hseen] at hq
    simp only at hq
    split at hq
    · cases hq
    · exact hq) ⟨(sp, n), hm, by simp [hnone], by rw [hseen]; simp⟩
  unfold St.left
  rw [hlevel, hqueue]
  omega

/-- After what a name needs has been found, the name is put into the namespace. -/
theorem finish {s s1 s' : St} {sp : Space} {n : Name} {t : Tree} {h : Nat} (d : Den env Legal (h + 1) sp n t) (hs0 : s.seen sp n = none)
    (hlive : Live s sp) (i : Inv env Legal cur s1) (ext : Ext s s1) (fr : Frame env Legal h s s1)
    (hseen : s'.seen = fun q x => if q = sp ∧ x = n then some (some t) else s1.seen q x) (hlevel : s'.level = s1.level)
    (hqueue : s'.queue = s1.queue)
    (howner : ∀ v u, s'.owner v = some u → s1.owner v = some u ∨
      ∃ h ty md target, env.look n = some (n, ty, some (.check md target)) ∧ Den env Legal h sp md (.visibility v))
    (hdest : ∀ a, s1.dest a ≠ none → s'.dest a ≠ none)
    (hdestOk : ∀ a u, s'.dest a = some u → s1.dest a = some u ∨ (u = t ∧ ∃ ty k,
      env.look n = some (n, ty, some k) ∧ env.accepts sp ty = true ∧ Serves k n t a))
    (hbinds : ∀ a, Binds env Legal sp n a → s'.dest a ≠ none)
    (hptr : ∀ ty, env.look n = some (n, ty, some .ptr) → env.accepts sp ty = true → Job.dst sp n ∈ cur ++ s1.queue)
    (hspace : ∀ ty l, env.look n = some (n, ty, some (.space l)) → env.accepts sp ty = true → s1.level (n :: sp) = some l)
    (hsub : ∀ sp' n', Sub env Legal sp n sp' n' → s1.seen sp' n' ≠ none)
    (hN : NPut env Legal s1 s' sp n t)
    (hleft : s1.left spaces ptrs ≤ s.left spaces ptrs ∨ (s1.left spaces ptrs ≤ s.left spaces ptrs + 1 ∧ (sp, n) ∈ ptrs)) :
    s'.seen sp n = some (some t) ∧ Good env Legal spaces ptrs cur (h + 1) s s' := by
  have hnone : s1.seen sp n = none := by
    cases e : s1.seen sp n with
    | none => rfl
    | some o =>
      obtain ⟨h', t', hle, d'⟩ := fr sp n hs0 (by rw [e]; simp)
      have := (d.det d').1
      omega
  obtain ⟨i', ext'⟩ := i.put d (ext.live hlive) hnone hseen hlevel hqueue howner hdest hdestOk hbinds hptr hspace (fun q x hq => by
    rw [hseen]
    simp only
    split
    · simp
    · exact hsub q x hq) hN
  refine ⟨by rw [hseen]; simp, i', ext.trans ext', ?_, ?_⟩
  · intro q x e e'
    rw [hseen] at e'
    simp only at e'
    split at e'
    · next c =>
      obtain ⟨rfl, rfl⟩ := c
      exact ⟨h + 1, t, Nat.le_refl _, d⟩
    · obtain ⟨h', t', hle, d'⟩ := fr q x e e'
      exact ⟨h', t', by omega, d'⟩
  · rcases hleft with hle | ⟨hle, hm⟩
    · exact Nat.le_trans (left_put hseen hlevel hqueue) hle
    · have := left_put_ptr (spaces := spaces) hseen hlevel hqueue hnone hm
      omega

/-- Getting names with ways of at most this length succeeds. -/
def GetOk (env : Env) (Legal : Space → Name → Prop) (spaces : List Space) (ptrs : List (Space × Name)) (cur : List Job) (H : Nat) : Prop :=
  ∀ h sp n t, h ≤ H → Den env Legal h sp n t → ∀ s e, Inv env Legal cur s → Live s sp → (e = false → InstOk env sp n) → (e = true → Plain env sp n t) →
    ∃ s', Runs env s (.get sp e n) s' (.ok t) ∧ s'.seen sp n = some (some t) ∧ Good env Legal spaces ptrs cur h s s'

theorem args_ok {H : Nat} (ih : GetOk env Legal spaces ptrs cur H) {sp : Space} {svc : Name} : ∀ (as : List (Bool × Name)) (h : Nat)
    (ts done : List Tree) (s : St), h ≤ H → Args env Legal h sp as ts → Inv env Legal cur s → Live s sp →
    ∃ s', Runs env s (.args sp svc as done) s' (.ok (.handler svc (done ++ ts))) ∧ Good env Legal spaces ptrs cur h s s' ∧
      ∀ str a, (str, a) ∈ as → (str = true → env.look a ≠ none) → s'.seen sp a ≠ none := by
  intro as
  induction as with
  | nil =>
    intro h ts done s _ d i _
    cases d
    exact ⟨s, by simpa using runs_args_nil, Good.refl i _, by simp⟩
  | cons a as ih' =>
    intro h ts done s hle d i hlive
    cases d with
    | value hl d =>
      obtain ⟨s', hr, hg, hs⟩ := ih' _ _ (done ++ [.value _]) s hle d i hlive
      refine ⟨s', ?_, hg, ?_⟩
      · have := runs_args_value hl hr
        simpa using this
      · intro str a hm hn
        rcases List.mem_cons.1 hm with hm | hm
        · cases hm
          exact absurd hl (hn rfl)
        · exact hs str a hm hn
    | node hl d hc ds =>
      obtain ⟨s1, hr1, hs1, hg1⟩ := ih _ _ _ _ (by omega) d s true i hlive (by simp) (plain hc)
      obtain ⟨s', hr, hg, hs⟩ := ih' _ _ (done ++ [_]) s1 (by omega) ds hg1.inv (hg1.ext.live hlive)
      refine ⟨s', ?_, hg1.trans hg, ?_⟩
      · have := runs_args_node hl hr1 hr
        simpa using this
      · intro str a hm hn
        rcases List.mem_cons.1 hm with hm | hm
        · cases hm
          exact hg.ext.seen_ne (by rw [hs1]; simp)
        · exact hs str a hm hn

theorem getOk (snd : Sound env Legal spaces ptrs) : ∀ H, GetOk env Legal spaces ptrs cur H := by
  intro H
  induction H with
  | zero =>
    intro h sp n t hle d
    exact absurd d.height (by omega)
  | succ H ih =>
    intro h sp n t hle d s e i hlive he hpl
    cases hs : s.seen sp n with
    | some o =>
      obtain ⟨_, h', t', rfl, d'⟩ := i.seen _ _ _ hs
      obtain ⟨_, rfl⟩ := d.det d'
      exact ⟨s, runs_seen hs, hs, Good.refl i _⟩
    | none =>
    have d0 := d
    cases d with
    | alias lg hl hne d =>
      obtain ⟨s1, hr, hs1, hg⟩ := ih _ _ _ _ (by omega) d s e i hlive (fun h => instOk_alias hl hne (he h)) fun h => plain_alias hl hne (hpl h)
      refine ⟨_, runs_alias hs hl hne hr, ?_⟩
      refine finish d0 hs hlive hg.inv hg.ext hg.frame rfl rfl rfl (fun _ _ h => .inl h) (fun _ h => h) (fun _ _ h => .inl h) ?_ ?_ ?_
        (fun q x hq => by
          obtain ⟨rfl, rfl⟩ := sub_alias hl hne hq
          rw [hs1]
          simp) (setSeen_put hl hne) (.inl hg.left)
      · intro a b
        exact hg.inv.dest sp _ a (by rw [hs1]; simp) (binds_alias hl hne b)
      · intro ty hl' _
        rw [hl] at hl'
        cases hl'
        exact absurd rfl hne
      · intro ty l hl' _
        rw [hl] at hl'
        cases hl'
        exact absurd rfl hne
    | @climb h x r n ty k t lg hl ha d =>
      have hacc : s.accepts (x :: r) ty = false := by rw [i.accepts hlive]; exact ha
      obtain ⟨s1, hr, hs1, hg⟩ := ih _ _ _ _ (by omega) d s e i (i.live_tail hlive)
        (fun h => (instOk_climb hl ha (he h)).2) fun h => plain (plain_climb hl ha (hpl h)) h
      obtain ⟨e1, e2, e3, e4⟩ := afterParent_rest s1 (x :: r) n e k.proxy t
      refine ⟨_, runs_climb hs hl hacc hr, ?_⟩
      refine finish d0 hs hlive hg.inv hg.ext hg.frame (afterParent_seen ..) e1 e2 (fun _ _ h => .inl (by rw [e3] at h; exact h))
        (fun _ h => by rw [e4]; exact h) (fun _ _ h => .inl (by rw [e4] at h; exact h)) ?_ ?_ ?_
        (fun q x hq => by
          obtain ⟨rfl, rfl⟩ := sub_climb hl ha hq
          simp [hs1]) (afterParent_put d0 hl ha (fun h => (instOk_climb hl ha (he h)).1) fun h => plain_climb hl ha (hpl h)) (.inl hg.left)
      · intro a b
        rw [e4]
        exact hg.inv.dest r _ a (by rw [hs1]; simp) (binds_climb hl ha b)
      · intro ty' hl' ha'
        rw [hl] at hl'
        cases hl'
        rw [ha] at ha'
        cases ha'
      · intro ty' l hl' ha'
        rw [hl] at hl'
        cases hl'
        rw [ha] at ha'
        cases ha'
    | @built h sp n ty k t lg hl ha d =>
      have hacc : s.accepts sp ty = true := by rw [i.accepts hlive]; exact ha
      -- the common end of most build functions: nothing but nested requests happened
      have common : ∀ s1, Runs env s (.build sp n k) s1 (.ok t) → Good env Legal spaces ptrs cur h s s1 → (∀ l, k ≠ .space l) → k ≠ .ptr →
          (∀ a, Binds env Legal sp n a → s1.dest a ≠ none) → (∀ q x, Asks env Legal sp n k q x → s1.seen q x ≠ none) →
          ∃ s', Runs env s (.get sp e n) s' (.ok t) ∧ s'.seen sp n = some (some t) ∧ Good env Legal spaces ptrs cur (h + 1) s s' := by
        intro s1 hr hg hk hk' hb hq
        obtain ⟨e1, e2, e3, e4⟩ := afterBuild_rest s1 sp n k.proxy t
        refine ⟨_, runs_built hs hl hacc hr, ?_⟩
        refine finish d0 hs hlive hg.inv hg.ext hg.frame (afterBuild_seen ..) e1 e2 (fun _ _ h => .inl (by rw [e3] at h; exact h))
          (fun _ h => by rw [e4]; exact h) (fun _ _ h => .inl (by rw [e4] at h; exact h)) (fun a b => by rw [e4]; exact hb a b) ?_ ?_
          (fun q x h => hq q x (sub_built hl ha h)) (afterBuild_put d0 hl ha rfl rfl rfl) (.inl hg.left)
        · intro ty' hl' _
          rw [hl] at hl'
          cases hl'
          exact absurd rfl hk'
        · intro ty' l hl' _
          rw [hl] at hl'
          cases hl'
          exact absurd rfl (hk l)
      have nobind : (∀ x next, k ≠ .enter x next) → (∀ next addr, k ≠ .grpcServer next addr) → (∀ addr, k ≠ .container addr) → ∀ s1 : St, ∀ a,
          Binds env Legal sp n a → s1.dest a ≠ none := by
        intro h1 h2 h3 s1 a b
        rcases binds_built hl ha b with ⟨x, next, hk, _⟩ | ⟨_, addr, ⟨next, hk⟩ | hk, _⟩
        · exact absurd hk (h1 x next)
        · exact absurd hk (h2 next addr)
        · exact absurd hk (h3 addr)
      cases d with
      | handler hlen d =>
        obtain ⟨s1, hr, hg, hsn⟩ := args_ok ih (svc := _) _ _ _ [] s (by omega) d i hlive
        exact common s1 (runs_handler hlen (by simpa using hr)) hg (by simp) (by simp) (nobind (by simp) (by simp) (by simp) _)
          fun q x h => by
            cases h with
            | arg hm hn => exact hsn _ _ hm hn
      | client d hc =>
        obtain ⟨s1, hr, hs1, hg⟩ := ih _ _ _ _ (by omega) d s true i hlive (by simp) (plain hc)
        exact common s1 (runs_client hr) hg (by simp) (by simp) (nobind (by simp) (by simp) (by simp) _) fun q x h => by cases h; rw [hs1]; simp
      | wrap d ht =>
        have hc := service_plain ht
        obtain ⟨s1, hr, hs1, hg⟩ := ih _ _ _ _ (by omega) d s true i hlive (by simp) (plain hc)
        exact common s1 (runs_wrap hr ht) hg (by simp) (by simp) (nobind (by simp) (by simp) (by simp) _) fun q x h => by cases h; rw [hs1]; simp
      | visibility => exact common s runs_visibility (Good.refl i _) (by simp) (by simp) (nobind (by simp) (by simp) (by simp) _) fun q x h => by cases h
      | @check h1 h2 _ _ md target v _ dm d hc =>
        obtain ⟨s1, hr1, hs1, hg1⟩ := ih _ _ _ _ (by omega) dm s true i hlive (by simp) (plain rfl)
        have hfree : s1.owner v = none := by
          cases ho : s1.owner v with
          | none => rfl
          | some u =>
            obtain ⟨h', q, c, ty', md', target', hl', dv, hq⟩ := hg1.inv.owner _ _ ho
            obtain ⟨h'', u', _, du⟩ := hg1.inv.seen_some hq
            have hc := snd.own _ _ _ _ _ _ _ _ _ _ _ _ _ hl hl' lg du.legal dm dv
            subst hc
            have hq' := snd.unique _ _ _ _ _ _ hl lg du.legal
            subst hq'
            obtain ⟨h3, t3, hle3, d3⟩ := hg1.frame sp n hs hq
            have := (d0.det d3).1
            omega
        obtain ⟨s2, hr2, hs2, hg2⟩ := ih _ _ _ _ (by omega) d s1 true hg1.inv (hg1.ext.live hlive) (by simp) (plain hc)
        have hg := hg1.trans hg2
        have hr := runs_check (n := n) hr1 hfree hr2
        refine ⟨_, runs_built hs hl hacc hr, ?_⟩
        generalize hs3 : ({ s2 with owner := fun x => if x = v then some t else s2.owner x } : St) = s3
        obtain ⟨e1, e2, e3, e4⟩ := afterBuild_rest s3 sp n (Kind.check md target).proxy t
        have f1 : s3.seen = s2.seen := by rw [← hs3]
        have f2 : s3.level = s2.level := by rw [← hs3]
        have f3 : s3.queue = s2.queue := by rw [← hs3]
        have f4 : s3.dest = s2.dest := by rw [← hs3]
        have f5 : s3.nodes = s2.nodes := by rw [← hs3]
        have f6 : s3.edges = s2.edges := by rw [← hs3]
        have f7 : s3.added = s2.added := by rw [← hs3]
        refine finish d0 hs hlive hg.inv hg.ext hg.frame (by rw [← f1]; exact afterBuild_seen ..) (e1.trans f2) (e2.trans f3) ?_
          (fun _ h => by rw [e4, f4]; exact h) (fun _ _ h => .inl (by rw [e4, f4] at h; exact h)) (nobind (by simp) (by simp) (by simp) _) ?_ ?_
          (fun q x h => by
            have h := sub_built hl ha h
            cases h with
            | metadata => exact hg2.ext.seen_ne (by rw [hs1]; simp)
            | target => rw [hs2]; simp)
          (afterBuild_put d0 hl ha f5 f6 f7) (.inl hg.left)
        · intro w u hw
          rw [e3, ← hs3] at hw
          simp only at hw
          split at hw
          · next c =>
            subst c
            exact .inr ⟨h1, ty, md, target, hl, dm⟩
          · exact .inl hw
        · intro ty' hl' _
          rw [hl] at hl'
          cases hl'
        · intro ty' l hl' _
          rw [hl] at hl'
          cases hl'
      | @ptr _ _ _ p _ hp d hc =>
        obtain ⟨hm, p', hp', _⟩ := snd.pointer sp n ty lg hl ha
        have i0 : Inv env Legal cur { s with queue := s.queue ++ [.dst sp n] } := by
          refine ⟨i.seen, i.level, i.space, i.owner, i.dest, i.destOk, i.subs, ?_, ?_, ?_, i.distinct, i.marked, i.nodes, i.edges, i.owned,
            i.crossed, i.added⟩
          · intro x r hx
            refine (i.kids x r hx).imp (fun hm => ?_) id
            simp only [List.mem_append] at hm ⊢
            exact hm.imp id .inl
          · intro q x ty' hx hl' ha'
            refine (i.ptrs q x ty' hx hl' ha').imp (fun hm => ?_) id
            simp only [List.mem_append] at hm ⊢
            exact hm.imp id .inl
          · intro j hj
            simp only [List.mem_append, List.mem_singleton] at hj
            rcases hj with hj | hj | rfl
            · exact i.jobs j (List.mem_append_left _ hj)
            · exact i.jobs j (List.mem_append_right _ hj)
            · exact ⟨hlive, lg, ty, hl, ha⟩
        obtain ⟨s1, hr, hs1, hg⟩ := ih _ _ _ _ (by omega) d _ true i0 hlive (by simp) (plain hc)
        obtain ⟨e1, e2, e3, e4⟩ := afterBuild_rest s1 sp n Kind.ptr.proxy t
        refine ⟨_, runs_built hs hl hacc (runs_ptr hp hr), ?_⟩
        refine finish d0 hs hlive hg.inv ⟨hg.ext.seen, hg.ext.level, hg.ext.dest, fun j hj => hg.ext.queue j (by simp [hj])⟩ hg.frame
          (afterBuild_seen ..) e1 e2 (fun _ _ h => .inl (by rw [e3] at h; exact h))
          (fun _ h => by rw [e4]; exact h) (fun _ _ h => .inl (by rw [e4] at h; exact h)) (nobind (by simp) (by simp) (by simp) _) ?_ ?_
          (fun q x h => by
            have h := sub_built hl ha h
            cases h with
            | ptr hp' =>
              rw [hp] at hp'
              cases hp'
              rw [hs1]
              simp)
          (afterBuild_put d0 hl ha rfl rfl rfl) (.inr ⟨?_, hm⟩)
        · intro ty' _ _
          exact List.mem_append_right _ (hg.ext.queue _ (by simp))
        · intro ty' l hl' _
          rw [hl] at hl'
          cases hl'
        · have := hg.left
          simp only [St.left, List.length_append, List.length_singleton] at this ⊢
          omega
      | addr => exact common s runs_addr (Good.refl i _) (by simp) (by simp) (nobind (by simp) (by simp) (by simp) _) fun q x h => by cases h
      | bind => exact common s runs_bind (Good.refl i _) (by simp) (by simp) (nobind (by simp) (by simp) (by simp) _) fun q x h => by cases h
      | dial => exact common s runs_dial (Good.refl i _) (by simp) (by simp) (nobind (by simp) (by simp) (by simp) _) fun q x h => by cases h
      | grpcClient d d' =>
        obtain ⟨s1, hr1, hs1, hg1⟩ := ih _ _ _ _ (by omega) d s true i hlive (by simp) (plain rfl)
        obtain ⟨s2, hr2, hs2, hg2⟩ := ih _ _ _ _ (by omega) d' s1 true hg1.inv (hg1.ext.live hlive) (by simp) (plain rfl)
        exact common s2 (runs_grpcClient hr1 hr2) (hg1.trans hg2) (by simp) (by simp) (nobind (by simp) (by simp) (by simp) _)
          fun q x h => by
            cases h with
            | dialled => exact hg2.ext.seen_ne (by rw [hs1]; simp)
            | dial d2 =>
              have := (d.det d2).2
              injection this with this
              rw [← this, hs2]
              simp
      | @grpcServer h1 h2 h3 _ _ next addr a b t d ht d' d'' =>
        have hc := service_plain ht
        obtain ⟨s1, hr1, hs1, hg1⟩ := ih _ _ _ _ (by omega) d s true i hlive (by simp) (plain hc)
        obtain ⟨s2, hr2, hs2, hg2⟩ := ih _ _ _ _ (by omega) d' s1 true hg1.inv (hg1.ext.live hlive) (by simp) (plain rfl)
        obtain ⟨s3, hr3, hs3, hg3⟩ := ih _ _ _ _ (by omega) d'' s2 true hg2.inv (hg2.ext.live (hg1.ext.live hlive)) (by simp) (plain rfl)
        have hg := hg1.trans (hg2.trans hg3)
        have hr := runs_grpcServer (n := n) hr1 ht hr2 hr3
        refine ⟨_, runs_built hs hl hacc hr, ?_⟩
        generalize hs4 : ({ s3 with dest := fun x => if x = a then some (.grpcServer n t a) else s3.dest x } : St) = s4
        obtain ⟨e1, e2, e3, e4⟩ := afterBuild_rest s4 sp n (Kind.grpcServer next addr).proxy (.grpcServer n t a)
        have f1 : s4.seen = s3.seen := by rw [← hs4]
        have f2 : s4.level = s3.level := by rw [← hs4]
        have f3 : s4.queue = s3.queue := by rw [← hs4]
        have f4 : s4.owner = s3.owner := by rw [← hs4]
        have f5 : s4.nodes = s3.nodes := by rw [← hs4]
        have f6 : s4.edges = s3.edges := by rw [← hs4]
        have f7 : s4.added = s3.added := by rw [← hs4]
        have f8 : s4.dest = fun x => if x = a then some (.grpcServer n t a) else s3.dest x := by rw [← hs4]
        refine finish d0 hs hlive hg.inv hg.ext hg.frame (by rw [← f1]; exact afterBuild_seen ..) (e1.trans f2) (e2.trans f3)
          (fun _ _ h => .inl (by rw [e3, f4] at h; exact h)) ?_ ?_ ?_ ?_ ?_
          (fun q x h => by
            have h := sub_built hl ha h
            cases h with
            | served => exact hg3.ext.seen_ne (hg2.ext.seen_ne (by rw [hs1]; simp))
            | address => exact hg3.ext.seen_ne (by rw [hs2]; simp)
            | bind d2 =>
              have := (d'.det d2).2
              injection this with this
              rw [← this, hs3]
              simp)
          (afterBuild_put d0 hl ha f5 f6 f7) (.inl hg.left)
        · intro x hx
          rw [e4, f8]
          simp only
          split
          · simp
          · exact hx
        · intro x u hx
          rw [e4, f8] at hx
          simp only at hx
          split at hx
          · next c =>
            subst c
            injection hx with hx
            exact .inr ⟨hx.symm, ty, _, hl, ha, .inl ⟨_, _, _, rfl, rfl⟩⟩
          · exact .inl hx
        · intro x bx
          rcases binds_built hl ha bx with ⟨y, nx, hk, _⟩ | ⟨_, ad, ⟨nx, hk⟩ | hk, dx⟩
          · cases hk
          rotate_left
          · cases hk
          · cases hk
            have := (d'.det dx).2
            injection this with this
            rw [e4, f8, this]
            simp
        · intro ty' hl' _
          rw [hl] at hl'
          cases hl'
        · intro ty' l hl' _
          rw [hl] at hl'
          cases hl'
      | @enter h1 h2 _ _ x next ty' l t hlx hax dx io d =>
        obtain ⟨s1, hr1, hs1, hg1⟩ := ih _ _ _ _ (by omega) dx s true i hlive (by simp) (plain rfl)
        have hlv : s1.level (x :: sp) = some l := hg1.inv.space sp x ty' l (by rw [hs1]; simp) hlx hax
        obtain ⟨s2, hr2, hs2, hg2⟩ := ih _ _ _ _ (by omega) d s1 false hg1.inv (.inr (by rw [hlv]; simp)) (fun _ => io) (by simp)
        refine common s2 (runs_enter hr1 (by rw [hlv]; rfl) hr2) (hg1.trans hg2) (by simp) (by simp) ?_ fun q x h => by
          cases h with
          | space => exact hg2.ext.seen_ne (by rw [hs1]; simp)
          | inside => rw [hs2]; simp
        intro a b
        rcases binds_built hl ha b with ⟨y, nx, hk, b⟩ | ⟨_, ad, ⟨nx, hk⟩ | hk, _⟩
        · cases hk
          exact hg2.inv.dest _ _ a (by rw [hs2]; simp) b
        · cases hk
        · cases hk
      | @container h1 h2 _ _ addr a b d' d'' =>
        obtain ⟨s2, hr2, hs2, hg2⟩ := ih _ _ _ _ (by omega) d' s true i hlive (by simp) (plain rfl)
        obtain ⟨s3, hr3, hs3, hg3⟩ := ih _ _ _ _ (by omega) d'' s2 true hg2.inv (hg2.ext.live hlive) (by simp) (plain rfl)
        have hg := hg2.trans hg3
        have hr := runs_container (n := n) hr2 hr3
        refine ⟨_, runs_built hs hl hacc hr, ?_⟩
        generalize hs4 : ({ s3 with dest := fun x => if x = a then some (.container n a) else s3.dest x } : St) = s4
        obtain ⟨e1, e2, e3, e4⟩ := afterBuild_rest s4 sp n (Kind.container addr).proxy (.container n a)
        have f1 : s4.seen = s3.seen := by rw [← hs4]
        have f2 : s4.level = s3.level := by rw [← hs4]
        have f3 : s4.queue = s3.queue := by rw [← hs4]
        have f4 : s4.owner = s3.owner := by rw [← hs4]
        have f5 : s4.nodes = s3.nodes := by rw [← hs4]
        have f6 : s4.edges = s3.edges := by rw [← hs4]
        have f7 : s4.added = s3.added := by rw [← hs4]
        have f8 : s4.dest = fun x => if x = a then some (.container n a) else s3.dest x := by rw [← hs4]
        refine finish d0 hs hlive hg.inv hg.ext hg.frame (by rw [← f1]; exact afterBuild_seen ..) (e1.trans f2) (e2.trans f3)
          (fun _ _ h => .inl (by rw [e3, f4] at h; exact h)) ?_ ?_ ?_ ?_ ?_
          (fun q x h => by
            have h := sub_built hl ha h
            cases h with
            | ctrAddress => exact hg3.ext.seen_ne (by rw [hs2]; simp)
            | ctrBind d2 =>
              have := (d'.det d2).2
              injection this with this
              rw [← this, hs3]
              simp)
          (afterBuild_put d0 hl ha f5 f6 f7) (.inl hg.left)
        · intro x hx
          rw [e4, f8]
          simp only
          split
          · simp
          · exact hx
        · intro x u hx
          rw [e4, f8] at hx
          simp only at hx
          split at hx
          · next c =>
            subst c
            injection hx with hx
            exact .inr ⟨hx.symm, ty, _, hl, ha, .inr ⟨_, rfl, rfl⟩⟩
          · exact .inl hx
        · intro x bx
          rcases binds_built hl ha bx with ⟨y, nx, hk, _⟩ | ⟨_, ad, ⟨nx, hk⟩ | hk, dx⟩
          · cases hk
          · cases hk
          · cases hk
            have := (d'.det dx).2
            injection this with this
            rw [e4, f8, this]
            simp
        · intro ty' hl' _
          rw [hl] at hl'
          cases hl'
        · intro ty' l hl' _
          rw [hl] at hl'
          cases hl'
      | @space _ _ l =>
        have hlv : s.level (n :: sp) = none := by
          cases hx : s.level (n :: sp) with
          | none => rfl
          | some m =>
            obtain ⟨y, r, ty', e1, _, _, e2⟩ := i.level _ _ hx
            cases e1
            exact absurd hs e2
        have hr := runs_space (env := env) (s := s) (sp := sp) (n := n) (l := l) hlv
        refine ⟨_, runs_built hs hl hacc hr, ?_⟩
        generalize hs1 : ({ s with
          level := fun q => if q = n :: sp then some l else s.level q, queue := .children (n :: sp) :: s.queue } : St) = s1
        obtain ⟨e1, e2, e3, e4⟩ := afterBuild_rest s1 sp n (Kind.space l).proxy (.space n)
        have e5 := afterBuild_seen s1 sp n (Kind.space l).proxy (.space n)
        have f1 : s1.seen = s.seen := by rw [← hs1]
        have f2 : s1.level = fun q => if q = n :: sp then some l else s.level q := by rw [← hs1]
        have f3 : s1.queue = .children (n :: sp) :: s.queue := by rw [← hs1]
        have f4 : s1.owner = s.owner := by rw [← hs1]
        have f5 : s1.nodes = s.nodes := by rw [← hs1]
        have f6 : s1.edges = s.edges := by rw [← hs1]
        have f7 : s1.added = s.added := by rw [← hs1]
        have f8 : s1.dest = s.dest := by rw [← hs1]
        have hput := afterBuild_put d0 hl ha f5 f6 f7
        generalize s1.afterBuild sp n (Kind.space l).proxy (.space n) = s' at e1 e2 e3 e4 e5 hput ⊢
        rw [f1] at e5
        rw [f2] at e1
        rw [f3] at e2
        rw [f4] at e3
        rw [f8] at e4
        have hlv' : s'.level (n :: sp) = some l := by rw [e1]; simp
        have hmono : ∀ q m, s.level q = some m → s'.level q = some m := by
          intro q m hq
          rw [e1]
          simp only
          split
          · next c => rw [c, hlv] at hq; cases hq
          · exact hq
        obtain ⟨i', ext'⟩ := i.put_space d0 hlive hs e5 hmono
          (by
            intro q m hq
            rw [e1] at hq
            simp only at hq
            split at hq
            · next c =>
              injection hq with hq
              subst c hq
              exact .inr ⟨rfl, ty, hl, ha, by rw [e2]; simp⟩
            · exact .inl hq)
          (by intro j hj; rw [e2]; exact List.mem_cons_of_mem _ hj)
          (by
            intro j hj
            rw [e2] at hj
            rcases List.mem_cons.1 hj with rfl | hj
            · exact .inr (by rw [JobOk, hlv']; simp)
            · exact .inl hj)
          (fun _ _ h => .inl (by rw [e3] at h; exact h)) (fun _ h => by rw [e4]; exact h) (fun _ _ h => .inl (by rw [e4] at h; exact h))
          (nobind (by simp) (by simp) (by simp) _)
          (by
            intro ty' hl' _
            rw [hl] at hl'
            cases hl')
          (by
            intro ty' m hl' _
            rw [hl] at hl'
            cases hl'
            exact hlv')
          (fun q x h => by cases sub_built hl ha h)
          hput
        refine ⟨by rw [e5]; simp, i', ext', ?_, ?_⟩
        · intro q x hq hq'
          rw [e5] at hq'
          simp only at hq'
          split at hq'
          · next c =>
            obtain ⟨rfl, rfl⟩ := c
            exact ⟨0 + 1, _, Nat.le_refl _, d0⟩
          · exact absurd hq hq'
        · have hm := (snd.children sp n ty l lg hl ha).1
          have h1 := filter_length_lt (fun q : Space => (s.level q).isNone) (fun q => (s'.level q).isNone) spaces (by
            intro q _ hq
            cases hx : s.level q with
            | none => rfl
            | some m => rw [hmono q m hx] at hq; cases hq) ⟨n :: sp, hm, by simp [hlv], by simp [hlv']⟩
          have h2 := filter_length_le (fun q : Space × Name => (s.seen q.1 q.2).isNone) (fun q => (s'.seen q.1 q.2).isNone) ptrs (by
            intro q _ hq
            rw [e5] at hq
            simp only at hq
            split at hq
            · cases hq
            · exact hq)
          unfold St.left
          rw [e2, List.length_cons]
          omega

end Verif.Compile
