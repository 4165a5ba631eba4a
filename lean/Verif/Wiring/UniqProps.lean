import Verif.Wiring.NsRel
import Verif.Wiring.UniqModel
/-
C20: the uniqueness check.
-/
namespace Verif.Wiring.Ns
variable {T : Type}

/-- Successful builds of the check `chk` between two states: each one found its
metadata unused, and used it. -/
structure UExt (chk mdN : Name) (s s' : St T) : Prop where
  fields : ∀ u, s.fields u ≠ none → s'.fields u ≠ none
  new : ∃ es, s'.log = s.log ++ es ∧
    (∀ m n, Event.built m chk n ∈ es → ∃ md, s'.seen m mdN = some (some md) ∧
      s'.fields md.uid ≠ none ∧ s.fields md.uid = none) ∧
    (∀ m1 m2 n1 n2, Event.built m1 chk n1 ∈ es → Event.built m2 chk n2 ∈ es →
      s'.seen m1 mdN = s'.seen m2 mdN → m1 = m2)

theorem UExt.silent {chk mdN : Name} {s s' : St T}
    (hf : ∀ u, s.fields u ≠ none → s'.fields u ≠ none) (es : List Event)
    (hl : s'.log = s.log ++ es) (hn : ∀ m n, Event.built m chk n ∉ es) : UExt chk mdN s s' :=
  ⟨hf, es, hl, fun m n h => absurd h (hn m n), fun m1 _ n1 _ h => absurd h (hn m1 n1)⟩

theorem UExt.trans {look : Lookup T} {chk mdN : Name} {s s1 s2 : St T}
    (h2 : Ext look (fun _ _ => True) s1 s2) (u1 : UExt chk mdN s s1) (u2 : UExt chk mdN s1 s2) :
    UExt chk mdN s s2 := by
  obtain ⟨es1, l1, b1, c1⟩ := u1.new
  obtain ⟨es2, l2, b2, c2⟩ := u2.new
  have cross : ∀ m1 m2 n1 n2, Event.built m1 chk n1 ∈ es1 → Event.built m2 chk n2 ∈ es2 →
      s2.seen m1 mdN = s2.seen m2 mdN → False := by
    intro m1 m2 n1 n2 h1 h2' e
    obtain ⟨md1, a1, f1, -⟩ := b1 m1 n1 h1
    obtain ⟨md2, a2, -, g2⟩ := b2 m2 n2 h2'
    rw [h2.mono _ _ _ a1, a2] at e
    simp only [Option.some.injEq] at e
    subst e
    exact f1 g2
  refine ⟨fun u h => u2.fields u (u1.fields u h), es1 ++ es2, by rw [l2, l1, List.append_assoc],
    ?_, ?_⟩
  · intro m n hm
    rcases List.mem_append.1 hm with hm | hm
    · obtain ⟨md, a, f, g⟩ := b1 m n hm
      exact ⟨md, h2.mono _ _ _ a, u2.fields _ f, g⟩
    · obtain ⟨md, a, f, g⟩ := b2 m n hm
      refine ⟨md, a, f, ?_⟩
      cases hc : s.fields md.uid with
      | none => rfl
      | some v => exact absurd g (u1.fields _ (by rw [hc]; simp))
  · intro m1 m2 n1 n2 h1 h2' e
    rcases List.mem_append.1 h1 with h1 | h1 <;> rcases List.mem_append.1 h2' with h2' | h2'
    · obtain ⟨md1, a1, -⟩ := b1 m1 n1 h1
      obtain ⟨md2, a2, -⟩ := b1 m2 n2 h2'
      rw [h2.mono _ _ _ a1, h2.mono _ _ _ a2] at e
      exact c1 m1 m2 n1 n2 h1 h2' (by rw [a1, a2, e])
    · exact (cross m1 m2 n1 n2 h1 h2' e).elim
    · exact (cross m2 m1 n2 n1 h2' h1 e.symm).elim
    · exact c2 m1 m2 n1 n2 h1 h2' e

/-- A successful run of the check's build function. -/
theorem check_run (look : Lookup T) {mdN name : Name} {ns : NsId} {fuel : Nat} {s s1 : St T}
    {n : Node} (hns : ns < s.size)
    (h : exec look fuel s (.prog (uniquenessBuild mdN name ns)) = some (s1, .ok n)) :
    ∃ f sA sB md, f ≤ fuel ∧ exec look f s (.get ns true mdN) = some (sA, .ok md) ∧
      sA.fields md.uid = none ∧ ns < sA.size ∧
      exec look f sA (.get ns true name) = some (sB, .ok n) ∧
      s1 = { sB with fields := fun u => if u = md.uid then some n else sB.fields u } := by
  have up : ∀ {f : Nat} {x : St T × Res} {t : Task T} {q : St T}, exec look f q t = some x →
      ∀ f', f ≤ f' → exec look f' q t = some x := fun h f' hle => exec_mono_le look hle h
  cases fuel with
  | zero => simp [exec] at h
  | succ fuel =>
    unfold uniquenessBuild at h
    rw [exec] at h
    simp only [hns, if_true] at h
    cases h1 : exec look fuel s (.get ns true mdN) with
    | none => simp [h1] at h
    | some x =>
      obtain ⟨sA, rA⟩ := x
      simp only [h1] at h
      cases rA with
      | panic => simp at h
      | err =>
        cases fuel with
        | zero => simp [exec] at h
        | succ fuel => simp [exec] at h
      | ok md =>
        cases fuel with
        | zero => simp [exec] at h
        | succ fuel =>
          simp only [exec] at h
          cases hf : sA.fields md.uid with
          | some v =>
            simp only [hf] at h
            cases fuel with
            | zero => simp [exec] at h
            | succ fuel => simp [exec] at h
          | none =>
            simp only [hf] at h
            cases fuel with
            | zero => simp [exec] at h
            | succ fuel =>
              simp only [exec] at h
              by_cases hns2 : ns < sA.size
              · simp only [hns2, if_true] at h
                cases h2 : exec look fuel sA (.get ns true name) with
                | none => simp [h2] at h
                | some y =>
                  obtain ⟨sB, rB⟩ := y
                  simp only [h2] at h
                  cases rB with
                  | panic => simp at h
                  | err =>
                    cases fuel with
                    | zero => simp [exec] at h
                    | succ fuel => simp [exec] at h
                  | ok node =>
                    cases fuel with
                    | zero => simp [exec] at h
                    | succ fuel =>
                      simp only [exec] at h
                      cases fuel with
                      | zero => simp [exec] at h
                      | succ fuel =>
                        simp only [exec] at h
                        simp only [Option.some.injEq, Prod.mk.injEq, Res.ok.injEq] at h
                        obtain ⟨rfl, rfl⟩ := h
                        exact ⟨_, sA, sB, md, by omega, h1, hf, hns2, up h2 _ (by omega), rfl⟩
              · simp [hns2] at h

theorem uniq_exec (look : Lookup T) (rank : Name → Nat) (hac : Acyclic look rank)
    {chk mdN name : Name} {d : NsDef T} (hchk : look chk = some (chk, d))
    (hd : d.build = some (uniquenessBuild mdN name)) :
    ∀ (fuel : Nat) (s : St T) (t : Task T) (s' : St T) (r : Res), WF s → TaskOk s t →
      exec look fuel s t = some (s', r) → UExt chk mdN s s' := by
  refine exec_rel look rank hac (UExt chk mdN) ?_ ?_ ?_ ?_ ?_ ?_ ?_ ?_ ?_
  · intro s; exact .silent (fun _ h => h) [] (by simp) (by simp)
  · intro s s1 s2 _ h2 u1 u2; exact u1.trans h2 u2
  · intro s; exact .silent (fun _ h => h) [] (by simp) (by simp)
  · intro s uid v
    refine .silent ?_ [] (by simp) (by simp)
    intro u h
    simp only []
    split
    · simp
    · exact h
  · intro s front f; exact .silent (fun _ h => h) [.deferred s.nextTicket front] rfl (by simp)
  · intro s ns x acc _ _; exact .silent (fun _ h => h) [] (by simp [St.addChild]) (by simp)
  · intro s ns nm dn d' v _ _ _ _ _ _
    exact .silent (fun _ h => h) [] (by simp [St.setSeen]) (by simp)
  · intro s ns nm d' p edge n _ _ _ _ _ _ _
    unfold St.afterParent
    by_cases ha : s.added ns n.name
    · simp only [ha, if_true]
      exact .silent (fun _ h => h) [] (by simp [St.setSeen]) (by simp)
    · simp only [ha, if_false, Bool.false_eq_true]
      split
      · exact .silent (fun _ h => h) [.addEdge ns nm n] rfl (by simp)
      · exact .silent (fun _ h => h) [.hidden ns nm n edge] rfl (by simp)
  · intro s s1 ns nm d' build fuel n w hns hl hb hacc hnone he hstill hx ih
    have u1 := ih fuel s _ s1 _ (Nat.le_refl _) w (by intro _ _ _ h; cases h) he
    have hns1 := Nat.lt_of_lt_of_le hns hx.size
    have hacc1 : s1.accepts ns d'.nodeType = true := by rw [hx.accepts ns hns]; exact hacc
    have hxb := (Ext.afterBuild (look := look) (A := fun _ _ => True) (proxy := d'.proxy) (n := n)
      hx.wf hns1 hstill trivial hl hacc1).1
    -- the events of the build
    obtain ⟨es, hlog, hes⟩ : ∃ es, (s1.afterBuild ns nm d'.proxy n).log
        = s1.log ++ (.built ns nm n :: es) ∧ ∀ m x n', Event.built m x n' ∉ es := by
      unfold St.afterBuild
      by_cases ha : (s1.emit (.built ns nm n)).added ns n.name
      · simp only [ha, if_true]
        exact ⟨[], by simp [St.setSeen, St.emit], by simp⟩
      · simp only [ha, if_false, Bool.false_eq_true]
        cases d'.proxy
        · exact ⟨[.addNode ns nm n], by simp [St.setSeen, St.emit, St.setAdded], by simp⟩
        · exact ⟨[.hidden ns nm n true], by simp [St.setSeen, St.emit, St.setAdded], by simp⟩
    have hfields : (s1.afterBuild ns nm d'.proxy n).fields = s1.fields := by
      unfold St.afterBuild
      simp only [St.setSeen]
      split <;> (try split) <;> rfl
    by_cases hc : nm = chk
    · subst hc
      rw [hchk] at hl
      simp only [Option.some.injEq, Prod.mk.injEq, true_and] at hl
      subst hl
      rw [hd] at hb
      simp only [Option.some.injEq] at hb
      subst hb
      obtain ⟨f, sA, sB, md, hf, hgA, hfA, hnsA, hgB, hs1⟩ := check_run look hns he
      have hok : ∀ {q : St T} {x : Name}, ns < q.size → TaskOk q (.get ns true x : Task T) := by
        intro q x hq _ _ _ h; injection h with a; subst a; exact hq
      obtain ⟨xA, resA⟩ := exec_ext look rank hac f s _ sA _ w (hok hns) hgA
      obtain ⟨xB, -⟩ := exec_ext look rank hac f sA _ sB _ xA.wf (hok hnsA) hgB
      have uA := ih f s _ sA _ hf w (hok hns) hgA
      have hbelow := (hac nm nm d hchk).2 rfl _ ns hd
      have hrank : rank name < rank nm := by
        cases hbelow with
        | get _ _ _ _ _ hk =>
          have := hk (some md)
          cases this with
          | load _ _ hk2 =>
            have := hk2 none
            cases this with
            | get _ _ _ _ hr _ => exact hr
      have hseenMd : s1.seen ns mdN = some (some md) := by
        rw [hs1]
        exact xB.mono _ _ _ (resA ns true mdN md rfl rfl)
      -- no check is built between sA and s1
      obtain ⟨esB, lB, bB, -⟩ := xB.log
      have noB : ∀ m n', Event.built m nm n' ∉ esB := by
        intro m n' hm
        obtain ⟨a, b, -⟩ := bB m nm n' hm
        have := xB.new m nm a (by rw [b]; simp)
        rcases this with this | ⟨this, -⟩
        · omega
        · rw [this] at hrank; omega
      obtain ⟨esA, lA, bA, cA⟩ := uA.new
      have l1 : s1.log = s.log ++ (esA ++ esB) := by
        rw [hs1]
        show sB.log = _
        rw [lB, lA, List.append_assoc]
      obtain ⟨es1, l1', b1, c1⟩ := u1.new
      have hes1 : es1 = esA ++ esB := by
        rw [l1'] at l1
        exact List.append_cancel_left l1
      have hnoMd : ∀ m n', Event.built m nm n' ∈ es1 → s1.seen m mdN ≠ some (some md) := by
        intro m n' hm heq
        rw [hes1] at hm
        rcases List.mem_append.1 hm with hm | hm
        · obtain ⟨md', a, fA, -⟩ := bA m n' hm
          have : s1.seen m mdN = some (some md') := by
            rw [hs1]; exact xB.mono _ _ _ a
          rw [this] at heq
          simp only [Option.some.injEq] at heq
          subst heq
          exact fA hfA
        · exact noB m n' hm
      have hsf : s.fields md.uid = none := by
        cases hcf : s.fields md.uid with
        | none => rfl
        | some v => exact absurd hfA (uA.fields _ (by rw [hcf]; simp))
      have hs1f : s1.fields md.uid ≠ none := by rw [hs1]; simp
      refine ⟨?_, es1 ++ (.built ns nm n :: es), by rw [hlog, l1', List.append_assoc], ?_, ?_⟩
      · intro u h; rw [hfields]; exact u1.fields u h
      · intro m n' hm
        rw [hfields]
        rcases List.mem_append.1 hm with hm | hm
        · obtain ⟨md', a, b, c⟩ := b1 m n' hm
          exact ⟨md', hxb.mono _ _ _ a, b, c⟩
        · rcases List.mem_cons.1 hm with hm | hm
          · injection hm with e1 e2 e3
            subst e1
            exact ⟨md, hxb.mono _ _ _ hseenMd, hs1f, hsf⟩
          · exact absurd hm (hes _ _ _)
      · intro m1 m2 n1 n2 h1 h2 e
        have hnsMd := hxb.mono _ _ _ hseenMd
        rcases List.mem_append.1 h1 with g1 | g1 <;> rcases List.mem_append.1 h2 with g2 | g2
        all_goals clear h1 h2
        · obtain ⟨md1, a1, -⟩ := b1 m1 n1 g1
          obtain ⟨md2, a2, -⟩ := b1 m2 n2 g2
          rw [hxb.mono _ _ _ a1, hxb.mono _ _ _ a2] at e
          exact c1 m1 m2 n1 n2 g1 g2 (by rw [a1, a2, e])
        · rcases List.mem_cons.1 g2 with g2 | g2
          · injection g2 with e1 e2 e3
            subst e1
            obtain ⟨md1, a1, -⟩ := b1 m1 n1 g1
            rw [hxb.mono _ _ _ a1, hnsMd] at e
            exact absurd (by rw [a1, e]) (hnoMd m1 n1 g1)
          · exact absurd g2 (hes _ _ _)
        · rcases List.mem_cons.1 g1 with g1 | g1
          · injection g1 with e1 e2 e3
            subst e1
            obtain ⟨md2, a2, -⟩ := b1 m2 n2 g2
            rw [hxb.mono _ _ _ a2, hnsMd] at e
            exact absurd (by rw [a2, ← e]) (hnoMd m2 n2 g2)
          · exact absurd g1 (hes _ _ _)
        · rcases List.mem_cons.1 g1 with g1 | g1
          · rcases List.mem_cons.1 g2 with g2 | g2
            · injection g1 with e1
              injection g2 with e2
              rw [e1, e2]
            · exact absurd g2 (hes _ _ _)
          · exact absurd g1 (hes _ _ _)
    · refine u1.trans hxb (.silent ?_ (.built ns nm n :: es) hlog ?_)
      · intro u h; rw [hfields]; exact h
      · intro m n' hm
        rcases List.mem_cons.1 hm with hm | hm
        · injection hm with _ e2 _
          exact hc e2.symm
        · exact hes _ _ _ hm

/-- What is known about a name in two namespaces with the same nearest accepting
namespace is the same node. -/
theorem known_same (look : Lookup T) (rank : Name → Nat) (hac : Acyclic look rank) {s : St T}
    (h : History look St.init s) {x : Name} {d : NsDef T} (hl : look x = some (x, d))
    {m a : NsId} {path : List NsId} (hn : Nearest s d.nodeType m path a) :
    ∀ {n : Node}, s.seen m x = some (some n) → s.seen a x = some (some n) := by
  induction hn with
  | here _ => intro n h; exact h
  | up hacc hp _ ih =>
    intro n hs
    rcases known_history look rank hac h hs with ⟨d', e, ha, -⟩ | ⟨d', p, e, hr, hp', hs'⟩ | ⟨dn, d', e, hdn, -⟩
    · rw [hl] at e
      simp only [Option.some.injEq, Prod.mk.injEq, true_and] at e
      subst e
      rw [hacc] at ha; exact absurd ha (by simp)
    · rw [hp] at hp'
      injection hp' with hp'
      subst hp'
      exact ih hs'
    · rw [hl] at e
      simp only [Option.some.injEq, Prod.mk.injEq] at e
      exact absurd e.1.symm hdn

/-- C20: let `chk` be the uniqueness check of `name` with metadata `mdN`.  In every
compilation, within one namespace `a` of the granularity (the nearest one accepting the
metadata) the check succeeds in at most one namespace. -/
theorem C20_unique (look : Lookup T) (rank : Name → Nat) (hac : Acyclic look rank)
    {chk mdN name : Name} {d dmd : NsDef T} (hchk : look chk = some (chk, d))
    (hd : d.build = some (uniquenessBuild mdN name)) (hmd : look mdN = some (mdN, dmd))
    {s : St T} (h : History look St.init s) {m1 m2 a : NsId} {p1 p2 : List NsId} {n1 n2 : Node}
    (h1 : .built m1 chk n1 ∈ s.log) (h2 : .built m2 chk n2 ∈ s.log)
    (a1 : Nearest s dmd.nodeType m1 p1 a) (a2 : Nearest s dmd.nodeType m2 p2 a) : m1 = m2 := by
  have u := history_rel look rank hac (UExt chk mdN)
    (fun s => .silent (fun _ h => h) [] (by simp) (by simp))
    (fun s s1 s2 _ h2 u1 u2 => u1.trans h2 u2) (uniq_exec look rank hac hchk hd) h WF.init
  obtain ⟨es, hl, hb, hc⟩ := u.new
  have hl' : s.log = es := by rw [hl]; rfl
  rw [hl'] at h1 h2
  obtain ⟨md1, s1, -⟩ := hb m1 n1 h1
  obtain ⟨md2, s2, -⟩ := hb m2 n2 h2
  refine hc m1 m2 n1 n2 h1 h2 ?_
  have e1 := known_same look rank hac h hmd a1 s1
  have e2 := known_same look rank hac h hmd a2 s2
  rw [s1, s2, ← e1, ← e2]

/-- C20: once the check has succeeded in `m1`, reaching the node from another
namespace `m2` of the same granularity fails. -/
theorem C20_second_rejected (look : Lookup T) (rank : Name → Nat) (hac : Acyclic look rank)
    {chk mdN name : Name} {d dmd : NsDef T} (hchk : look chk = some (chk, d))
    (hd : d.build = some (uniquenessBuild mdN name)) (hmd : look mdN = some (mdN, dmd))
    {s s1 : St T} (h : History look St.init s) {m1 m2 a : NsId} {p1 p2 : List NsId} {n1 : Node}
    (h1 : .built m1 chk n1 ∈ s.log) (hne : m1 ≠ m2) (hm2 : m2 < s.size)
    (hacc : s.accepts m2 d.nodeType = true)
    (a1 : Nearest s1 dmd.nodeType m1 p1 a) (a2 : Nearest s1 dmd.nodeType m2 p2 a)
    {fuel : Nat} {edge : Bool} {r : Res}
    (hg : exec look fuel s (.get m2 edge chk) = some (s1, r)) : ∀ n, r ≠ .ok n := by
  rintro n rfl
  have w := (history_ext hac h WF.init).wf
  have hlt : TaskOk s (.get m2 edge chk : Task T) := by
    intro _ _ _ h; injection h with a; subst a; exact hm2
  have hh : History look St.init s1 := h.trans (.step fuel _ _ hlt hg (.refl _))
  have hx := (exec_ext look rank hac fuel s _ s1 _ w hlt hg).1
  have hb := C17_comes_from_nearest look rank hac h hchk hm2 hg
    (.here (by rw [hx.accepts m2 hm2]; exact hacc))
  obtain ⟨es, hl, -⟩ := hx.log
  exact hne (C20_unique look rank hac hchk hd hmd hh
    (by rw [hl]; exact List.mem_append_left _ h1) hb a1 a2)

/-! #### A concrete compilation with a unique service `svc` -/

/-- types: 0 process-level, 9 application-level (the granularity) -/
def uniqDemo : Lookup Nat := fun x =>
  if x = "svc" then some ("svc", ⟨0, false, some fun _ => .new "svc" false fun n => .ret n⟩)
  else if x = "svc.visibility" then
    some ("svc.visibility", ⟨9, false, some (visibilityBuild "svc.visibility")⟩)
  else if x = "svc.uniqueness_check" then
    some ("svc.uniqueness_check", ⟨0, false, some (uniquenessBuild "svc.visibility" "svc")⟩)
  else if x = "svc.dst" then
    some ("svc.uniqueness_check", ⟨0, false, some (uniquenessBuild "svc.visibility" "svc")⟩)
  else none

theorem uniqDemo_acyclic : Acyclic uniqDemo (fun x =>
    if x = "svc.dst" then 2 else if x = "svc.uniqueness_check" then 1 else 0) := by
  intro name dn d hl
  unfold uniqDemo at hl
  have prog : ∀ r ns, 0 < r → Below (T := Nat) (fun x =>
      if x = "svc.dst" then 2 else if x = "svc.uniqueness_check" then 1 else 0) r
      (uniquenessBuild "svc.visibility" "svc" ns) := by
    intro r ns hr
    refine .get _ _ _ _ (by simpa using hr) fun x => ?_
    cases x with
    | none => exact .fail
    | some md =>
      refine .load _ _ fun y => ?_
      cases y with
      | some _ => exact .fail
      | none =>
        refine .get _ _ _ _ (by simpa using hr) fun z => ?_
        cases z with
        | none => exact .fail
        | some v => exact .store _ _ _ (.ret _)
  split at hl
  · next hn =>
    simp only [Option.some.injEq, Prod.mk.injEq] at hl
    obtain ⟨rfl, rfl⟩ := hl
    refine ⟨fun h => absurd hn.symm h, fun _ build ns hb => ?_⟩
    simp only [Option.some.injEq] at hb
    subst hb
    exact .new _ _ _ fun n => .ret n
  · split at hl
    · next hn =>
      simp only [Option.some.injEq, Prod.mk.injEq] at hl
      obtain ⟨rfl, rfl⟩ := hl
      refine ⟨fun h => absurd hn.symm h, fun _ build ns hb => ?_⟩
      simp only [Option.some.injEq] at hb
      subst hb
      exact .new _ _ _ fun n => .ret n
    · split at hl
      · next hn =>
        simp only [Option.some.injEq, Prod.mk.injEq] at hl
        obtain ⟨rfl, rfl⟩ := hl
        refine ⟨fun h => absurd hn.symm h, fun _ build ns hb => ?_⟩
        simp only [Option.some.injEq] at hb
        subst hb; subst hn
        exact prog _ _ (by decide)
      · split at hl
        · next hn =>
          simp only [Option.some.injEq, Prod.mk.injEq] at hl
          obtain ⟨rfl, rfl⟩ := hl
          subst hn
          exact ⟨fun _ => by decide, fun h => absurd h (by decide)⟩
        · simp at hl

/-- two processes -/
def twoProcs : St Nat := (St.init.addChild 0 "p1" (· == 0)).addChild 0 "p2" (· == 0)

theorem twoProcs_history : History uniqDemo St.init twoProcs :=
  .step 5 (.prog (.derive 0 "p1" (· == 0) fun _ => .derive 0 "p2" (· == 0) fun _ => .fail)) .err
    (by simp) rfl (.refl _)

/-- The first process gets the service, the second one is rejected. -/
example : ∃ s1 s2 n, exec uniqDemo 20 twoProcs (.get 1 true "svc.dst") = some (s1, .ok n) ∧
    Event.built 1 "svc.uniqueness_check" n ∈ s1.log ∧
    exec uniqDemo 20 s1 (.get 2 true "svc.uniqueness_check") = some (s2, .err) ∧
    Nearest s2 9 1 [1] 0 ∧ Nearest s2 9 2 [2] 0 ∧ s1.accepts 2 0 = true ∧ 2 < s1.size :=
  ⟨_, _, _, rfl, by decide, rfl, .up rfl rfl (.here rfl), .up rfl rfl (.here rfl), rfl, by decide⟩

/-- Without the check both processes get their own instance. -/
example : ∃ s1 s2 n1 n2, exec uniqDemo 20 twoProcs (.get 1 true "svc") = some (s1, .ok n1) ∧
    exec uniqDemo 20 s1 (.get 2 true "svc") = some (s2, .ok n2) ∧ n1 ≠ n2 :=
  ⟨_, _, _, _, rfl, rfl, by decide⟩

/-! #### A violation that is not reported

A client in the application uses a pointer to a service behind an address.  The server
side of the address cannot be instantiated (here because its build function fails; a
violated uniqueness check is such a failure), but the compilation succeeds: the error
of Instantiate is dropped. -/

/-- `ptr` is a pointer whose interface is the address `addr` and whose server side
starts at `server`; `server` fails to build. -/
def swallowDemo : Lookup Nat := fun x =>
  if x = "ptr" then some ("ptr", ⟨0, false, some (pointerBuild (fun n => n.name == "addr")
    "ptr.src" "addr" "server")⟩)
  else if x = "ptr.src" then some ("addr", ⟨0, false, some fun _ => .new "addr" true fun n => .ret n⟩)
  else if x = "addr" then some ("addr", ⟨0, false, some fun _ => .new "addr" true fun n => .ret n⟩)
  else if x = "server" then some ("server", ⟨0, false, some fun _ => .fail⟩)
  else none

/-- C18, C20: the compilation succeeds although instantiating the server side failed:
the server was never built and the address has no destination. -/
theorem C18_swallowed_error_refuted :
    ∃ s, buildApplication swallowDemo 20 ["ptr"] = some (s, .success) ∧
      builtCount s 0 "ptr" = 1 ∧ builtCount s 0 "server" = 0 ∧
      exec swallowDemo 20 s (.get 0 true "server") = some (s, .err) ∧
      s.fields 0 = none ∧ s.seen 0 "addr" = some (some ⟨0, "addr", true⟩) :=
  ⟨_, rfl, by decide, by decide, rfl, rfl, by decide⟩

end Verif.Wiring.Ns
