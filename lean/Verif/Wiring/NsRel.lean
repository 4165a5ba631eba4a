import Verif.Wiring.NsQueue
/-
An induction principle for executions of an acyclic wiring, and the invariant that
relates caches, placement and the log.
-/
namespace Verif.Wiring.Ns
variable {T : Type}

/-- Tasks whose namespace exists. -/
def TaskOk (s : St T) (t : Task T) : Prop := ∀ ns e name, t = .get ns e name → ns < s.size

/-- Induction over executions of an acyclic wiring: a transitive relation between the
states before and after that holds for the primitive updates holds for every
execution. -/
theorem exec_rel (look : Lookup T) (rank : Name → Nat) (hac : Acyclic look rank)
    (R : St T → St T → Prop) (hrefl : ∀ s, R s s)
    (htrans : ∀ s s1 s2, Ext look (fun _ _ => True) s s1 → Ext look (fun _ _ => True) s1 s2 →
      R s s1 → R s1 s2 → R s s2)
    (huid : ∀ s : St T, R s { s with nextUid := s.nextUid + 1 })
    (hstore : ∀ (s : St T) uid v,
      R s { s with fields := fun u => if u = uid then some v else s.fields u })
    (hdefer : ∀ (s : St T) front f, R s (s.defer front f))
    (hchild : ∀ s ns x acc, WF s → ns < s.size → R s (s.addChild ns x acc))
    (halias : ∀ s ns name dn d v, WF s → ns < s.size → look name = some (dn, d) → dn ≠ name →
      s.seen ns name = none → (∀ n, v = some n → s.seen ns dn = some (some n)) →
      R s (s.setSeen ns name v))
    (hparent : ∀ s ns name d p edge n, WF s → ns < s.size → look name = some (name, d) →
      s.accepts ns d.nodeType = false → s.parent ns = some p → s.seen p name = some (some n) →
      s.seen ns name = none → R s (s.afterParent ns name edge d.proxy n))
    (hbuild : ∀ s s1 ns name d build fuel n, WF s → ns < s.size → look name = some (name, d) →
      d.build = some build → s.accepts ns d.nodeType = true → s.seen ns name = none →
      exec look fuel s (.prog (build ns)) = some (s1, .ok n) → s1.seen ns name = none →
      Ext look (fun _ x => rank x < rank name) s s1 →
      (∀ f s t s' r, f ≤ fuel → WF s → TaskOk s t → exec look f s t = some (s', r) → R s s') →
      R s (s1.afterBuild ns name d.proxy n)) :
    ∀ (fuel : Nat) (s : St T) (t : Task T) (s' : St T) (r : Res), WF s → TaskOk s t →
      exec look fuel s t = some (s', r) → R s s' := by
  intro fuel
  induction fuel using Nat.strongRecOn with
  | _ fuel0 ih0 =>
  cases fuel0 with
  | zero => intro s t s' r _ _ h; simp [exec] at h
  | succ fuel =>
    have ih := ih0 fuel (Nat.lt_succ_self _)
    have ext := exec_ext look rank hac
    intro s t s' r hwf hlt h
    have hok : ∀ {ns : NsId} {e : Bool} {name : Name}, ns < s.size →
        TaskOk s (.get ns e name : Task T) := by
      intro ns e name hns _ _ _ h; injection h with a; subst a; exact hns
    cases t with
    | get ns edge name =>
      have hns : ns < s.size := hlt ns edge name rfl
      rw [exec] at h
      have same : ∀ {r2 : Res}, some (s, r2) = some (s', r) → R s s' := by
        intro r2 h
        simp only [Option.some.injEq, Prod.mk.injEq] at h
        rw [← h.1]; exact hrefl s
      cases hseen : s.seen ns name with
      | some v => cases v <;> (simp only [hseen] at h; exact same h)
      | none =>
        simp only [hseen] at h
        cases hl : look name with
        | none => simp only [hl] at h; exact same h
        | some dd =>
          obtain ⟨dn, d⟩ := dd
          simp only [hl] at h
          obtain ⟨hac1, hac2⟩ := hac name dn d hl
          cases hb : d.build with
          | none => simp only [hb] at h; exact same h
          | some build =>
            simp only [hb] at h
            by_cases hdn : dn = name
            · subst hdn
              simp only [ne_eq, not_true, if_false] at h
              by_cases hacc : s.accepts ns d.nodeType = true
              · simp only [hacc, if_true] at h
                have hbelow := hac2 rfl build ns hb
                cases he : exec look fuel s (.prog (build ns)) with
                | none => simp [he] at h
                | some sr =>
                  obtain ⟨s1, r1⟩ := sr
                  obtain ⟨hx, -⟩ := ext fuel s _ s1 r1 hwf (by simp) he
                  have hx' : Ext look (fun _ x => rank x < rank dn) s s1 :=
                    hx.weaken fun m x hal => hal _ hbelow
                  have hstill : s1.seen ns dn = none := by
                    cases hs1 : s1.seen ns dn with
                    | none => rfl
                    | some v =>
                      have := hx'.new ns dn hseen (by rw [hs1]; simp)
                      simp at this
                  simp only [he] at h
                  cases r1 with
                  | ok n =>
                    simp only [Option.some.injEq, Prod.mk.injEq] at h
                    obtain ⟨rfl, rfl⟩ := h
                    exact hbuild s s1 ns dn d build fuel n hwf hns hl hb hacc hseen he hstill hx'
                      (fun f s t s' r hf => ih0 f (Nat.lt_succ_of_le hf) s t s' r)
                  | err =>
                    simp only [Option.some.injEq, Prod.mk.injEq] at h
                    rw [← h.1]; exact ih s _ s1 _ hwf (by intro _ _ _ h; cases h) he
                  | panic =>
                    simp only [Option.some.injEq, Prod.mk.injEq] at h
                    rw [← h.1]; exact ih s _ s1 _ hwf (by intro _ _ _ h; cases h) he
              · have hacc' : s.accepts ns d.nodeType = false := by simpa using hacc
                simp only [hacc', if_false, Bool.false_eq_true] at h
                cases hp : s.parent ns with
                | none => simp only [hp] at h; exact same h
                | some p =>
                  simp only [hp] at h
                  obtain ⟨hpn, -⟩ := hwf.parent ns p hp
                  have hpl : p < s.size := Nat.lt_trans hpn hns
                  cases he : exec look fuel s (.get p edge dn) with
                  | none => simp [he] at h
                  | some sr =>
                    obtain ⟨s1, r1⟩ := sr
                    obtain ⟨hx, hres⟩ := ext fuel s _ s1 r1 hwf (hok hpl) he
                    have hR := ih s _ s1 r1 hwf (hok hpl) he
                    have hstill : s1.seen ns dn = none := by
                      cases hs1 : s1.seen ns dn with
                      | none => rfl
                      | some v =>
                        have := hx.new ns dn hseen (by rw [hs1]; simp)
                        rcases this with this | ⟨-, this⟩ <;> omega
                    simp only [he] at h
                    cases r1 with
                    | ok n =>
                      simp only [Option.some.injEq, Prod.mk.injEq] at h
                      obtain ⟨rfl, rfl⟩ := h
                      have hns1 := Nat.lt_of_lt_of_le hns hx.size
                      refine htrans s s1 _ (hx.weaken fun _ _ _ => trivial)
                        (Ext.afterParent hx.wf hns1 hstill trivial).1 hR ?_
                      exact hparent s1 ns dn d p edge n hx.wf hns1 hl
                        (by rw [hx.accepts ns hns]; exact hacc') (by rw [hx.parent ns hns]; exact hp)
                        (hres p edge dn n rfl rfl) hstill
                    | err =>
                      simp only [Option.some.injEq, Prod.mk.injEq] at h
                      rw [← h.1]; exact hR
                    | panic =>
                      simp only [Option.some.injEq, Prod.mk.injEq] at h
                      rw [← h.1]; exact hR
            · simp only [ne_eq, hdn, not_false_eq_true, if_true] at h
              have hrk := hac1 hdn
              cases he : exec look fuel s (.get ns edge dn) with
              | none => simp [he] at h
              | some sr =>
                obtain ⟨s1, r1⟩ := sr
                obtain ⟨hx, hres⟩ := ext fuel s _ s1 r1 hwf (hok hns) he
                have hR := ih s _ s1 r1 hwf (hok hns) he
                have hns1 := Nat.lt_of_lt_of_le hns hx.size
                have hstill : s1.seen ns name = none := by
                  cases hs1 : s1.seen ns name with
                  | none => rfl
                  | some v =>
                    have := hx.new ns name hseen (by rw [hs1]; simp)
                    rcases this with this | ⟨this, -⟩
                    · omega
                    · exact absurd this.symm hdn
                have fin : ∀ v : Option Node, (∀ n, v = some n → s1.seen ns dn = some (some n)) →
                    R s (s1.setSeen ns name v) := by
                  intro v hv
                  exact htrans s s1 _ (hx.weaken fun _ _ _ => trivial)
                    (Ext.setSeen hx.wf hns1 hstill trivial) hR
                    (halias s1 ns name dn d v hx.wf hns1 hl hdn hstill hv)
                simp only [he] at h
                cases r1 with
                | ok n =>
                  simp only [Option.some.injEq, Prod.mk.injEq] at h
                  obtain ⟨rfl, rfl⟩ := h
                  refine fin _ ?_
                  intro n' hn
                  injection hn with hn
                  subst hn
                  exact hres ns edge dn n rfl rfl
                | err =>
                  simp only [Option.some.injEq, Prod.mk.injEq] at h
                  obtain ⟨rfl, rfl⟩ := h
                  exact fin _ (by simp)
                | panic =>
                  simp only [Option.some.injEq, Prod.mk.injEq] at h
                  rw [← h.1]; exact hR
    | prog p =>
      have cont : ∀ (s1 : St T) (q : Prog T), Ext look (fun _ _ => True) s s1 → R s s1 →
          exec look fuel s1 (.prog q) = some (s', r) → R s s' := by
        intro s1 q h1 hR he
        have hx := (ext fuel s1 _ s' r h1.wf (by simp) he).1
        exact htrans s s1 s' h1 (hx.weaken fun _ _ _ => trivial) hR
          (ih s1 _ s' r h1.wf (by intro _ _ _ h; cases h) he)
      have same : ∀ {r2 : Res}, some (s, r2) = some (s', r) → R s s' := by
        intro r2 h
        simp only [Option.some.injEq, Prod.mk.injEq] at h
        rw [← h.1]; exact hrefl s
      cases p with
      | ret n => simp only [exec] at h; exact same h
      | fail => simp only [exec] at h; exact same h
      | new name b k =>
        simp only [exec] at h
        refine cont _ _ ?_ (huid s) h
        exact Ext.silent hwf rfl rfl rfl rfl [] (by simp) (by simp)
      | load uid k =>
        simp only [exec] at h
        exact cont _ _ (Ext.refl hwf) (hrefl s) h
      | store uid v k =>
        simp only [exec] at h
        refine cont _ _ ?_ (hstore s uid v) h
        exact Ext.silent hwf rfl rfl rfl rfl [] (by simp) (by simp)
      | child ns name k =>
        simp only [exec] at h
        exact cont _ _ (Ext.refl hwf) (hrefl s) h
      | defer ns front f k =>
        simp only [exec] at h
        refine cont _ _ ?_ (hdefer s front f) h
        exact Ext.silent hwf rfl rfl rfl rfl [.deferred s.nextTicket front] rfl (by simp)
      | derive ns name acc k =>
        simp only [exec] at h
        by_cases hns : ns < s.size
        · simp only [hns, if_true] at h
          cases hc : s.children ns name with
          | some c =>
            simp only [hc] at h
            exact cont _ _ (Ext.refl hwf) (hrefl s) h
          | none =>
            simp only [hc] at h
            exact cont _ _ (Ext.addChild hwf hns) (hchild s ns name acc hwf hns) h
        · simp only [hns, if_false] at h; exact same h
      | get ns edge name k =>
        simp only [exec] at h
        by_cases hns : ns < s.size
        · simp only [hns, if_true] at h
          cases he : exec look fuel s (.get ns edge name) with
          | none => simp [he] at h
          | some sr =>
            obtain ⟨s1, r1⟩ := sr
            have hx := ((ext fuel s _ s1 r1 hwf (hok hns) he).1).weaken
              (A' := fun _ _ => True) fun _ _ _ => trivial
            have hR := ih s _ s1 r1 hwf (hok hns) he
            simp only [he] at h
            cases r1 with
            | ok n => exact cont _ _ hx hR h
            | err => exact cont _ _ hx hR h
            | panic =>
              simp only [Option.some.injEq, Prod.mk.injEq] at h
              rw [← h.1]; exact hR
        · simp only [hns, if_false] at h; exact same h

/-- The same for histories. -/
theorem history_rel (look : Lookup T) (rank : Name → Nat) (hac : Acyclic look rank)
    (R : St T → St T → Prop) (hrefl : ∀ s, R s s)
    (htrans : ∀ s s1 s2, Ext look (fun _ _ => True) s s1 → Ext look (fun _ _ => True) s1 s2 →
      R s s1 → R s1 s2 → R s s2)
    (hstep : ∀ (fuel : Nat) (s : St T) (t : Task T) (s' : St T) (r : Res), WF s → TaskOk s t →
      exec look fuel s t = some (s', r) → R s s')
    {s s' : St T} (h : History look s s') (hwf : WF s) : R s s' := by
  induction h with
  | refl s => exact hrefl s
  | step fuel t r hlt he hh ih =>
    have hx := (exec_ext look rank hac fuel _ t _ r hwf hlt he).1
    exact htrans _ _ _ (hx.weaken fun _ _ _ => trivial) (history_ext hac hh hx.wf)
      (hstep fuel _ t _ r hwf hlt he) (ih hx.wf)

/-! ### What is known in a namespace comes from the nearest accepting one -/

/-- `n` is known as `x` in `m` for a good reason. -/
def Known (look : Lookup T) (s : St T) (m : NsId) (x : Name) (n : Node) : Prop :=
  (∃ d, look x = some (x, d) ∧ s.accepts m d.nodeType = true ∧ .built m x n ∈ s.log) ∨
  (∃ d p, look x = some (x, d) ∧ s.accepts m d.nodeType = false ∧ s.parent m = some p ∧
    s.seen p x = some (some n)) ∨
  (∃ dn d, look x = some (dn, d) ∧ dn ≠ x ∧ s.seen m dn = some (some n))

def KnownExt (look : Lookup T) (s s' : St T) : Prop :=
  ∀ m x n, s.seen m x = none → s'.seen m x = some (some n) → Known look s' m x n

theorem Known.mono {look : Lookup T} {s s' : St T} (h : Ext look (fun _ _ => True) s s')
    {m : NsId} {x : Name} {n : Node} (hm : m < s.size) (hk : Known look s m x n) :
    Known look s' m x n := by
  obtain ⟨es, hl, -⟩ := h.log
  rcases hk with ⟨d, a, b, c⟩ | ⟨d, p, a, b, c, e⟩ | ⟨dn, d, a, b, c⟩
  · exact Or.inl ⟨d, a, by rw [h.accepts m hm]; exact b, by rw [hl]; exact List.mem_append_left _ c⟩
  · exact Or.inr (Or.inl ⟨d, p, a, by rw [h.accepts m hm]; exact b, by rw [h.parent m hm]; exact c,
      h.mono _ _ _ e⟩)
  · exact Or.inr (Or.inr ⟨dn, d, a, b, h.mono _ _ _ c⟩)

theorem seen_lt {s : St T} (w : WF s) {m : NsId} {x : Name} {v : Option Node}
    (h : s.seen m x = some v) : m < s.size := by
  refine Nat.lt_of_not_le fun hle => ?_
  rw [w.unseen m x hle] at h
  exact absurd h (by simp)

/-- C17: whatever is known in a namespace was built there, or is known in its parent
because the namespace does not accept its type, or is the target of an alias. -/
theorem known_exec (look : Lookup T) (rank : Name → Nat) (hac : Acyclic look rank) :
    ∀ (fuel : Nat) (s : St T) (t : Task T) (s' : St T) (r : Res), WF s → TaskOk s t →
      exec look fuel s t = some (s', r) → KnownExt look s s' := by
  have sameSeen : ∀ {s s' : St T}, s'.seen = s.seen → KnownExt look s s' := by
    intro s s' h m x n a b
    rw [h, a] at b; exact absurd b (by simp)
  refine exec_rel look rank hac (KnownExt look) (fun s => sameSeen rfl) ?_ (fun s => sameSeen rfl)
    (fun s _ _ => sameSeen rfl) (fun s _ _ => sameSeen rfl) ?_ ?_ ?_ ?_
  · intro s s1 s2 h1 h2 r1 r2 m x n a b
    cases hs : s1.seen m x with
    | none => exact r2 m x n hs b
    | some v =>
      have := h2.mono m x v hs
      rw [this] at b
      injection b with b
      subst b
      exact (r1 m x n a hs).mono h2 (seen_lt h1.wf hs)
  · intro s ns x acc w hns m y n a b
    simp only [St.addChild] at b
    by_cases hm : m = s.size
    · simp [hm] at b
    · rw [if_neg hm, a] at b; exact absurd b (by simp)
  · intro s ns name dn d v w hns hl hdn hnone hv m x n a b
    by_cases hc : m = ns ∧ x = name
    · obtain ⟨rfl, rfl⟩ := hc
      simp only [St.setSeen, and_self, if_true, Option.some.injEq] at b
      refine Or.inr (Or.inr ⟨dn, d, hl, hdn, ?_⟩)
      simp only [St.setSeen]
      rw [if_neg (fun h => hdn h.2)]
      exact hv n b
    · simp only [St.setSeen, hc, if_false] at b
      rw [a] at b; exact absurd b (by simp)
  · intro s ns name d p edge n w hns hl hacc hp hsp hnone m x n' a b
    have hpn := (w.parent ns p hp).1
    by_cases hc : m = ns ∧ x = name
    · obtain ⟨rfl, rfl⟩ := hc
      have hx := Ext.afterParent (look := look) (A := fun _ _ => True) (edge := edge)
        (proxy := d.proxy) (n := n) w hns hnone trivial
      rw [hx.2] at b
      simp only [Option.some.injEq] at b
      subst b
      exact Or.inr (Or.inl ⟨d, p, hl, by rw [hx.1.accepts m hns]; exact hacc,
        by rw [hx.1.parent m hns]; exact hp, hx.1.mono _ _ _ hsp⟩)
    · have : (s.afterParent ns name edge d.proxy n).seen m x = s.seen m x := by
        unfold St.afterParent
        simp only [St.setSeen, hc, if_false]
        split <;> (try split) <;> rfl
      rw [this, a] at b; exact absurd b (by simp)
  · intro s s1 ns name d build fuel n w hns hl hb hacc hnone he hstill hx ih m x n' a b
    have hns1 := Nat.lt_of_lt_of_le hns hx.size
    have hacc1 : s1.accepts ns d.nodeType = true := by rw [hx.accepts ns hns]; exact hacc
    have hxb := Ext.afterBuild (look := look) (A := fun _ _ => True) (proxy := d.proxy) (n := n)
      hx.wf hns1 hstill trivial hl hacc1
    have hR := ih fuel s _ s1 _ (Nat.le_refl _) w (by intro _ _ _ h; cases h) he
    by_cases hc : m = ns ∧ x = name
    · obtain ⟨rfl, rfl⟩ := hc
      rw [hxb.2] at b
      simp only [Option.some.injEq] at b
      subst b
      exact Or.inl ⟨d, hl, by rw [hxb.1.accepts m hns1]; exact hacc1, afterBuild_log _ _ _ _ _⟩
    · have : (s1.afterBuild ns name d.proxy n).seen m x = s1.seen m x := by
        unfold St.afterBuild
        simp only [St.setSeen, hc, if_false]
        split <;> (try split) <;> rfl
      rw [this] at b
      exact (hR m x n' a b).mono hxb.1 (seen_lt hx.wf b)

theorem known_history (look : Lookup T) (rank : Name → Nat) (hac : Acyclic look rank)
    {s : St T} (h : History look St.init s) {m : NsId} {x : Name} {n : Node}
    (hs : s.seen m x = some (some n)) : Known look s m x n := by
  have := history_rel look rank hac (KnownExt look)
    (by intro s m x n a b; rw [a] at b; exact absurd b (by simp))
    (by
      intro s s1 s2 h1 h2 r1 r2 m x n a b
      cases hs : s1.seen m x with
      | none => exact r2 m x n hs b
      | some v =>
        have := h2.mono m x v hs
        rw [this] at b
        injection b with b
        subst b
        exact (r1 m x n a hs).mono h2 (seen_lt h1.wf hs))
    (known_exec look rank hac) h WF.init
  exact this m x n rfl hs

/-- C17: at any time of any compilation, if a Get of a defined name in `ns` returns a
node then that node was built in the namespace nearest to `ns` that accepts its
type. -/
theorem C17_comes_from_nearest (look : Lookup T) (rank : Name → Nat) (hac : Acyclic look rank)
    {s s1 : St T} (h : History look St.init s) {name : Name} {d : NsDef T}
    (hl : look name = some (name, d)) {ns a : NsId} {path : List NsId} (hns : ns < s.size)
    {fuel : Nat} {edge : Bool} {n : Node}
    (hg : exec look fuel s (.get ns edge name) = some (s1, .ok n))
    (hn : Nearest s1 d.nodeType ns path a) : .built a name n ∈ s1.log := by
  have w := (history_ext hac h WF.init).wf
  have hlt : TaskOk s (.get ns edge name : Task T) := by
    intro _ _ _ h; injection h with a; subst a; exact hns
  have h1 : History look St.init s1 := h.trans (.step fuel _ _ hlt hg (.refl _))
  have hs := (exec_ext look rank hac fuel s _ s1 _ w hlt hg).2 ns edge name n rfl rfl
  clear hg hlt hns
  induction hn with
  | here hacc =>
    rcases known_history look rank hac h1 hs with ⟨d', e, -, hb⟩ | ⟨d', p, e, hr, -⟩ | ⟨dn, d', e, hdn, -⟩
    · exact hb
    · rw [hl] at e
      simp only [Option.some.injEq, Prod.mk.injEq, true_and] at e
      subst e
      rw [hacc] at hr; exact absurd hr (by simp)
    · rw [hl] at e
      simp only [Option.some.injEq, Prod.mk.injEq] at e
      exact absurd e.1.symm hdn
  | up hacc hp _ ih =>
    rcases known_history look rank hac h1 hs with ⟨d', e, ha, -⟩ | ⟨d', p, e, hr, hp', hs'⟩ | ⟨dn, d', e, hdn, -⟩
    · rw [hl] at e
      simp only [Option.some.injEq, Prod.mk.injEq, true_and] at e
      subst e
      rw [hacc] at ha; exact absurd ha (by simp)
    · rw [hp] at hp'
      injection hp' with hp'
      subst hp'
      exact ih hs'
    · rw [hl] at e
      simp only [Option.some.injEq, Prod.mk.injEq] at e
      exact absurd e.1.symm hdn

example : ∃ s1 n, exec demo 10 deep (.get 2 true "svc") = some (s1, .ok n) ∧
    Nearest s1 0 2 [] 2 ∧ Nearest s1 1 2 [2, 1] 0 :=
  ⟨_, _, rfl, .here rfl, .up rfl rfl (.up rfl rfl (.here rfl))⟩

end Verif.Wiring.Ns
