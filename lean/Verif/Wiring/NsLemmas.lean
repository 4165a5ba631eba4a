import Verif.Wiring.NsSpec
namespace Verif.Wiring.Ns
variable {T : Type}

/-- Well-formed states. -/
structure WF (s : St T) : Prop where
  parent : ∀ m p, s.parent m = some p → p < m ∧ m < s.size
  unseen : ∀ m x, s.size ≤ m → s.seen m x = none
  root : ∀ m, m < s.size → s.parent m = none → m = 0
  all : ∀ t, s.accepts 0 t = true
  pos : 0 < s.size

theorem WF.init : WF (St.init : St T) :=
  ⟨by simp [St.init], by simp [St.init], by simp [St.init], by simp [St.init], by simp [St.init]⟩

/-- Is this event a successful build of `x` in `m`? -/
def isBuilt (m : NsId) (x : Name) : Event → Bool
  | .built m' x' _ => m' == m && x' == x
  | _ => false

/-- `s'` extends `s`, and only names in `A` got built or fetched. -/
structure Ext (look : Lookup T) (A : NsId → Name → Prop) (s s' : St T) : Prop where
  wf : WF s'
  size : s.size ≤ s'.size
  parent : ∀ m, m < s.size → s'.parent m = s.parent m
  accepts : ∀ m, m < s.size → s'.accepts m = s.accepts m
  mono : ∀ m x v, s.seen m x = some v → s'.seen m x = some v
  new : ∀ m x, s.seen m x = none → s'.seen m x ≠ none → A m x
  log : ∃ es, s'.log = s.log ++ es ∧
    (∀ m x n, Event.built m x n ∈ es → s.seen m x = none ∧ s'.seen m x = some (some n) ∧
      m < s'.size ∧ ∃ d, look x = some (x, d) ∧ s'.accepts m d.nodeType = true) ∧
    (∀ m x, (es.filter (isBuilt m x)).length ≤ 1)

theorem Ext.refl {look : Lookup T} {A : NsId → Name → Prop} {s : St T} (h : WF s) :
    Ext look A s s :=
  ⟨h, Nat.le_refl _, fun _ _ => rfl, fun _ _ => rfl, fun _ _ _ h => h,
    fun _ _ h h' => absurd h h', [], by simp, by simp, by simp⟩

theorem Ext.weaken {look : Lookup T} {A A' : NsId → Name → Prop} {s s' : St T}
    (h : Ext look A s s') (hA : ∀ m x, A m x → A' m x) : Ext look A' s s' :=
  ⟨h.wf, h.size, h.parent, h.accepts, h.mono, fun m x a b => hA m x (h.new m x a b), h.log⟩

theorem Ext.trans {look : Lookup T} {A : NsId → Name → Prop} {s s1 s2 : St T}
    (h1 : Ext look A s s1) (h2 : Ext look A s1 s2) : Ext look A s s2 := by
  refine ⟨h2.wf, Nat.le_trans h1.size h2.size, ?_, ?_, ?_, ?_, ?_⟩
  · intro m hm
    rw [h2.parent m (Nat.lt_of_lt_of_le hm h1.size), h1.parent m hm]
  · intro m hm
    rw [h2.accepts m (Nat.lt_of_lt_of_le hm h1.size), h1.accepts m hm]
  · intro m x v h
    exact h2.mono m x v (h1.mono m x v h)
  · intro m x h h'
    cases hs : s1.seen m x with
    | none => exact h2.new m x hs h'
    | some v => exact h1.new m x h (by rw [hs]; simp)
  · obtain ⟨es1, l1, b1, c1⟩ := h1.log
    obtain ⟨es2, l2, b2, c2⟩ := h2.log
    refine ⟨es1 ++ es2, by rw [l2, l1, List.append_assoc], ?_, ?_⟩
    · intro m x n hmem
      rcases List.mem_append.1 hmem with hmem | hmem
      · obtain ⟨a, b, c, d, e, f⟩ := b1 m x n hmem
        refine ⟨a, h2.mono m x _ b, Nat.lt_of_lt_of_le c h2.size, d, e, ?_⟩
        rw [h2.accepts m c]; exact f
      · obtain ⟨a, b, c, d⟩ := b2 m x n hmem
        refine ⟨?_, b, c, d⟩
        cases hs : s.seen m x with
        | none => rfl
        | some v => rw [h1.mono m x v hs] at a; exact absurd a (by simp)
    · intro m x
      rw [List.filter_append, List.length_append]
      by_cases hz : (es1.filter (isBuilt m x)).length = 0
      · have := c2 m x; omega
      · have : es2.filter (isBuilt m x) = [] := by
          rw [List.filter_eq_nil_iff]
          intro e he hb
          cases e with
          | built m' x' n =>
            simp only [isBuilt, Bool.and_eq_true, beq_iff_eq] at hb
            obtain ⟨rfl, rfl⟩ := hb
            obtain ⟨a, -⟩ := b2 _ _ _ he
            -- but it was built before
            obtain ⟨e1, he1⟩ := List.exists_mem_of_length_pos (Nat.pos_of_ne_zero hz)
            obtain ⟨he1', hb1⟩ := List.mem_filter.1 he1
            cases e1 with
            | built m1 x1 n1 =>
              simp only [isBuilt, Bool.and_eq_true, beq_iff_eq] at hb1
              obtain ⟨rfl, rfl⟩ := hb1
              obtain ⟨-, b, -⟩ := b1 _ _ _ he1'
              rw [b] at a; exact absurd a (by simp)
            | addNode => simp [isBuilt] at hb1
            | addEdge => simp [isBuilt] at hb1
            | ran => simp [isBuilt] at hb1
            | hidden => simp [isBuilt] at hb1
            | deferred => simp [isBuilt] at hb1
          | addNode => simp [isBuilt] at hb
          | addEdge => simp [isBuilt] at hb
          | ran => simp [isBuilt] at hb
          | hidden => simp [isBuilt] at hb
          | deferred => simp [isBuilt] at hb
        rw [this]
        have := c1 m x
        simp; omega

/-- Steps that touch neither the caches nor the log of builds. -/
theorem Ext.silent {look : Lookup T} {A : NsId → Name → Prop} {s s' : St T} (h : WF s)
    (h1 : s'.size = s.size) (h2 : s'.parent = s.parent) (h3 : s'.accepts = s.accepts)
    (h4 : s'.seen = s.seen) (es : List Event) (h5 : s'.log = s.log ++ es)
    (h6 : ∀ e ∈ es, ∀ m x n, e ≠ .built m x n) : Ext look A s s' := by
  refine ⟨⟨?_, ?_, ?_, by rw [h3]; exact h.all, by rw [h1]; exact h.pos⟩,
    by rw [h1]; exact Nat.le_refl _, by simp [h2], by simp [h3],
    by simp [h4], ?_, es, h5, ?_, ?_⟩
  · intro m p hp; rw [h2] at hp; rw [h1]; exact h.parent m p hp
  · intro m x hm; rw [h4]; rw [h1] at hm; exact h.unseen m x hm
  · rw [h1, h2]; exact h.root
  · intro m x a b; rw [h4] at b; exact absurd a b
  · intro m x n hmem; exact absurd rfl (h6 _ hmem m x n)
  · intro m x
    have : es.filter (isBuilt m x) = [] := by
      rw [List.filter_eq_nil_iff]
      intro e he hb
      cases e with
      | built m' x' n => exact h6 _ he _ _ _ rfl
      | _ => simp [isBuilt] at hb
    rw [this]; simp

theorem Ext.setSeen {look : Lookup T} {A : NsId → Name → Prop} {s : St T} {ns : NsId} {name : Name}
    {v : Option Node} (h : WF s) (hns : ns < s.size) (hnone : s.seen ns name = none)
    (hA : A ns name) : Ext look A s (s.setSeen ns name v) := by
  refine ⟨⟨h.parent, ?_, h.root, h.all, h.pos⟩, Nat.le_refl _, fun _ _ => rfl, fun _ _ => rfl, ?_, ?_,
    [], by simp [St.setSeen], by simp, by simp⟩
  · intro m x hm
    have : ¬ (m = ns ∧ x = name) := by
      rintro ⟨rfl, -⟩
      exact absurd hns (Nat.not_lt.2 hm)
    simp only [St.setSeen, this, if_false]
    exact h.unseen m x hm
  · intro m x w hw
    by_cases hc : m = ns ∧ x = name
    · obtain ⟨rfl, rfl⟩ := hc
      rw [hnone] at hw; exact absurd hw (by simp)
    · simp only [St.setSeen, hc, if_false]; exact hw
  · intro m x a b
    by_cases hc : m = ns ∧ x = name
    · obtain ⟨rfl, rfl⟩ := hc; exact hA
    · simp only [St.setSeen, hc, if_false] at b; exact absurd a b

theorem Ext.afterParent {look : Lookup T} {A : NsId → Name → Prop} {s : St T} {ns : NsId}
    {name : Name} {edge proxy : Bool} {n : Node} (h : WF s) (hns : ns < s.size)
    (hnone : s.seen ns name = none) (hA : A ns name) :
    Ext look A s (s.afterParent ns name edge proxy n) ∧
    (s.afterParent ns name edge proxy n).seen ns name = some (some n) := by
  refine ⟨?_, by simp [St.afterParent, St.setSeen]⟩
  unfold St.afterParent
  by_cases ha : s.added ns n.name
  · simp only [ha, if_true]
    exact Ext.setSeen h hns hnone hA
  · simp only [ha, if_false, Bool.false_eq_true]
    by_cases hb : (!n.isMeta && edge && !proxy) = true
    · simp only [hb, if_true]
      refine Ext.trans (s1 := (s.emit (.addEdge ns name n)).setAdded ns n.name)
        (Ext.silent h rfl rfl rfl rfl [.addEdge ns name n] rfl (by simp)) ?_
      exact Ext.setSeen ⟨h.parent, h.unseen, h.root, h.all, h.pos⟩ hns hnone hA
    · simp only [hb, if_false, Bool.false_eq_true]
      refine Ext.trans (s1 := (s.emit (.hidden ns name n edge)).setAdded ns n.name)
        (Ext.silent h rfl rfl rfl rfl [.hidden ns name n edge] rfl (by simp)) ?_
      exact Ext.setSeen ⟨h.parent, h.unseen, h.root, h.all, h.pos⟩ hns hnone hA

theorem Ext.afterBuild {look : Lookup T} {A : NsId → Name → Prop} {s : St T} {ns : NsId}
    {name : Name} {proxy : Bool} {n : Node} (h : WF s) (hns : ns < s.size)
    (hnone : s.seen ns name = none) (hA : A ns name) {d : NsDef T}
    (hd : look name = some (name, d)) (hacc : s.accepts ns d.nodeType = true) :
    Ext look A s (s.afterBuild ns name proxy n) ∧
    (s.afterBuild ns name proxy n).seen ns name = some (some n) := by
  have hseen : (s.afterBuild ns name proxy n).seen ns name = some (some n) := by
    simp [St.afterBuild, St.setSeen]
  refine ⟨?_, hseen⟩
  -- the events
  have hlog : ∃ es, (s.afterBuild ns name proxy n).log = s.log ++ (.built ns name n :: es) ∧
      ∀ e ∈ es, ∀ m x n', e ≠ .built m x n' := by
    unfold St.afterBuild
    by_cases ha : (s.emit (.built ns name n)).added ns n.name
    · simp only [ha, if_true]
      exact ⟨[], by simp [St.setSeen, St.emit], by simp⟩
    · simp only [ha, if_false, Bool.false_eq_true]
      cases proxy
      · exact ⟨[.addNode ns name n], by simp [St.setSeen, St.emit, St.setAdded], by simp⟩
      · exact ⟨[.hidden ns name n true], by simp [St.setSeen, St.emit, St.setAdded], by simp⟩
  have hse : ∀ m x, (s.afterBuild ns name proxy n).seen m x
      = if m = ns ∧ x = name then some (some n) else s.seen m x := by
    intro m x
    unfold St.afterBuild
    simp only [St.setSeen]
    split
    · rfl
    · split <;> (try split) <;> rfl
  have hsz : (s.afterBuild ns name proxy n).size = s.size := by
    unfold St.afterBuild
    simp only [St.setSeen]
    split <;> (try split) <;> rfl
  have hpar : (s.afterBuild ns name proxy n).parent = s.parent := by
    unfold St.afterBuild
    simp only [St.setSeen]
    split <;> (try split) <;> rfl
  have hac : (s.afterBuild ns name proxy n).accepts = s.accepts := by
    unfold St.afterBuild
    simp only [St.setSeen]
    split <;> (try split) <;> rfl
  obtain ⟨es, hes, hno⟩ := hlog
  refine ⟨⟨?_, ?_, by rw [hsz, hpar]; exact h.root, by rw [hac]; exact h.all,
    by rw [hsz]; exact h.pos⟩, by rw [hsz]; exact Nat.le_refl _, by simp [hpar], by simp [hac], ?_, ?_,
    .built ns name n :: es, hes, ?_, ?_⟩
  · intro m p hp; rw [hpar] at hp; rw [hsz]; exact h.parent m p hp
  · intro m x hm
    rw [hsz] at hm
    rw [hse, if_neg]
    · exact h.unseen m x hm
    · rintro ⟨rfl, -⟩; exact absurd hns (Nat.not_lt.2 hm)
  · intro m x v hv
    rw [hse, if_neg]
    · exact hv
    · rintro ⟨rfl, rfl⟩; rw [hnone] at hv; exact absurd hv (by simp)
  · intro m x a b
    rw [hse] at b
    by_cases hc : m = ns ∧ x = name
    · obtain ⟨rfl, rfl⟩ := hc; exact hA
    · rw [if_neg hc] at b; exact absurd a b
  · intro m x n' hmem
    rcases List.mem_cons.1 hmem with hmem | hmem
    · injection hmem with e1 e2 e3
      subst e1; subst e2; subst e3
      exact ⟨hnone, hseen, by rw [hsz]; exact hns, d, hd, by rw [hac]; exact hacc⟩
    · exact absurd rfl (hno _ hmem m x n')
  · intro m x
    have : es.filter (isBuilt m x) = [] := by
      rw [List.filter_eq_nil_iff]
      intro e he hb
      cases e with
      | built m' x' n' => exact hno _ he _ _ _ rfl
      | _ => simp [isBuilt] at hb
    rw [List.filter_cons]
    split <;> simp [this]

theorem Ext.addChild {look : Lookup T} {A : NsId → Name → Prop} {s : St T} {ns : NsId}
    {name : Name} {acc : T → Bool} (h : WF s) (hns : ns < s.size) :
    Ext look A s (s.addChild ns name acc) := by
  refine ⟨⟨?_, ?_, ?_, ?_, Nat.succ_pos _⟩, Nat.le_succ _, ?_, ?_, ?_, ?_, [], by simp [St.addChild], by simp, by simp⟩
  · intro m p hp
    simp only [St.addChild] at hp ⊢
    by_cases hm : m = s.size
    · simp only [hm, if_true, Option.some.injEq] at hp
      omega
    · simp only [hm, if_false] at hp
      have := h.parent m p hp
      omega
  · intro m x hm
    simp only [St.addChild] at hm ⊢
    rw [if_neg (by omega)]
    exact h.unseen m x (by omega)
  · intro m hm hp
    simp only [St.addChild] at hm hp
    by_cases hm' : m = s.size
    · simp [hm'] at hp
    · rw [if_neg hm'] at hp
      exact h.root m (by omega) hp
  · intro t
    have := h.pos
    simp only [St.addChild]
    rw [if_neg (by omega)]
    exact h.all t
  · intro m hm
    simp only [St.addChild]
    rw [if_neg (by omega)]
  · intro m hm
    simp only [St.addChild]
    rw [if_neg (by omega)]
  · intro m x v hv
    simp only [St.addChild]
    by_cases hm : m = s.size
    · subst hm; rw [h.unseen _ x (Nat.le_refl _)] at hv; exact absurd hv (by simp)
    · rw [if_neg hm]; exact hv
  · intro m x a b
    simp only [St.addChild] at b
    by_cases hm : m = s.size
    · simp [hm] at b
    · rw [if_neg hm] at b; exact absurd a b

/-- The names a task may build or fetch. -/
def Allowed (rank : Name → Nat) : Task T → NsId → Name → Prop
  | .get ns _ name => fun m x => rank x < rank name ∨ (x = name ∧ m ≤ ns)
  | .prog p => fun _ x => ∀ r, Below rank r p → rank x < r

/-- The effect of every task in an acyclic wiring. -/
theorem exec_ext (look : Lookup T) (rank : Name → Nat) (hac : Acyclic look rank) :
    ∀ (fuel : Nat) (s : St T) (t : Task T) (s' : St T) (r : Res), WF s →
      (∀ ns e name, t = .get ns e name → ns < s.size) →
      exec look fuel s t = some (s', r) →
      Ext look (Allowed rank t) s s' ∧
      (∀ ns e name n, t = .get ns e name → r = .ok n → s'.seen ns name = some (some n)) := by
  intro fuel
  induction fuel with
  | zero => intro s t s' r _ _ h; simp [exec] at h
  | succ fuel ih =>
    intro s t s' r hwf hlt h
    cases t with
    | get ns edge name =>
      have hns : ns < s.size := hlt ns edge name rfl
      rw [exec] at h
      cases hseen : s.seen ns name with
      | some v =>
        cases v with
        | some n =>
          simp only [hseen, Option.some.injEq, Prod.mk.injEq] at h
          obtain ⟨rfl, rfl⟩ := h
          refine ⟨Ext.refl hwf, ?_⟩
          intro ns' e' name' n' ht hr
          injection ht with e1 e2 e3
          injection hr with e4
          subst e1; subst e3; subst e4; exact hseen
        | none =>
          simp only [hseen, Option.some.injEq, Prod.mk.injEq] at h
          obtain ⟨rfl, rfl⟩ := h
          exact ⟨Ext.refl hwf, by simp⟩
      | none =>
        simp only [hseen] at h
        cases hl : look name with
        | none =>
          simp only [hl, Option.some.injEq, Prod.mk.injEq] at h
          obtain ⟨rfl, rfl⟩ := h
          exact ⟨Ext.refl hwf, by simp⟩
        | some dd =>
          obtain ⟨dn, d⟩ := dd
          simp only [hl] at h
          obtain ⟨hac1, hac2⟩ := hac name dn d hl
          cases hb : d.build with
          | none =>
            simp only [hb, Option.some.injEq, Prod.mk.injEq] at h
            obtain ⟨rfl, rfl⟩ := h
            exact ⟨Ext.refl hwf, by simp⟩
          | some build =>
            simp only [hb] at h
            by_cases hdn : dn = name
            · subst hdn
              simp only [ne_eq, not_true, if_false] at h
              by_cases hacc : s.accepts ns d.nodeType = true
              · simp only [hacc, if_true] at h
                have hbelow := hac2 rfl build ns hb
                cases he : exec look fuel s (.prog (build ns)) with
                | none => simp [he] at h
                | some sr =>
                  obtain ⟨s1, r1⟩ := sr
                  obtain ⟨hx, -⟩ := ih s _ s1 r1 hwf (by simp) he
                  have hx' : Ext look (Allowed rank (.get ns edge dn : Task T)) s s1 :=
                    hx.weaken (fun m x hal => Or.inl (hal _ hbelow))
                  have hstill : s1.seen ns dn = none := by
                    cases hs1 : s1.seen ns dn with
                    | none => rfl
                    | some v =>
                      have := hx.new ns dn hseen (by rw [hs1]; simp) _ hbelow
                      omega
                  simp only [he] at h
                  cases r1 with
                  | ok n =>
                    simp only [Option.some.injEq, Prod.mk.injEq] at h
                    obtain ⟨rfl, rfl⟩ := h
                    obtain ⟨a1, a2⟩ := Ext.afterBuild (look := look)
                      (A := Allowed rank (.get ns edge dn : Task T)) (proxy := d.proxy) (n := n)
                      hx.wf (Nat.lt_of_lt_of_le hns hx.size) hstill
                      (Or.inr ⟨rfl, Nat.le_refl _⟩) hl
                      (by rw [hx.accepts ns hns]; exact hacc)
                    refine ⟨hx'.trans a1, ?_⟩
                    intro ns' e' name' n' ht hr
                    injection ht with e1 e2 e3
                    injection hr with e4
                    subst e1; subst e3; subst e4; exact a2
                  | err =>
                    simp only [Option.some.injEq, Prod.mk.injEq] at h
                    obtain ⟨rfl, rfl⟩ := h
                    exact ⟨hx', by simp⟩
                  | panic =>
                    simp only [Option.some.injEq, Prod.mk.injEq] at h
                    obtain ⟨rfl, rfl⟩ := h
                    exact ⟨hx', by simp⟩
              · simp only [hacc, if_false, Bool.false_eq_true] at h
                cases hp : s.parent ns with
                | none =>
                  simp only [hp, Option.some.injEq, Prod.mk.injEq] at h
                  obtain ⟨rfl, rfl⟩ := h
                  exact ⟨Ext.refl hwf, by simp⟩
                | some p =>
                  simp only [hp] at h
                  obtain ⟨hpn, -⟩ := hwf.parent ns p hp
                  cases he : exec look fuel s (.get p edge dn) with
                  | none => simp [he] at h
                  | some sr =>
                    obtain ⟨s1, r1⟩ := sr
                    obtain ⟨hx, -⟩ := ih s _ s1 r1 hwf (by
                      intro ns' e' name' ht
                      injection ht with e1 e2 e3
                      subst e1; omega) he
                    have hx' : Ext look (Allowed rank (.get ns edge dn : Task T)) s s1 := by
                      refine hx.weaken (fun m x hal => ?_)
                      rcases hal with hal | ⟨h1, h2⟩
                      · exact Or.inl hal
                      · exact Or.inr ⟨h1, by omega⟩
                    have hstill : s1.seen ns dn = none := by
                      cases hs1 : s1.seen ns dn with
                      | none => rfl
                      | some v =>
                        have := hx.new ns dn hseen (by rw [hs1]; simp)
                        rcases this with this | ⟨-, this⟩ <;> omega
                    simp only [he] at h
                    cases r1 with
                    | ok n =>
                      simp only [Option.some.injEq, Prod.mk.injEq] at h
                      obtain ⟨rfl, rfl⟩ := h
                      obtain ⟨a1, a2⟩ := Ext.afterParent (look := look)
                        (A := Allowed rank (.get ns edge dn : Task T)) (edge := edge)
                        (proxy := d.proxy) (n := n) hx.wf (Nat.lt_of_lt_of_le hns hx.size) hstill
                        (Or.inr ⟨rfl, Nat.le_refl _⟩)
                      refine ⟨hx'.trans a1, ?_⟩
                      intro ns' e' name' n' ht hr
                      injection ht with e1 e2 e3
                      injection hr with e4
                      subst e1; subst e3; subst e4; exact a2
                    | err =>
                      simp only [Option.some.injEq, Prod.mk.injEq] at h
                      obtain ⟨rfl, rfl⟩ := h
                      exact ⟨hx', by simp⟩
                    | panic =>
                      simp only [Option.some.injEq, Prod.mk.injEq] at h
                      obtain ⟨rfl, rfl⟩ := h
                      exact ⟨hx', by simp⟩
            · simp only [ne_eq, hdn, not_false_eq_true, if_true] at h
              have hrk := hac1 hdn
              cases he : exec look fuel s (.get ns edge dn) with
              | none => simp [he] at h
              | some sr =>
                obtain ⟨s1, r1⟩ := sr
                obtain ⟨hx, -⟩ := ih s _ s1 r1 hwf (by
                  intro ns' e' name' ht
                  injection ht with e1 e2 e3
                  subst e1; exact hns) he
                have hx' : Ext look (Allowed rank (.get ns edge name : Task T)) s s1 := by
                  refine hx.weaken (fun m x hal => Or.inl ?_)
                  rcases hal with hal | ⟨h1, h2⟩
                  · omega
                  · rw [h1]; exact hrk
                have hstill : s1.seen ns name = none := by
                  cases hs1 : s1.seen ns name with
                  | none => rfl
                  | some v =>
                    have := hx.new ns name hseen (by rw [hs1]; simp)
                    rcases this with this | ⟨this, -⟩
                    · omega
                    · exact absurd this.symm hdn
                simp only [he] at h
                cases r1 with
                | ok n =>
                  simp only [Option.some.injEq, Prod.mk.injEq] at h
                  obtain ⟨rfl, rfl⟩ := h
                  refine ⟨hx'.trans (Ext.setSeen hx.wf (Nat.lt_of_lt_of_le hns hx.size) hstill
                    (Or.inr ⟨rfl, Nat.le_refl _⟩)), ?_⟩
                  intro ns' e' name' n' ht hr
                  injection ht with e1 e2 e3
                  injection hr with e4
                  subst e1; subst e3; subst e4; simp [St.setSeen]
                | err =>
                  simp only [Option.some.injEq, Prod.mk.injEq] at h
                  obtain ⟨rfl, rfl⟩ := h
                  exact ⟨hx'.trans (Ext.setSeen hx.wf (Nat.lt_of_lt_of_le hns hx.size) hstill
                    (Or.inr ⟨rfl, Nat.le_refl _⟩)), by simp⟩
                | panic =>
                  simp only [Option.some.injEq, Prod.mk.injEq] at h
                  obtain ⟨rfl, rfl⟩ := h
                  exact ⟨hx', by simp⟩
    | prog p =>
      refine ⟨?_, by simp⟩
      -- running a continuation after a silent step
      have cont : ∀ (s1 : St T) (q : Prog T), Ext look (Allowed rank (.prog p)) s s1 →
          (∀ r, Below rank r p → Below rank r q) →
          exec look fuel s1 (.prog q) = some (s', r) → Ext look (Allowed rank (.prog p)) s s' := by
        intro s1 q h1 hq he
        obtain ⟨hx, -⟩ := ih s1 _ s' r h1.wf (by simp) he
        exact h1.trans (hx.weaken fun m x hal r hb => hal r (hq r hb))
      cases p with
      | ret n =>
        simp only [exec, Option.some.injEq, Prod.mk.injEq] at h
        obtain ⟨rfl, rfl⟩ := h
        exact Ext.refl hwf
      | fail =>
        simp only [exec, Option.some.injEq, Prod.mk.injEq] at h
        obtain ⟨rfl, rfl⟩ := h
        exact Ext.refl hwf
      | new name b k =>
        simp only [exec] at h
        refine cont _ _ ?_ ?_ h
        · exact Ext.silent hwf rfl rfl rfl rfl [] (by simp) (by simp)
        intro r hb; cases hb with | new _ _ _ hk => exact hk _
      | load uid k =>
        simp only [exec] at h
        refine cont _ _ (Ext.refl hwf) ?_ h
        intro r hb; cases hb with | load _ _ hk => exact hk _
      | store uid v k =>
        simp only [exec] at h
        refine cont _ _ ?_ ?_ h
        · exact Ext.silent hwf rfl rfl rfl rfl [] (by simp) (by simp)
        intro r hb; cases hb with | store _ _ _ hk => exact hk
      | child ns name k =>
        simp only [exec] at h
        refine cont _ _ (Ext.refl hwf) ?_ h
        intro r hb; cases hb with | child _ _ _ hk => exact hk _
      | defer ns front f k =>
        simp only [exec] at h
        refine cont _ _ ?_ ?_ h
        · exact Ext.silent hwf rfl rfl rfl rfl [.deferred s.nextTicket front] rfl (by simp)
        intro r hb; cases hb with | defer _ _ _ _ hk => exact hk
      | derive ns name acc k =>
        simp only [exec] at h
        by_cases hns : ns < s.size
        · simp only [hns, if_true] at h
          cases hc : s.children ns name with
          | some c =>
            simp only [hc] at h
            refine cont _ _ (Ext.refl hwf) ?_ h
            intro r hb; cases hb with | derive _ _ _ _ hk => exact hk _
          | none =>
            simp only [hc] at h
            refine cont _ _ (Ext.addChild hwf hns) ?_ h
            intro r hb; cases hb with | derive _ _ _ _ hk => exact hk _
        · simp only [hns, if_false, Option.some.injEq, Prod.mk.injEq] at h
          obtain ⟨rfl, rfl⟩ := h
          exact Ext.refl hwf
      | get ns edge name k =>
        simp only [exec] at h
        by_cases hns : ns < s.size
        · simp only [hns, if_true] at h
          cases he : exec look fuel s (.get ns edge name) with
          | none => simp [he] at h
          | some sr =>
            obtain ⟨s1, r1⟩ := sr
            obtain ⟨hx, -⟩ := ih s _ s1 r1 hwf (by
              intro ns' e' name' ht
              injection ht with e1 e2 e3
              subst e1; exact hns) he
            have hx' : Ext look (Allowed rank (.prog (.get ns edge name k))) s s1 := by
              refine hx.weaken (fun m x hal r hb => ?_)
              cases hb with
              | get _ _ _ _ hr hk =>
                rcases hal with hal | ⟨h1, -⟩
                · omega
                · rw [h1]; exact hr
            simp only [he] at h
            cases r1 with
            | ok n =>
              refine cont _ _ hx' ?_ h
              intro r hb; cases hb with | get _ _ _ _ _ hk => exact hk _
            | err =>
              refine cont _ _ hx' ?_ h
              intro r hb; cases hb with | get _ _ _ _ _ hk => exact hk _
            | panic =>
              simp only [Option.some.injEq, Prod.mk.injEq] at h
              obtain ⟨rfl, rfl⟩ := h
              exact hx'
        · simp only [hns, if_false, Option.some.injEq, Prod.mk.injEq] at h
          obtain ⟨rfl, rfl⟩ := h
          exact Ext.refl hwf

/-- The effect of a whole history in an acyclic wiring. -/
theorem history_ext {look : Lookup T} {rank : Name → Nat} (hac : Acyclic look rank) {s s' : St T}
    (h : History look s s') (hwf : WF s) : Ext look (fun _ _ => True) s s' := by
  induction h with
  | refl s => exact Ext.refl hwf
  | step fuel t r hlt he _ ih =>
    obtain ⟨hx, -⟩ := exec_ext look rank hac fuel _ t _ r hwf hlt he
    exact (hx.weaken fun _ _ _ => trivial).trans (ih hx.wf)

end Verif.Wiring.Ns
