import Verif.Wiring.NsLemmas
namespace Verif.Wiring.Ns
variable {T : Type}

/-- Parents are existing namespaces. -/
def ParOk (s : St T) : Prop := ∀ m p, s.parent m = some p → p < s.size

@[simp] theorem setSeen_size (s : St T) (ns : NsId) (x : Name) (v : Option Node) :
    (s.setSeen ns x v).size = s.size := rfl
@[simp] theorem setSeen_parent (s : St T) (ns : NsId) (x : Name) (v : Option Node) :
    (s.setSeen ns x v).parent = s.parent := rfl

@[simp] theorem afterParent_size (s : St T) (ns : NsId) (x : Name) (e p : Bool) (n : Node) :
    (s.afterParent ns x e p n).size = s.size := by
  unfold St.afterParent
  simp only [setSeen_size]
  split <;> (try split) <;> rfl

@[simp] theorem afterParent_parent (s : St T) (ns : NsId) (x : Name) (e p : Bool) (n : Node) :
    (s.afterParent ns x e p n).parent = s.parent := by
  unfold St.afterParent
  simp only [setSeen_parent]
  split <;> (try split) <;> rfl

@[simp] theorem afterBuild_size (s : St T) (ns : NsId) (x : Name) (p : Bool) (n : Node) :
    (s.afterBuild ns x p n).size = s.size := by
  unfold St.afterBuild
  simp only [setSeen_size]
  split <;> (try split) <;> rfl

@[simp] theorem afterBuild_parent (s : St T) (ns : NsId) (x : Name) (p : Bool) (n : Node) :
    (s.afterBuild ns x p n).parent = s.parent := by
  unfold St.afterBuild
  simp only [setSeen_parent]
  split <;> (try split) <;> rfl

/-- What every primitive update preserves, every task preserves. -/
theorem exec_preserves (look : Lookup T) (P : St T → Prop)
    (hseen : ∀ s ns x v, P s → P (s.setSeen ns x v))
    (hpar : ∀ s ns x e d n, look x = some (x, d) → ns < s.size → P s →
      P (s.afterParent ns x e d.proxy n))
    (hbuild : ∀ s ns x d n, look x = some (x, d) → ns < s.size →
      (∃ fuel s0 build, d.build = some build ∧
        exec look fuel s0 (.prog (build ns)) = some (s, .ok n)) → P s →
      P (s.afterBuild ns x d.proxy n))
    (hchild : ∀ s ns x acc, ns < s.size → P s → P (s.addChild ns x acc))
    (huid : ∀ s : St T, P s → P { s with nextUid := s.nextUid + 1 })
    (hstore : ∀ (s : St T) uid v, P s →
      P { s with fields := fun u => if u = uid then some v else s.fields u })
    (hdefer : ∀ (s : St T) front f, P s → P (s.defer front f)) :
    ∀ (fuel : Nat) (s : St T) (t : Task T) (s' : St T) (r : Res), P s → ParOk s →
      (∀ ns e name, t = .get ns e name → ns < s.size) →
      exec look fuel s t = some (s', r) → P s' ∧ ParOk s' ∧ s.size ≤ s'.size := by
  intro fuel
  induction fuel with
  | zero => intro s t s' r _ _ _ h; simp [exec] at h
  | succ fuel ih =>
    intro s t s' r hP hpo hlt h
    have same : ∀ {s2 : St T} {r2 : Res}, some (s, r2) = some (s2, r) →
        P s2 ∧ ParOk s2 ∧ s.size ≤ s2.size := by
      intro s2 r2 h
      simp only [Option.some.injEq, Prod.mk.injEq] at h
      rw [← h.1]
      exact ⟨hP, hpo, Nat.le_refl _⟩
    cases t with
    | get ns edge name =>
      have hns : ns < s.size := hlt ns edge name rfl
      rw [exec] at h
      cases hs : s.seen ns name with
      | some v =>
        cases v <;> (simp only [hs] at h; exact same h)
      | none =>
        simp only [hs] at h
        cases hl : look name with
        | none => simp only [hl] at h; exact same h
        | some dd =>
          obtain ⟨dn, d⟩ := dd
          simp only [hl] at h
          cases hb : d.build with
          | none => simp only [hb] at h; exact same h
          | some build =>
            simp only [hb] at h
            by_cases hdn : dn = name
            · subst hdn
              simp only [ne_eq, not_true, if_false] at h
              by_cases hacc : s.accepts ns d.nodeType = true
              · simp only [hacc, if_true] at h
                cases he : exec look fuel s (.prog (build ns)) with
                | none => simp [he] at h
                | some sr =>
                  obtain ⟨s1, r1⟩ := sr
                  obtain ⟨a, b, c⟩ := ih s _ s1 r1 hP hpo (by simp) he
                  simp only [he] at h
                  cases r1 with
                  | ok n =>
                    simp only [Option.some.injEq, Prod.mk.injEq] at h
                    obtain ⟨rfl, rfl⟩ := h
                    refine ⟨hbuild s1 ns dn d n hl (Nat.lt_of_lt_of_le hns c) ⟨_, _, _, hb, he⟩ a, ?_, ?_⟩
                    · intro m p; simpa using b m p
                    · simpa using c
                  | err =>
                    simp only [Option.some.injEq, Prod.mk.injEq] at h
                    obtain ⟨rfl, rfl⟩ := h
                    exact ⟨a, b, c⟩
                  | panic =>
                    simp only [Option.some.injEq, Prod.mk.injEq] at h
                    obtain ⟨rfl, rfl⟩ := h
                    exact ⟨a, b, c⟩
              · simp only [hacc, if_false, Bool.false_eq_true] at h
                cases hp : s.parent ns with
                | none => simp only [hp] at h; exact same h
                | some p =>
                  simp only [hp] at h
                  cases he : exec look fuel s (.get p edge dn) with
                  | none => simp [he] at h
                  | some sr =>
                    obtain ⟨s1, r1⟩ := sr
                    obtain ⟨a, b, c⟩ := ih s _ s1 r1 hP hpo (by
                      intro ns' e' name' ht
                      injection ht with e1 e2 e3
                      subst e1; exact hpo _ _ hp) he
                    simp only [he] at h
                    cases r1 with
                    | ok n =>
                      simp only [Option.some.injEq, Prod.mk.injEq] at h
                      obtain ⟨rfl, rfl⟩ := h
                      refine ⟨hpar s1 ns dn edge d n hl (Nat.lt_of_lt_of_le hns c) a, ?_, ?_⟩
                      · intro m p; simpa using b m p
                      · simpa using c
                    | err =>
                      simp only [Option.some.injEq, Prod.mk.injEq] at h
                      obtain ⟨rfl, rfl⟩ := h
                      exact ⟨a, b, c⟩
                    | panic =>
                      simp only [Option.some.injEq, Prod.mk.injEq] at h
                      obtain ⟨rfl, rfl⟩ := h
                      exact ⟨a, b, c⟩
            · simp only [ne_eq, hdn, not_false_eq_true, if_true] at h
              cases he : exec look fuel s (.get ns edge dn) with
              | none => simp [he] at h
              | some sr =>
                obtain ⟨s1, r1⟩ := sr
                obtain ⟨a, b, c⟩ := ih s _ s1 r1 hP hpo (by
                  intro ns' e' name' ht
                  injection ht with e1 e2 e3
                  subst e1; exact hns) he
                simp only [he] at h
                cases r1 with
                | ok n =>
                  simp only [Option.some.injEq, Prod.mk.injEq] at h
                  obtain ⟨rfl, rfl⟩ := h
                  exact ⟨hseen _ _ _ _ a, b, c⟩
                | err =>
                  simp only [Option.some.injEq, Prod.mk.injEq] at h
                  obtain ⟨rfl, rfl⟩ := h
                  exact ⟨hseen _ _ _ _ a, b, c⟩
                | panic =>
                  simp only [Option.some.injEq, Prod.mk.injEq] at h
                  obtain ⟨rfl, rfl⟩ := h
                  exact ⟨a, b, c⟩
    | prog p =>
      have cont : ∀ (s1 : St T) (q : Prog T), P s1 → ParOk s1 → s.size ≤ s1.size →
          exec look fuel s1 (.prog q) = some (s', r) → P s' ∧ ParOk s' ∧ s.size ≤ s'.size := by
        intro s1 q a b c he
        obtain ⟨a', b', c'⟩ := ih s1 _ s' r a b (by simp) he
        exact ⟨a', b', Nat.le_trans c c'⟩
      cases p with
      | ret n => simp only [exec] at h; exact same h
      | fail => simp only [exec] at h; exact same h
      | new name b k =>
        simp only [exec] at h
        exact cont _ _ (huid s hP) hpo (Nat.le_refl _) h
      | load uid k =>
        simp only [exec] at h
        exact cont _ _ hP hpo (Nat.le_refl _) h
      | store uid v k =>
        simp only [exec] at h
        exact cont _ _ (hstore s uid v hP) hpo (Nat.le_refl _) h
      | child ns name k =>
        simp only [exec] at h
        exact cont _ _ hP hpo (Nat.le_refl _) h
      | defer ns front f k =>
        simp only [exec] at h
        exact cont _ _ (hdefer s front f hP) hpo (Nat.le_refl _) h
      | derive ns name acc k =>
        simp only [exec] at h
        by_cases hns : ns < s.size
        · simp only [hns, if_true] at h
          cases hc : s.children ns name with
          | some c =>
            simp only [hc] at h
            exact cont _ _ hP hpo (Nat.le_refl _) h
          | none =>
            simp only [hc] at h
            refine cont _ _ (hchild s ns name acc hns hP) ?_ (Nat.le_succ _) h
            intro m p hp
            simp only [St.addChild] at hp ⊢
            by_cases hm : m = s.size
            · simp only [hm, if_true, Option.some.injEq] at hp; omega
            · simp only [hm, if_false] at hp
              have := hpo m p hp
              omega
        · simp only [hns, if_false] at h; exact same h
      | get ns edge name k =>
        simp only [exec] at h
        by_cases hns : ns < s.size
        · simp only [hns, if_true] at h
          cases he : exec look fuel s (.get ns edge name) with
          | none => simp [he] at h
          | some sr =>
            obtain ⟨s1, r1⟩ := sr
            obtain ⟨a, b, c⟩ := ih s _ s1 r1 hP hpo (by
              intro ns' e' name' ht
              injection ht with e1 e2 e3
              subst e1; exact hns) he
            simp only [he] at h
            cases r1 with
            | ok n => exact cont _ _ a b c h
            | err => exact cont _ _ a b c h
            | panic =>
              simp only [Option.some.injEq, Prod.mk.injEq] at h
              obtain ⟨rfl, rfl⟩ := h
              exact ⟨a, b, c⟩
        · simp only [hns, if_false] at h; exact same h

/-- Was a node called `nm` recorded in `m` by this event? -/
def isRec (m : NsId) (nm : Name) : Event → Bool
  | .addNode m' _ n => m' == m && n.name == nm
  | .addEdge m' _ n => m' == m && n.name == nm
  | .hidden m' _ n _ => m' == m && n.name == nm
  | _ => false

/-- Each node name is recorded once per namespace, and hidden only for a reason. -/
structure Rec (look : Lookup T) (s : St T) : Prop where
  fresh : ∀ m nm, s.size ≤ m → s.added m nm = false
  once : ∀ m nm, (s.log.filter (isRec m nm)).length = if s.added m nm then 1 else 0
  why : ∀ m x n e, Event.hidden m x n e ∈ s.log →
    n.isMeta = true ∨ e = false ∨ ∃ d, look x = some (x, d) ∧ d.proxy = true
  edge : ∀ m x n, Event.addEdge m x n ∈ s.log → n.isMeta = false
  node : ∀ m x n, Event.addNode m x n ∈ s.log → Event.built m x n ∈ s.log
  builtRec : ∀ m x n, Event.built m x n ∈ s.log → s.added m n.name = true

theorem Rec.init (look : Lookup T) : Rec look (St.init : St T) :=
  ⟨by simp [St.init], by simp [St.init], by simp [St.init], by simp [St.init], by simp [St.init],
    by simp [St.init]⟩

theorem Rec.frame {look : Lookup T} {s s' : St T} (h : Rec look s) (h1 : s'.size = s.size)
    (h2 : s'.added = s.added) (h3 : s'.log = s.log) : Rec look s' := by
  refine ⟨?_, ?_, ?_, ?_, ?_, ?_⟩
  · rw [h1, h2]; exact h.fresh
  · rw [h2, h3]; exact h.once
  · rw [h3]; exact h.why
  · rw [h3]; exact h.edge
  · rw [h3]; exact h.node
  · rw [h2, h3]; exact h.builtRec

/-- Emitting a recording event and setting the flag. -/
theorem Rec.mark {look : Lookup T} {s : St T} (h : Rec look s) {ns : NsId} {nm : Name} {e : Event}
    (hns : ns < s.size) (hadd : s.added ns nm = false)
    (he : ∀ m x, isRec m x e = (ns == m && nm == x))
    (hw : ∀ m x n b, e = .hidden m x n b →
      n.isMeta = true ∨ b = false ∨ ∃ d, look x = some (x, d) ∧ d.proxy = true)
    (hed : ∀ m x n, e = .addEdge m x n → n.isMeta = false)
    (hnd : ∀ m x n, e = .addNode m x n → Event.built m x n ∈ s.log)
    (hb : ∀ m x n, e ≠ .built m x n) :
    Rec look ((s.emit e).setAdded ns nm) := by
  refine ⟨?_, ?_, ?_, ?_, ?_, ?_⟩
  · intro m x hm
    have hm' : s.size ≤ m := hm
    simp only [St.setAdded, St.emit]
    rw [if_neg (by omega)]
    exact h.fresh m x hm'
  · intro m x
    have := h.once m x
    simp only [St.setAdded, St.emit, List.filter_append, List.length_append, this,
      List.filter_cons, List.filter_nil, he]
    by_cases hc : m = ns ∧ x = nm
    · obtain ⟨rfl, rfl⟩ := hc
      simp [hadd]
    · have : ¬ (ns = m ∧ nm = x) := fun ⟨a, b⟩ => hc ⟨a.symm, b.symm⟩
      simp [hc, this]
  · intro m x n b hmem
    rcases List.mem_append.1 hmem with hmem | hmem
    · exact h.why m x n b hmem
    · exact hw m x n b (List.mem_singleton.1 hmem).symm
  · intro m x n hmem
    rcases List.mem_append.1 hmem with hmem | hmem
    · exact h.edge m x n hmem
    · exact hed m x n (List.mem_singleton.1 hmem).symm
  · intro m x n hmem
    rcases List.mem_append.1 hmem with hmem | hmem
    · exact List.mem_append_left _ (h.node m x n hmem)
    · exact List.mem_append_left _ (hnd m x n (List.mem_singleton.1 hmem).symm)
  · intro m x n hmem
    rcases List.mem_append.1 hmem with hmem | hmem
    · have := h.builtRec m x n hmem
      simp only [St.setAdded, St.emit, this, ite_self]
    · exact absurd (List.mem_singleton.1 hmem).symm (hb m x n)

theorem Rec.afterParent {look : Lookup T} {s : St T} (h : Rec look s) {ns : NsId} {x : Name}
    {e : Bool} {d : NsDef T} {n : Node} (hl : look x = some (x, d)) (hns : ns < s.size) :
    Rec look (s.afterParent ns x e d.proxy n) := by
  unfold St.afterParent
  by_cases ha : s.added ns n.name
  · simp only [ha, if_true]
    exact h.frame rfl rfl rfl
  · have ha' : s.added ns n.name = false := by simpa using ha
    simp only [ha, if_false, Bool.false_eq_true]
    by_cases hb : (!n.isMeta && e && !d.proxy) = true
    · simp only [hb, if_true]
      refine Rec.frame (h.mark (e := .addEdge ns x n) hns ha' ?_ ?_ ?_ ?_ ?_) rfl rfl rfl
      · intro m y; rfl
      · simp
      · intro m y n' he
        injection he with _ _ e3
        subst e3
        cases hm : n.isMeta <;> simp [hm] at hb ⊢
      · simp
      · simp
    · simp only [hb, if_false, Bool.false_eq_true]
      refine Rec.frame (h.mark (e := .hidden ns x n e) hns ha' ?_ ?_ ?_ ?_ ?_) rfl rfl rfl
      · intro m y; rfl
      · intro m y n' b he
        injection he with e1 e2 e3 e4
        subst e2; subst e3; subst e4
        cases hm : n.isMeta
        · cases hee : e
          · simp
          · cases hp : d.proxy
            · simp [hm, hee, hp] at hb
            · exact Or.inr (Or.inr ⟨d, hl, hp⟩)
        · simp
      · simp
      · simp
      · simp

theorem Rec.built {look : Lookup T} {s : St T} (h : Rec look s) {ns : NsId} {x : Name} {n : Node}
    (ha : s.added ns n.name = true) : Rec look (s.emit (.built ns x n)) := by
  refine ⟨h.fresh, ?_, ?_, ?_, ?_, ?_⟩
  · intro m nm
    have := h.once m nm
    simp only [St.emit, List.filter_append, List.length_append, this]
    simp [isRec]
    rfl
  · intro m y n' e hmem
    simp only [St.emit, List.mem_append, List.mem_singleton, reduceCtorEq, or_false] at hmem
    exact h.why m y n' e hmem
  · intro m y n' hmem
    simp only [St.emit, List.mem_append, List.mem_singleton, reduceCtorEq, or_false] at hmem
    exact h.edge m y n' hmem
  · intro m y n' hmem
    simp only [St.emit, List.mem_append, List.mem_singleton, reduceCtorEq, or_false] at hmem ⊢
    exact Or.inl (h.node m y n' hmem)
  · intro m y n' hmem
    simp only [St.emit, List.mem_append, List.mem_singleton] at hmem
    rcases hmem with hmem | hmem
    · exact h.builtRec m y n' hmem
    · injection hmem with e1 e2 e3
      subst e1; subst e3; exact ha

theorem Rec.afterBuild {look : Lookup T} {s : St T} (h : Rec look s) {ns : NsId} {x : Name}
    {d : NsDef T} {n : Node} (hl : look x = some (x, d)) (hns : ns < s.size) :
    Rec look (s.afterBuild ns x d.proxy n) := by
  unfold St.afterBuild
  by_cases ha : s.added ns n.name
  · have : (s.emit (.built ns x n)).added ns n.name = true := ha
    simp only [this, if_true]
    exact (h.built ha).frame rfl rfl rfl
  · have ha' : s.added ns n.name = false := by simpa using ha
    have : (s.emit (.built ns x n)).added ns n.name = false := ha'
    simp only [this, if_false, Bool.false_eq_true]
    -- the state up to the order of events
    have key : ∀ e : Event, (∀ m y, isRec m y e = (ns == m && n.name == y)) →
        (∀ m y n' b, e = .hidden m y n' b →
          n'.isMeta = true ∨ b = false ∨ ∃ d, look y = some (y, d) ∧ d.proxy = true) →
        (∀ m y n', e = .addNode m y n' → m = ns ∧ y = x ∧ n' = n) →
        (∀ m y n', e ≠ .built m y n') → (∀ m y n', e ≠ .addEdge m y n') →
        Rec look ((((s.emit (.built ns x n)).emit e).setAdded ns n.name).setSeen ns x (some n)) := by
      intro e he hw hn hb hed
      refine ⟨?_, ?_, ?_, ?_, ?_, ?_⟩
      · intro m y hm
        have hm' : s.size ≤ m := hm
        simp only [St.setAdded, St.emit, St.setSeen]
        rw [if_neg (by omega)]
        exact h.fresh m y hm'
      · intro m y
        have := h.once m y
        simp only [St.setAdded, St.emit, St.setSeen, List.filter_append, List.length_append, this,
          List.filter_cons, List.filter_nil, he]
        by_cases hc : m = ns ∧ y = n.name
        · obtain ⟨rfl, rfl⟩ := hc
          simp [ha', isRec]
        · have : ¬ (ns = m ∧ n.name = y) := fun ⟨a, b⟩ => hc ⟨a.symm, b.symm⟩
          simp [hc, this, isRec]
      · intro m y n' b hmem
        simp only [St.setAdded, St.emit, St.setSeen, List.mem_append, List.mem_singleton,
          reduceCtorEq, or_false] at hmem
        rcases hmem with hmem | hmem
        · exact h.why m y n' b hmem
        · exact hw m y n' b hmem.symm
      · intro m y n' hmem
        simp only [St.setAdded, St.emit, St.setSeen, List.mem_append, List.mem_singleton,
          reduceCtorEq, or_false] at hmem
        rcases hmem with hmem | hmem
        · exact h.edge m y n' hmem
        · exact absurd hmem.symm (hed m y n')
      · intro m y n' hmem
        simp only [St.setAdded, St.emit, St.setSeen, List.mem_append, List.mem_singleton,
          reduceCtorEq, or_false] at hmem ⊢
        rcases hmem with hmem | hmem
        · exact Or.inl (Or.inl (h.node m y n' hmem))
        · obtain ⟨rfl, rfl, rfl⟩ := hn m y n' hmem.symm
          exact Or.inl (Or.inr rfl)
      · intro m y n' hmem
        simp only [St.setAdded, St.emit, St.setSeen, List.mem_append, List.mem_singleton] at hmem ⊢
        rcases hmem with (hmem | hmem) | hmem
        · rw [h.builtRec m y n' hmem]; simp
        · injection hmem with e1 e2 e3
          subst e1; subst e3; simp
        · exact absurd hmem.symm (hb m y n')
    cases hp : d.proxy
    · simp only [Bool.not_false, if_true]
      refine key _ (fun m y => rfl) (by simp) ?_ (by simp) (by simp)
      intro m y n' he
      injection he with e1 e2 e3
      exact ⟨e1.symm, e2.symm, e3.symm⟩
    · simp only [Bool.not_true, Bool.false_eq_true, if_false]
      refine key _ (fun m y => rfl) ?_ (by simp) (by simp) (by simp)
      intro m y n' b he
      injection he with e1 e2 e3 e4
      subst e2
      exact Or.inr (Or.inr ⟨d, hl, hp⟩)

theorem Rec.addChild {look : Lookup T} {s : St T} (h : Rec look s) {ns : NsId} {x : Name}
    {acc : T → Bool} : Rec look (s.addChild ns x acc) := by
  refine ⟨?_, ?_, h.why, h.edge, h.node, ?_⟩
  · intro m nm hm
    simp only [St.addChild] at hm ⊢
    rw [if_neg (by omega)]
    exact h.fresh m nm (by omega)
  · intro m nm
    have := h.once m nm
    simp only [St.addChild, this]
    by_cases hm : m = s.size
    · subst hm
      rw [h.fresh _ nm (Nat.le_refl _)]
      simp
    · simp [hm]
  · intro m y n hmem
    have := h.builtRec m y n hmem
    simp only [St.addChild]
    by_cases hm : m = s.size
    · subst hm
      rw [h.fresh _ _ (Nat.le_refl _)] at this
      exact absurd this (by simp)
    · rw [if_neg hm]; exact this

theorem Rec.defer {look : Lookup T} {s : St T} (h : Rec look s) {front : Bool} {f : Prog T} :
    Rec look (s.defer front f) := by
  refine ⟨h.fresh, ?_, ?_, ?_, ?_, ?_⟩
  · intro m nm
    have := h.once m nm
    simp only [St.defer, List.filter_append, List.length_append, this]
    simp [isRec]
    rfl
  all_goals
    simp only [St.defer, List.mem_append, List.mem_singleton, reduceCtorEq, or_false]
  · exact h.why
  · exact h.edge
  · exact h.node
  · exact h.builtRec

theorem Rec.exec {look : Lookup T} {fuel : Nat} {s : St T} {t : Task T} {s' : St T} {r : Res}
    (h : Rec look s) (hpo : ParOk s) (hlt : ∀ ns e name, t = .get ns e name → ns < s.size)
    (he : exec look fuel s t = some (s', r)) : Rec look s' ∧ ParOk s' ∧ s.size ≤ s'.size :=
  exec_preserves look (Rec look) (fun _ _ _ _ h => h.frame rfl rfl rfl)
    (fun _ _ _ _ _ _ hl hns h => h.afterParent hl hns)
    (fun _ _ _ _ _ hl hns _ h => h.afterBuild hl hns)
    (fun _ _ _ _ _ h => h.addChild) (fun _ h => h.frame rfl rfl rfl)
    (fun _ _ _ h => h.frame rfl rfl rfl) (fun _ _ _ h => h.defer)
    fuel s t s' r h hpo hlt he

theorem Rec.history {look : Lookup T} {s s' : St T} (hh : History look s s') (h : Rec look s)
    (hpo : ParOk s) : Rec look s' := by
  induction hh with
  | refl => exact h
  | step fuel t r hlt he _ ih =>
    obtain ⟨a, b, -⟩ := h.exec hpo hlt he
    exact ih a b

end Verif.Wiring.Ns
