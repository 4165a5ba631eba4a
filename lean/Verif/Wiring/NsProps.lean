import Verif.Wiring.NsInv
/-
C16 and C17: what Get does in nested namespaces.
-/
namespace Verif.Wiring.Ns
variable {T : Type}

/-! ### C16 -/

theorem ParOk.init : ParOk (St.init : St T) := by simp [ParOk, St.init]

theorem builtCount_eq (s : St T) (m : NsId) (x : Name) :
    builtCount s m x = (s.log.filter (isBuilt m x)).length := by
  unfold builtCount
  congr 2

theorem told_hidden (l : List Event) (m : NsId) (nm : Name) :
    (l.filter fun e => match e with
      | .addNode m' _ n => m' == m && n.name == nm
      | .addEdge m' _ n => m' == m && n.name == nm
      | _ => false).length +
    (l.filter fun e => match e with
      | .hidden m' _ n _ => m' == m && n.name == nm
      | _ => false).length = (l.filter (isRec m nm)).length := by
  induction l with
  | nil => rfl
  | cons e l ih =>
    have hc : ∀ (p : Event → Bool) (a : Event) (l : List Event),
        ((a :: l).filter p).length = (p a).toNat + (l.filter p).length := by
      intro p a l
      rw [List.filter_cons]
      cases p a <;> simp <;> omega
    rw [hc, hc, hc]
    cases e <;> simp only [isRec] <;> simp <;> omega

theorem History.trans {look : Lookup T} {s1 s2 s3 : St T} (h : History look s1 s2)
    (h' : History look s2 s3) : History look s1 s3 := by
  induction h with
  | refl => exact h'
  | step f t r hl he _ ih => exact .step f t r hl he (ih h')

/-- C16: in a wiring without dependency cycles, once a Get of `name` in `ns` has
returned a node, every later Get or Instantiate of `name` in `ns` returns that very
node and changes nothing, whatever happened in between. -/
theorem C16_same_node (look : Lookup T) (rank : Name → Nat) (hac : Acyclic look rank)
    {s0 s1 s2 s3 : St T} (h0 : History look St.init s0) {ns : NsId} (hns : ns < s0.size)
    {name : Name} {e1 e2 : Bool} {f1 f2 : Nat} {n : Node} {r : Res}
    (hg : exec look f1 s0 (.get ns e1 name) = some (s1, .ok n)) (h12 : History look s1 s2)
    (hg2 : exec look f2 s2 (.get ns e2 name) = some (s3, r)) : r = .ok n ∧ s3 = s2 := by
  have w0 := (history_ext hac h0 WF.init).wf
  obtain ⟨hx, hres⟩ := exec_ext look rank hac f1 s0 _ s1 _ w0
    (by intro _ _ _ h; injection h with a; subst a; exact hns) hg
  have hseen := hres ns e1 name n rfl rfl
  have hx2 := history_ext hac h12 hx.wf
  have hseen2 := hx2.mono _ _ _ hseen
  cases f2 with
  | zero => simp [exec] at hg2
  | succ f2 =>
    simp only [exec, hseen2, Option.some.injEq, Prod.mk.injEq] at hg2
    exact ⟨hg2.2.symm, hg2.1.symm⟩

/-- C16: in a wiring without dependency cycles, a build function succeeds at most
once per namespace, and Get returns what it built. -/
theorem C16_built_once (look : Lookup T) (rank : Name → Nat) (hac : Acyclic look rank)
    {s : St T} (h : History look St.init s) (ns : NsId) (name : Name) :
    builtCount s ns name ≤ 1 ∧
    ∀ n, .built ns name n ∈ s.log → ∀ fuel e s' r,
      exec look fuel s (.get ns e name) = some (s', r) → r = .ok n ∧ s' = s := by
  have hx := history_ext hac h WF.init
  obtain ⟨es, hl, hb, hc⟩ := hx.log
  have hl' : s.log = es := by rw [hl]; rfl
  refine ⟨?_, ?_⟩
  · rw [builtCount_eq, hl']; exact hc ns name
  · intro n hmem fuel e s' r hg
    rw [hl'] at hmem
    have hseen := (hb _ _ _ hmem).2.1
    cases fuel with
    | zero => simp [exec] at hg
    | succ fuel =>
      simp only [exec, hseen, Option.some.injEq, Prod.mk.injEq] at hg
      exact ⟨hg.2.symm, hg.1.symm⟩

/-- C16: the handler of a namespace is told at most once about nodes of one name, by
AddNode or by AddEdge, cyclic wiring or not.  Every node built in the namespace was
reported to the handler unless it (or a node of the same name) was recorded
silently; that happens only to metadata, to pointers (proxy definitions) and to
nodes brought in by Instantiate.  AddNode reports only nodes built in that namespace,
AddEdge never reports metadata. -/
theorem C16_told_once (look : Lookup T) {s : St T} (h : History look St.init s) (ns : NsId) :
    (∀ nm, toldCount s ns nm ≤ 1) ∧
    (∀ name n, .built ns name n ∈ s.log →
      toldCount s ns n.name + hiddenCount s ns n.name = 1) ∧
    (∀ name n e, .hidden ns name n e ∈ s.log →
      n.isMeta = true ∨ e = false ∨ ∃ d, look name = some (name, d) ∧ d.proxy = true) ∧
    (∀ name n, .addNode ns name n ∈ s.log → .built ns name n ∈ s.log) ∧
    (∀ name n, .addEdge ns name n ∈ s.log → n.isMeta = false) := by
  have hr := Rec.history h (Rec.init look) ParOk.init
  have key : ∀ nm, toldCount s ns nm + hiddenCount s ns nm = if s.added ns nm then 1 else 0 := by
    intro nm
    rw [← hr.once ns nm]
    exact told_hidden s.log ns nm
  refine ⟨?_, ?_, hr.why ns, hr.node ns, hr.edge ns⟩
  · intro nm
    have := key nm
    split at this <;> omega
  · intro name n hmem
    rw [key, hr.builtRec ns name n hmem]
    rfl

/-! #### A concrete compilation

`svc` lives in processes and depends on `db`, which does not; `proc` is a process. -/

/-- types: 0 is a process-level node, 1 an application-level node -/
def demo : Lookup Nat := fun x =>
  if x = "svc" then some ("svc", ⟨0, false, some fun ns =>
    .get ns true "db" fun
      | none => .fail
      | some _ => .new "svc" false fun n => .ret n⟩)
  else if x = "db" then some ("db", ⟨1, false, some fun _ => .new "db" false fun n => .ret n⟩)
  else if x = "proc" then some ("proc", ⟨1, false, some fun ns =>
    .derive ns "proc" (· == 0) fun
      | none => .fail
      | some c => .get c true "svc" fun
        | none => .fail
        | some _ => .new "proc" false fun n => .ret n⟩)
  else if x = "main" then some ("proc", ⟨1, false, some fun _ => .fail⟩)
  else none

def demoRank : Name → Nat := fun x =>
  if x = "main" then 4 else if x = "proc" then 3 else if x = "svc" then 2 else 1

theorem demo_acyclic : Acyclic demo demoRank := by
  intro name dn d hl
  unfold demo at hl
  split at hl
  · next hn =>
    simp only [Option.some.injEq, Prod.mk.injEq] at hl
    obtain ⟨rfl, rfl⟩ := hl
    refine ⟨fun h => absurd hn.symm h, fun _ build ns hb => ?_⟩
    simp only [Option.some.injEq] at hb
    subst hb; subst hn
    refine .get _ _ _ _ (by decide) ?_
    intro r
    cases r
    · exact .fail
    · exact .new _ _ _ fun n => .ret n
  · split at hl
    · next hn =>
      simp only [Option.some.injEq, Prod.mk.injEq] at hl
      obtain ⟨rfl, rfl⟩ := hl
      refine ⟨fun h => absurd hn.symm h, fun _ build ns hb => ?_⟩
      simp only [Option.some.injEq] at hb
      subst hb
      exact .new _ _ _ fun n => .ret n
    · split at hl
      · next hn =>
        simp only [Option.some.injEq, Prod.mk.injEq] at hl
        obtain ⟨rfl, rfl⟩ := hl
        refine ⟨fun h => absurd hn.symm h, fun _ build ns hb => ?_⟩
        simp only [Option.some.injEq] at hb
        subst hb; subst hn
        refine .derive _ _ _ _ ?_
        intro r
        cases r
        · exact .fail
        · refine .get _ _ _ _ (by decide) ?_
          intro r
          cases r
          · exact .fail
          · exact .new _ _ _ fun n => .ret n
      · split at hl
        · next hn =>
          simp only [Option.some.injEq, Prod.mk.injEq] at hl
          obtain ⟨rfl, rfl⟩ := hl
          subst hn
          exact ⟨fun _ => by decide, fun h => absurd h (by decide)⟩
        · simp at hl

/-- The compilation of `main` ends, and the hypotheses of the C16 theorems are met. -/
example : ∃ s n, exec demo 20 St.init (.get 0 true "main") = some (s, .ok n) ∧
    History demo St.init s ∧ builtCount s 1 "svc" = 1 ∧ builtCount s 0 "db" = 1 ∧
    builtCount s 1 "db" = 0 ∧ toldCount s 1 "db" = 1 ∧ toldCount s 0 "db" = 1 ∧
    toldCount s 1 "svc" = 1 ∧ toldCount s 0 "proc" = 1 ∧ toldCount s 0 "svc" = 0 :=
  ⟨_, _, rfl, .step 20 (.get 0 true "main") _ (by intro _ _ _ h; injection h with a; subst a; decide)
    rfl (.refl _), by decide, by decide, by decide, by decide, by decide, by decide, by decide,
    by decide⟩

/-- C16 fails after an error: a failed Get of an alias caches nil, and the second Get
of the alias panics. -/
theorem C16_failed_alias_refuted :
    ∃ (look : Lookup Unit) (rank : Name → Nat), Acyclic look rank ∧
    ∃ s1, exec look 5 St.init (.get 0 true "alias") = some (s1, .err) ∧
      exec look 5 s1 (.get 0 true "alias") = some (s1, .panic) := by
  refine ⟨fun x => if x = "alias" ∨ x = "x" then some ("x", ⟨(), false, some fun _ => .fail⟩) else none,
    fun x => if x = "alias" then 1 else 0, ?_, _, rfl, rfl⟩
  intro name dn d hl
  simp only [] at hl
  split at hl
  · next hn =>
    simp only [Option.some.injEq, Prod.mk.injEq] at hl
    obtain ⟨rfl, rfl⟩ := hl
    refine ⟨?_, ?_⟩
    · intro h
      rcases hn with rfl | rfl
      · decide
      · exact absurd rfl h
    · intro _ build ns hb
      simp only [Option.some.injEq] at hb
      subst hb
      exact .fail
  · simp at hl

/-- C16 fails for cyclic wiring: `a` is built twice in the same namespace (the build
function of `a` Gets `b`, whose build function Gets `a`, which is not cached yet; the
inner build stops the recursion because it sees a flag), and the two Gets return
different nodes. -/
theorem C16_cyclic_refuted :
    ∃ (look : Lookup Unit) (s : St Unit) (n : Node),
      exec look 20 St.init (.get 0 true "a") = some (s, .ok n) ∧ builtCount s 0 "a" = 2 :=
  ⟨fun x =>
    if x = "a" then some ("a", ⟨(), false, some fun ns =>
      .load 7 fun
        | some _ => .new "a" false fun n => .ret n
        | none => .new "flag" false fun f => .store 7 f <|
          .get ns true "b" fun _ => .new "a" false fun n => .ret n⟩)
    else if x = "b" then some ("b", ⟨(), false, some fun ns =>
      .get ns true "a" fun _ => .new "b" false fun n => .ret n⟩)
    else none, _, _, rfl, by decide⟩

/-- C16: nodes are told apart by their Name(), not by identity: of two different nodes
with the same name the handler hears only about the first. -/
theorem C16_same_name_refuted :
    ∃ (look : Lookup Unit) (s1 s2 : St Unit) (n1 n2 : Node), n1 ≠ n2 ∧
      exec look 5 St.init (.get 0 true "a") = some (s1, .ok n1) ∧
      exec look 5 s1 (.get 0 true "b") = some (s2, .ok n2) ∧
      .addNode 0 "a" n1 ∈ s2.log ∧ .built 0 "b" n2 ∈ s2.log ∧
      ∀ x, .addNode 0 x n2 ∉ s2.log := by
  refine ⟨fun x => if x = "a" ∨ x = "b" then
      some (x, ⟨(), false, some fun _ => .new "node" false fun n => .ret n⟩) else none,
    _, _, ⟨0, "node", false⟩, ⟨1, "node", false⟩, by decide, rfl, rfl, by decide, by decide, ?_⟩
  intro x h
  have h' : Event.addNode 0 x ⟨1, "node", false⟩ ∈
    [Event.built 0 "a" ⟨0, "node", false⟩, .addNode 0 "a" ⟨0, "node", false⟩,
      .built 0 "b" ⟨1, "node", false⟩] := h
  simp at h'

/-! ### C17 -/

/-- C17: every namespace of a compilation has a nearest accepting namespace for every
type, itself or an ancestor, because the application accepts everything. -/
theorem C17_placed_somewhere (look : Lookup T) (rank : Name → Nat) (hac : Acyclic look rank)
    {s : St T} (h : History look St.init s) (t : T) :
    ∀ ns, ns < s.size → ∃ path a, Nearest s t ns path a := by
  have w := (history_ext hac h WF.init).wf
  intro ns
  induction ns using Nat.strongRecOn with
  | _ ns ih =>
    intro hns
    cases hacc : s.accepts ns t with
    | true => exact ⟨[], ns, .here hacc⟩
    | false =>
      cases hp : s.parent ns with
      | none =>
        have := w.root ns hns hp
        subst this
        rw [w.all t] at hacc
        exact absurd hacc (by simp)
      | some p =>
        have hlt := w.parent ns p hp
        obtain ⟨path, a, hn⟩ := ih p hlt.1 (by omega)
        exact ⟨ns :: path, a, .up hacc hp hn⟩

/-- C17: nothing is ever built in a namespace that does not accept its type. -/
theorem C17_built_where_accepted (look : Lookup T) (rank : Name → Nat) (hac : Acyclic look rank)
    {s : St T} (h : History look St.init s) (ns : NsId) (name : Name) (n : Node)
    (hb : .built ns name n ∈ s.log) :
    ∃ d, look name = some (name, d) ∧ s.accepts ns d.nodeType = true := by
  obtain ⟨es, hl, hb', -⟩ := (history_ext hac h WF.init).log
  have hl' : s.log = es := by rw [hl]; rfl
  rw [hl'] at hb
  exact (hb' _ _ _ hb).2.2.2

/-- C17: a node is built by its definition's own build function, run on the namespace in
which it is built; and never in any other way.  No acyclicity is needed. -/
theorem C17_built_by (look : Lookup T) {s : St T} (h : History look St.init s) (ns : NsId)
    (name : Name) (n : Node) (hb : .built ns name n ∈ s.log) :
    ∃ d build fuel s0 s1, look name = some (name, d) ∧ d.build = some build ∧
      exec look fuel s0 (.prog (build ns)) = some (s1, .ok n) := by
  let P : St T → Prop := fun s => ∀ ns name n, .built ns name n ∈ s.log →
    ∃ d build fuel s0 s1, look name = some (name, d) ∧ d.build = some build ∧
      exec look fuel s0 (.prog (build ns)) = some (s1, .ok n)
  suffices hall : ∀ s s', History look s s' → P s → ParOk s → P s' by
    exact hall _ _ h (fun _ _ _ h => by simp [St.init] at h) (fun m p hp => by simp [St.init] at hp)
      ns name n hb
  intro s s' hh
  induction hh with
  | refl => intro h _; exact h
  | step fuel t r hlt he _ ih =>
    intro hP hpo
    obtain ⟨a, b, -⟩ := exec_preserves look P (fun _ _ _ _ h => h)
      (fun t ns x e d n _ _ h m y w hw => by
        unfold St.afterParent at hw
        simp only [St.setSeen] at hw
        refine h m y w ?_
        split at hw
        · exact hw
        · split at hw <;> simpa [St.setAdded, St.emit] using hw)
      (fun t ns x d n hl _ hx h m y w hw => by
        have hw' : .built m y w ∈ t.log ∨ (m = ns ∧ y = x ∧ w = n) := by
          unfold St.afterBuild at hw
          simp only [St.setSeen] at hw
          split at hw
          · simpa [St.emit] using hw
          · split at hw <;> simpa [St.setAdded, St.emit] using hw
        rcases hw' with hw | ⟨rfl, rfl, rfl⟩
        · exact h m y w hw
        · obtain ⟨f, s0, build, h1, h2⟩ := hx
          exact ⟨d, build, f, s0, t, hl, h1, h2⟩)
      (fun _ _ _ _ _ h => h) (fun _ h => h) (fun _ _ _ h => h)
      (fun _ _ _ h m y w hw => h m y w (by simpa [St.defer] using hw))
      fuel _ t _ r hP hpo hlt he
    exact ih a b

theorem afterParent_seen_other (s : St T) (ns : NsId) (x : Name) (e p : Bool) (n : Node)
    (m : NsId) (y : Name) (h : m ≠ ns) : (s.afterParent ns x e p n).seen m y = s.seen m y := by
  unfold St.afterParent
  simp only [St.setSeen, h, false_and, if_false]
  split <;> (try split) <;> rfl

theorem afterParent_added (s : St T) (ns : NsId) (x : Name) (e p : Bool) (n : Node)
    (m : NsId) (y : Name) (h : s.added m y = true ∨ (m = ns ∧ y = n.name)) :
    (s.afterParent ns x e p n).added m y = true := by
  unfold St.afterParent
  by_cases ha : s.added ns n.name
  · simp only [ha, if_true, St.setSeen]
    rcases h with h | ⟨rfl, rfl⟩
    · exact h
    · exact ha
  · simp only [ha, if_false, Bool.false_eq_true, St.setSeen, St.setAdded]
    by_cases hc : m = ns ∧ y = n.name
    · simp [hc]
    · rw [if_neg hc]
      rcases h with h | h
      · split <;> exact h
      · exact absurd h hc

theorem afterParent_log (s : St T) (ns : NsId) (x : Name) (e p : Bool) (n : Node) (ev : Event)
    (h : ev ∈ s.log) : ev ∈ (s.afterParent ns x e p n).log := by
  unfold St.afterParent
  simp only [St.setSeen]
  split
  · exact h
  · split <;> exact List.mem_append_left _ h

theorem afterParent_builtCount (s : St T) (ns : NsId) (x : Name) (e p : Bool) (n : Node) (m : NsId)
    (y : Name) : builtCount (s.afterParent ns x e p n) m y = builtCount s m y := by
  unfold St.afterParent builtCount
  simp only [St.setSeen]
  split
  · rfl
  · split <;> simp [St.setAdded, St.emit, List.filter_append]

theorem afterBuild_added (s : St T) (ns : NsId) (x : Name) (p : Bool) (n : Node) :
    (s.afterBuild ns x p n).added ns n.name = true := by
  unfold St.afterBuild
  simp only [St.setSeen]
  split
  · next h => exact h
  · simp [St.setAdded]

theorem afterBuild_log (s : St T) (ns : NsId) (x : Name) (p : Bool) (n : Node) :
    .built ns x n ∈ (s.afterBuild ns x p n).log := by
  unfold St.afterBuild
  simp only [St.setSeen]
  split
  · simp [St.emit]
  · split <;> simp [St.emit, St.setAdded]

/-- The induction behind `C17_nearest`. -/
theorem nearest_aux (look : Lookup T) {s : St T} (w : WF s) {name : Name} {d : NsDef T}
    (hl : look name = some (name, d)) {ns a : NsId} {path : List NsId}
    (hn : Nearest s d.nodeType ns path a) :
    ns < s.size → (∀ m ∈ path ++ [a], s.seen m name = none) →
    ∀ {fuel : Nat} {edge : Bool} {s1 : St T} {n : Node},
      exec look fuel s (.get ns edge name) = some (s1, .ok n) →
      .built a name n ∈ s1.log ∧
      (∀ m ∈ path ++ [a], s1.seen m name = some (some n) ∧ s1.added m n.name = true ∧ m ≤ ns) := by
  induction hn with
  | @here ns hacc =>
    intro hns hun fuel edge s1 n hg
    cases fuel with
    | zero => simp [exec] at hg
    | succ fuel =>
      have hs := hun ns (by simp)
      rw [exec] at hg
      simp only [hs, hl, ne_eq, not_true, if_false, hacc, if_true] at hg
      cases hb : d.build with
      | none => simp [hb] at hg
      | some build =>
        simp only [hb] at hg
        cases he : exec look fuel s (.prog (build ns)) with
        | none => simp [he] at hg
        | some sr =>
          obtain ⟨s', r'⟩ := sr
          simp only [he] at hg
          cases r' with
          | ok n' =>
            simp only [Option.some.injEq, Prod.mk.injEq, Res.ok.injEq] at hg
            obtain ⟨rfl, rfl⟩ := hg
            refine ⟨afterBuild_log _ _ _ _ _, ?_⟩
            intro m hm
            simp only [List.nil_append, List.mem_singleton] at hm
            subst hm
            exact ⟨by simp [St.afterBuild, St.setSeen], afterBuild_added _ _ _ _ _, Nat.le_refl _⟩
          | err => simp at hg
          | panic => simp at hg
  | @up ns p a path hacc hp _ ih =>
    intro hns hun fuel edge s1 n hg
    obtain ⟨hpn, -⟩ := w.parent ns p hp
    cases fuel with
    | zero => simp [exec] at hg
    | succ fuel =>
      have hs := hun ns (by simp)
      rw [exec] at hg
      simp only [hs, hl, ne_eq, not_true, if_false, hacc, Bool.false_eq_true] at hg
      cases hb : d.build with
      | none => simp [hb] at hg
      | some build =>
        simp only [hb, hp] at hg
        cases he : exec look fuel s (.get p edge name) with
        | none => simp [he] at hg
        | some sr =>
          obtain ⟨s', r'⟩ := sr
          simp only [he] at hg
          cases r' with
          | ok n' =>
            simp only [Option.some.injEq, Prod.mk.injEq, Res.ok.injEq] at hg
            obtain ⟨rfl, rfl⟩ := hg
            obtain ⟨h1, h2⟩ := ih (by omega) (fun m hm => hun m (by
              rw [List.cons_append]; exact List.mem_cons_of_mem _ hm)) he
            refine ⟨afterParent_log _ _ _ _ _ _ _ h1, ?_⟩
            intro m hm
            rw [List.cons_append] at hm
            rcases List.mem_cons.1 hm with rfl | hm
            · exact ⟨by simp [St.afterParent, St.setSeen],
                afterParent_added _ _ _ _ _ _ _ _ (Or.inr ⟨rfl, rfl⟩), Nat.le_refl _⟩
            · obtain ⟨g1, g2, g3⟩ := h2 m hm
              refine ⟨?_, afterParent_added _ _ _ _ _ _ _ _ (Or.inl g2), by omega⟩
              rw [afterParent_seen_other _ _ _ _ _ _ _ _ (by omega)]
              exact g1
          | err => simp at hg
          | panic => simp at hg

/-- C17: the first Get of `name` from `ns` builds it in the nearest namespace that
accepts its type, exactly once, and not in the ones passed on the way; all these
namespaces then know the node, and unless the node is metadata or a pointer, or
is Instantiated, or a node of that name was recorded silently before, the handlers
of all of them are told about a node of that name (the accepting one by AddNode, and
the ones on the way by AddEdge if they never built a node of that name). -/
theorem C17_nearest (look : Lookup T) (rank : Name → Nat) (hac : Acyclic look rank)
    {s s1 : St T} (h : History look St.init s) {name : Name} {d : NsDef T}
    (hl : look name = some (name, d)) {ns a : NsId} {path : List NsId} (hns : ns < s.size)
    (hn : Nearest s d.nodeType ns path a) (hun : ∀ m ∈ path ++ [a], s.seen m name = none)
    {fuel : Nat} {edge : Bool} {n : Node}
    (hg : exec look fuel s (.get ns edge name) = some (s1, .ok n)) :
    .built a name n ∈ s1.log ∧ builtCount s1 a name = 1 ∧
    (∀ m ∈ path, builtCount s1 m name = 0) ∧
    (∀ m ∈ path ++ [a], ∀ f e, exec look (f + 1) s1 (.get m e name) = some (s1, .ok n)) ∧
    (∀ m ∈ path ++ [a], toldCount s1 m n.name + hiddenCount s1 m n.name = 1) := by
  have w := (history_ext hac h WF.init).wf
  have hlt : ∀ ns' e' name', Task.get ns edge name = (.get ns' e' name' : Task T) → ns' < s.size := by
    intro _ _ _ h; injection h with a; subst a; exact hns
  have h1 : History look St.init s1 := h.trans (.step fuel _ _ hlt hg (.refl _))
  obtain ⟨g1, g2⟩ := nearest_aux look w hl hn hns hun hg
  have hx := (exec_ext look rank hac fuel s _ s1 _ w hlt hg).1
  have hle : ∀ m ∈ path ++ [a], m < s.size := fun m hm => Nat.lt_of_le_of_lt (g2 m hm).2.2 hns
  refine ⟨g1, ?_, ?_, ?_, ?_⟩
  · have hle := (C16_built_once look rank hac h1 a name).1
    have hpos : 0 < builtCount s1 a name := by
      rw [builtCount_eq]
      exact List.length_pos_of_mem (List.mem_filter.2 ⟨g1, by simp [isBuilt]⟩)
    omega
  · intro m hm
    have hrej : s.accepts m d.nodeType = false := by
      clear g1 g2 hle hun hlt hg hns hx
      induction hn with
      | here => simp at hm
      | up hacc _ _ ih =>
        rcases List.mem_cons.1 hm with rfl | hm
        · exact hacc
        · exact ih hm
    rw [builtCount_eq]
    have : s1.log.filter (isBuilt m name) = [] := by
      rw [List.filter_eq_nil_iff]
      intro e he hb
      cases e with
      | built m' x' n' =>
        simp only [isBuilt, Bool.and_eq_true, beq_iff_eq] at hb
        obtain ⟨rfl, rfl⟩ := hb
        obtain ⟨d', hd', hacc⟩ := C17_built_where_accepted look rank hac h1 _ _ _ he
        rw [hl] at hd'
        simp only [Option.some.injEq, Prod.mk.injEq, true_and] at hd'
        subst hd'
        rw [hx.accepts _ (hle _ (List.mem_append_left _ hm)), hrej] at hacc
        exact absurd hacc (by simp)
      | _ => simp [isBuilt] at hb
    rw [this]; rfl
  · intro m hm f e
    rw [exec]
    simp [(g2 m hm).1]
  · intro m hm
    have hr := Rec.history h1 (Rec.init look) ParOk.init
    have := hr.once m n.name
    rw [← told_hidden, (g2 m hm).2.1] at this
    exact this

/-- C17: if the nearest accepting namespace already has the node, Get returns that
node and builds nothing: namespaces share the nodes of their common ancestors. -/
theorem C17_shared (look : Lookup T) {s : St T} {name : Name} {d : NsDef T} {ns a : NsId}
    {path : List NsId} (hl : look name = some (name, d))
    (hn : Nearest s d.nodeType ns path a) (hun : ∀ m ∈ path, s.seen m name = none)
    {n : Node} (hs : s.seen a name = some (some n)) (hb : d.build ≠ none) :
    ∀ {fuel : Nat} {edge : Bool} {s1 : St T} {r : Res},
      exec look fuel s (.get ns edge name) = some (s1, r) →
      r = .ok n ∧ ∀ m x, builtCount s1 m x = builtCount s m x := by
  induction hn with
  | here hacc =>
    intro fuel edge s1 r hg
    cases fuel with
    | zero => simp [exec] at hg
    | succ fuel =>
      rw [exec] at hg
      simp only [hs, Option.some.injEq, Prod.mk.injEq] at hg
      obtain ⟨rfl, rfl⟩ := hg
      exact ⟨rfl, fun _ _ => rfl⟩
  | @up ns p a path hacc hp _ ih =>
    intro fuel edge s1 r hg
    cases fuel with
    | zero => simp [exec] at hg
    | succ fuel =>
      rw [exec] at hg
      have hs' := hun ns (by simp)
      cases hb' : d.build with
      | none => exact absurd hb' hb
      | some build =>
        simp only [hs', hl, hb', ne_eq, not_true, if_false, hacc, Bool.false_eq_true, hp] at hg
        cases he : exec look fuel s (.get p edge name) with
        | none => simp [he] at hg
        | some sr =>
          obtain ⟨s', r'⟩ := sr
          obtain ⟨rfl, hc⟩ := ih (fun m hm => hun m (List.mem_cons_of_mem _ hm)) hs he
          simp only [he, Option.some.injEq, Prod.mk.injEq] at hg
          obtain ⟨rfl, rfl⟩ := hg
          refine ⟨rfl, fun m x => ?_⟩
          rw [afterParent_builtCount, hc]

/-- C17: a namespace derived from `ns` takes the types its handler accepts, and passes
all others on to `ns`, in every later state of the compilation.  (`c` is the namespace
that the rest of the program is given.) -/
theorem C17_derived (look : Lookup T) (rank : Name → Nat) (hac : Acyclic look rank)
    {s s1 s2 : St T} (h : History look St.init s) {ns : NsId} (hns : ns < s.size) {name : Name}
    (hc : s.children ns name = none) {acc : T → Bool} {k : Option NsId → Prog T} {fuel : Nat}
    {r : Res} (hg : exec look fuel s (.prog (.derive ns name acc k)) = some (s1, r))
    (h2 : History look s1 s2) :
    ∃ c fuel' s0, s.size ≤ c ∧ exec look fuel' s0 (.prog (k (some c))) = some (s1, r) ∧
      (∀ t, acc t = true → Nearest s2 t c [] c) ∧
      (∀ t path a, acc t = false → Nearest s2 t ns path a → Nearest s2 t c (c :: path) a) := by
  have w := (history_ext hac h WF.init).wf
  cases fuel with
  | zero => simp [exec] at hg
  | succ fuel =>
    simp only [exec, hns, if_true, hc] at hg
    have hx := Ext.addChild (look := look) (A := fun _ _ => True) (name := name) (acc := acc) w hns
    have hx2 := (exec_ext look rank hac fuel _ _ _ _ hx.wf (by intro _ _ _ h; cases h) hg).1
    have hx3 := history_ext hac h2 hx2.wf
    have hlt : s.size < (s.addChild ns name acc).size := Nat.lt_succ_self _
    have hp : s2.parent s.size = some ns := by
      rw [hx3.parent _ (Nat.lt_of_lt_of_le hlt hx2.size), hx2.parent _ hlt]
      simp [St.addChild]
    have ha : s2.accepts s.size = acc := by
      rw [hx3.accepts _ (Nat.lt_of_lt_of_le hlt hx2.size), hx2.accepts _ hlt]
      simp [St.addChild]
    refine ⟨s.size, fuel, _, Nat.le_refl _, hg, fun t ht => .here (by rw [ha]; exact ht), ?_⟩
    intro t path a ht hn
    exact .up (by rw [ha]; exact ht) hp hn

/-- Three levels: a namespace two levels down asks for `db`, which only the
application accepts. -/
def deep : St Nat := (St.init.addChild 0 "node" (· == 5)).addChild 1 "proc" (· == 0)

theorem deep_history : History demo St.init deep :=
  .step 5 (.prog (.derive 0 "node" (· == 5) fun _ => .derive 1 "proc" (· == 0) fun _ => .fail)) .err
    (by simp) rfl (.refl _)

example : Nearest deep 1 2 [2, 1] 0 :=
  .up rfl rfl (.up rfl rfl (.here rfl))

example : ∃ s1 n, exec demo 10 deep (.get 2 true "db") = some (s1, .ok n) ∧
    builtCount s1 0 "db" = 1 ∧ builtCount s1 2 "db" = 0 ∧ toldCount s1 1 "db" = 1 ∧
    toldCount s1 2 "db" = 1 ∧ (∀ m ∈ [2, 1] ++ [0], deep.seen m "db" = none) :=
  ⟨_, _, rfl, by decide, by decide, by decide, by decide, by decide⟩

/-- C17 fails in part: a node that is first Instantiated in a namespace and then Got
there never becomes an edge. -/
theorem C17_instantiate_first_refuted :
    ∃ s1 s2 n, exec demo 10 deep (.get 2 false "db") = some (s1, .ok n) ∧
      exec demo 10 s1 (.get 2 true "db") = some (s2, .ok n) ∧
      toldCount s2 2 "db" = 0 ∧ toldCount s2 1 "db" = 0 ∧ n.isMeta = false :=
  ⟨_, _, _, rfl, rfl, by decide, by decide, rfl⟩

end Verif.Wiring.Ns
