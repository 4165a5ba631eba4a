import Verif.IR.Spec
/-
C25-C27.
-/
namespace Verif.IR

/-! ### C25 -/

mutual
/-- The paths to all nodes, in document order. -/
private def paths : Node → List (List Nat)
  | .mk _ children => [] :: pathsAll 0 children
private def pathsAll (i : Nat) : List Node → List (List Nat)
  | [] => []
  | c :: cs => (paths c).map (i :: ·) ++ pathsAll (i + 1) cs
end

mutual
private theorem getNodes_paths : ∀ n : Node, (getNodes n).map some = (paths n).map (follow n)
  | .mk name children => by
    simp only [getNodes, paths, List.map_cons, follow]
    rw [getAll_paths children 0 (Node.mk name children) (by simp [Node.children])]
private theorem getAll_paths : ∀ (cs : List Node) (i : Nat) (p : Node),
    (∀ j : Nat, j < cs.length → p.children[i + j]? = cs[j]?) →
    (getAll cs).map some = (pathsAll i cs).map (follow p)
  | [], _, _, _ => by simp [getAll, pathsAll]
  | c :: cs, i, p, h => by
    simp only [getAll, pathsAll, List.map_append, List.map_map]
    rw [getNodes_paths c, getAll_paths cs (i + 1) p (by
      intro j hj
      have := h (j + 1) (by simp; omega)
      rw [show i + 1 + j = i + (j + 1) by omega, this]
      simp)]
    congr 1
    apply List.map_congr_left
    intro q _
    have := h 0 (by simp)
    simp at this
    simp [follow, this]
end

mutual
private theorem mem_paths : ∀ (n : Node) (q : List Nat), q ∈ paths n ↔ ∃ m, follow n q = some m
  | .mk name children, q => by
    simp only [paths, List.mem_cons]
    cases q with
    | nil => simp [follow]
    | cons i q =>
      rw [mem_pathsAll children 0 (i :: q)]
      simp only [reduceCtorEq, false_or, follow, Node.children]
      constructor
      · rintro ⟨j, c, r, h1, h2, m, h3⟩
        have h1 : i = j ∧ q = r := by simpa using h1
        rw [h1.1, h1.2, h2]; exact ⟨m, h3⟩
      · rintro ⟨m, hm⟩
        cases hc : children[i]? with
        | none => simp [hc] at hm
        | some c => exact ⟨i, c, q, by simp, hc, m, by simpa [hc] using hm⟩
private theorem mem_pathsAll : ∀ (cs : List Node) (i : Nat) (q : List Nat),
    q ∈ pathsAll i cs ↔ ∃ (j : Nat) (c : Node) (r : List Nat), q = (i + j) :: r ∧ cs[j]? = some c ∧ ∃ m, follow c r = some m
  | [], i, q => by simp [pathsAll]
  | c :: cs, i, q => by
    simp only [pathsAll, List.mem_append, List.mem_map]
    rw [mem_pathsAll cs (i + 1) q]
    constructor
    · rintro (⟨r, hr, rfl⟩ | ⟨j, d, r, rfl, h2, h3⟩)
      · exact ⟨0, c, r, by simp, by simp, (mem_paths c r).1 hr⟩
      · exact ⟨j + 1, d, r, by simp; omega, by simpa using h2, h3⟩
    · rintro ⟨j, d, r, rfl, h2, h3⟩
      cases j with
      | zero =>
        simp at h2; subst h2
        exact .inl ⟨r, (mem_paths c r).2 h3, by simp⟩
      | succ j => exact .inr ⟨j, d, r, by simp; omega, by simpa using h2, h3⟩
end

mutual
private theorem sorted_paths : ∀ n : Node, (paths n).Pairwise (· < ·)
  | .mk name children => by
    simp only [paths, List.pairwise_cons]
    refine ⟨?_, sorted_pathsAll children 0⟩
    intro q hq
    obtain ⟨j, c, r, rfl, _⟩ := (mem_pathsAll children 0 q).1 hq
    exact List.nil_lt_cons _ _
private theorem sorted_pathsAll : ∀ (cs : List Node) (i : Nat), (pathsAll i cs).Pairwise (· < ·)
  | [], i => by simp [pathsAll]
  | c :: cs, i => by
    simp only [pathsAll]
    refine List.pairwise_append.2 ⟨?_, sorted_pathsAll cs (i + 1), ?_⟩
    · rw [List.pairwise_map]
      exact (sorted_paths c).imp (fun h => List.cons_lt_cons_iff.2 (.inr ⟨rfl, h⟩))
    · intro a ha b hb
      obtain ⟨r, _, rfl⟩ := List.mem_map.1 ha
      obtain ⟨j, _, r', rfl, _⟩ := (mem_pathsAll cs (i + 1) b).1 hb
      exact List.cons_lt_cons_iff.2 (.inl (by omega))
end

/-- C25: `GetAllIRNodes` goes through the tree along a list of paths that contains the path of every node
exactly once, in document order: strictly increasing in the lexicographic order, where a path comes before
its extensions, so that parents come before their children and earlier children, with everything below
them, before later ones. -/
theorem C25_complete_traversal (n : Node) :
    ∃ ps : List (List Nat),
      ps.Pairwise (· < ·) ∧
      (∀ p, p ∈ ps ↔ ∃ m, follow n p = some m) ∧
      (getNodes n).map some = ps.map (follow n) :=
  ⟨paths n, sorted_paths n, mem_paths n, getNodes_paths n⟩

/-- C25, stated without paths: a node is listed iff it is in the tree. -/
theorem C25_lists_exactly_the_tree (n m : Node) : m ∈ getNodes n ↔ ∃ p, follow n p = some m := by
  have hmap := getNodes_paths n
  constructor
  · intro h
    have : some m ∈ (paths n).map (follow n) := hmap ▸ List.mem_map_of_mem h
    obtain ⟨p, _, hp⟩ := List.mem_map.1 this
    exact ⟨p, hp⟩
  · rintro ⟨p, hp⟩
    have : some m ∈ (getNodes n).map some := by
      rw [hmap]; exact List.mem_map.2 ⟨p, (mem_paths n p).2 ⟨m, hp⟩, hp⟩
    simpa using this

private theorem foldl_filter {α : Type} (f : α → Bool) (ns : List α) : ∀ acc,
    ns.foldl (fun ts n => if f n then ts ++ [n] else ts) acc = acc ++ ns.filter f := by
  induction ns with
  | nil => simp
  | cons n ns ih =>
    intro acc
    simp only [List.foldl_cons, ih]
    by_cases h : f n <;> simp [h]

/-- C25: filtering keeps exactly the nodes of the type, in order and with repetitions; removal keeps
exactly the others; splitting does both. -/
theorem C25_filter_exact {α : Type} (isT : α → Bool) (ns : List α) :
    filterNodes isT ns = ns.filter isT ∧ removeNodes isT ns = ns.filter (fun n => !isT n) ∧
    splitNodes isT ns = (ns.filter (fun n => !isT n), ns.filter isT) := by
  refine ⟨(foldl_filter isT ns []).trans (by simp), (foldl_filter (fun n => !isT n) ns []).trans (by simp), ?_⟩
  have : ∀ r m, ns.foldl (fun (x : List α × List α) n => if isT n then (x.1, x.2 ++ [n]) else (x.1 ++ [n], x.2)) (r, m) =
      (r ++ ns.filter (fun n => !isT n), m ++ ns.filter isT) := by
    induction ns with
    | nil => simp
    | cons n ns ih =>
      intro r m
      simp only [List.foldl_cons]
      by_cases h : isT n <;> simp [h, ih]
  exact this [] []

/-! ### C27 -/

private theorem visits_spec (ns : List String) : ∀ t : Tracker, ∀ (i : Nat) (n : String), ns[i]? = some n →
    (visits t ns)[i]? = some (decide (n ∈ t ∨ n ∈ ns.take i)) := by
  induction ns with
  | nil => intro t i n h; simp at h
  | cons a ns ih =>
    intro t i n h
    simp only [visits]
    cases i with
    | zero => simp at h; subst h; simp [visited, List.contains_eq_mem]
    | succ i =>
      simp only [List.getElem?_cons_succ, List.take_succ_cons, List.mem_cons] at h ⊢
      rw [ih _ i n h]
      congr 1
      apply decide_eq_decide.2
      by_cases ha : a ∈ t
      · simp only [visited, List.contains_eq_mem, ha, decide_true, if_true]
        constructor
        · rintro (h | h)
          · exact .inl h
          · exact .inr (.inr h)
        · rintro (h | rfl | h)
          · exact .inl h
          · exact .inl ha
          · exact .inr h
      · simp [visited, List.contains_eq_mem, ha, or_assoc, or_left_comm]

/-- C27: in any sequence of calls on a fresh tracker, a call returns true iff the same name was asked
before. -/
theorem C27_fires_once (names : List String) (i : Nat) (name : String) (h : names[i]? = some name) :
    (visits [] names)[i]? = some (decide (name ∈ names.take i)) := by
  simpa using visits_spec names [] i name h

/-! ### C26 -/

private theorem perm_split (f : Top → Bool) (l : List Top) :
    l.Perm (l.filter f ++ l.filter (fun n => !f n)) := by
  induction l with
  | nil => simp
  | cons a l ih =>
    by_cases h : f a
    · simp [h, ih]
    · simp only [h, List.filter_cons, Bool.not_false, if_true]
      simp only [Bool.false_eq_true, if_false]
      exact (ih.cons a).trans List.perm_middle.symm

private theorem compat_spec (b : Builder) (nodes : List Top) :
    (∀ c ∈ (buildCompatible b nodes).1, c.proper) ∧
    (∀ r, (buildCompatible b nodes).2 = some r →
      nodes.Perm ((buildCompatible b nodes).1.flatMap Call.nodes ++ r) ∧
      (∀ n ∈ r, b.accepts n.type = false) ∧ r.Sublist nodes) := by
  unfold buildCompatible
  have hp := perm_split (fun n => b.accepts n.type) nodes
  by_cases h : (nodes.filter fun n => b.accepts n.type).isEmpty
  · simp only [h, if_true]
    refine ⟨by simp, ?_⟩
    intro r hr; simp at hr; subst hr
    rw [List.isEmpty_iff.1 h] at hp
    refine ⟨by simpa using hp, by simp, List.filter_sublist⟩
  · simp only [h, Bool.false_eq_true, if_false]
    refine ⟨?_, ?_⟩
    · intro c hc
      simp at hc; subst hc
      refine ⟨by intro h2; exact h (by simp [h2]), ?_⟩
      intro n hn; simpa using (List.mem_filter.1 hn).2
    · intro r hr
      split at hr
      · simp at hr
      · simp at hr; subst hr
        exact ⟨by simpa [Call.nodes] using hp, by simp, List.filter_sublist⟩

private theorem namespaces_spec (bs : List Builder) : ∀ nodes : List Top,
    (∀ c ∈ (buildNamespaces bs nodes).1, c.proper ∧ ∃ b ns, c = .namespaceBuild b ns ∧ b ∈ bs) ∧
    (∀ r, (buildNamespaces bs nodes).2 = some r →
      nodes.Perm ((buildNamespaces bs nodes).1.flatMap Call.nodes ++ r) ∧
      (∀ n ∈ r, ∀ b ∈ bs, b.accepts n.type = false) ∧ r.Sublist nodes) := by
  induction bs with
  | nil => intro nodes; simp [buildNamespaces]
  | cons b bs ih =>
    intro nodes
    have hc := compat_spec b nodes
    have hform : ∀ c ∈ (buildCompatible b nodes).1, ∃ ns, c = .namespaceBuild b ns := by
      intro c hc
      unfold buildCompatible at hc
      simp only at hc
      split at hc
      · simp at hc
      · simp at hc; exact ⟨_, hc⟩
    simp only [buildNamespaces]
    match hm : buildCompatible b nodes with
    | (calls, none) =>
      rw [hm] at hc hform
      refine ⟨?_, by simp⟩
      intro c hcm
      obtain ⟨ns, rfl⟩ := hform c hcm
      exact ⟨hc.1 _ hcm, b, ns, rfl, by simp⟩
    | (calls, some remaining) =>
      rw [hm] at hc hform
      have hi := ih remaining
      simp only at hc hi hform ⊢
      obtain ⟨hc1, hc2⟩ := hc
      obtain ⟨p1, p2, p3⟩ := hc2 remaining rfl
      refine ⟨?_, ?_⟩
      · intro c hcm
        rcases List.mem_append.1 hcm with h | h
        · obtain ⟨ns, rfl⟩ := hform c h
          exact ⟨hc1 _ h, b, ns, rfl, by simp⟩
        · obtain ⟨h1, b', ns, h2, h3⟩ := hi.1 c h
          exact ⟨h1, b', ns, h2, by simp [h3]⟩
      · intro r hr
        obtain ⟨q1, q2, q3⟩ := hi.2 r hr
        refine ⟨?_, ?_, q3.trans p3⟩
        · rw [List.flatMap_append, List.append_assoc]
          exact p1.trans (List.Perm.append_left _ q1)
        · intro n hn b' hb'
          rcases List.mem_cons.1 hb' with rfl | hb'
          · exact p2 n (q3.subset hn)
          · exact q2 n hn b' hb'

private theorem generators_spec (dirFails genFails : Top → Bool) (nodes : List Top) :
    (∀ c ∈ (buildGenerators dirFails genFails nodes).1, c.proper ∧ ∃ n ∈ nodes, c = .generate n) ∧
    (∀ r, (buildGenerators dirFails genFails nodes).2 = some r →
      nodes.Perm ((buildGenerators dirFails genFails nodes).1.flatMap Call.nodes ++ r) ∧
      (∀ n ∈ r, n.isGenerator = false) ∧
      (∀ n ∈ nodes, n.isGenerator = true → dirFails n = false ∧ genFails n = false)) := by
  induction nodes with
  | nil => simp [buildGenerators]
  | cons n ns ih =>
    simp only [buildGenerators]
    by_cases hg : n.isGenerator = true
    · rw [if_pos hg]
      by_cases hd : dirFails n = true
      · rw [if_pos hd]; exact ⟨by simp, by simp⟩
      · rw [if_neg hd]
        by_cases he : genFails n = true
        · rw [if_pos he]
          refine ⟨?_, by simp⟩
          intro c hc; simp at hc; subst hc
          exact ⟨hg, n, by simp, rfl⟩
        · rw [if_neg he]
          refine ⟨?_, ?_⟩
          · intro c hc
            rcases List.mem_cons.1 hc with rfl | hc
            · exact ⟨hg, n, by simp, rfl⟩
            · obtain ⟨h1, m, h2, h3⟩ := ih.1 c hc
              exact ⟨h1, m, by simp [h2], h3⟩
          · intro r hr
            obtain ⟨h1, h2, h3⟩ := ih.2 r hr
            refine ⟨by simpa [Call.nodes] using h1, h2, ?_⟩
            intro m hm hmg
            rcases List.mem_cons.1 hm with rfl | hm
            · exact ⟨by simpa using hd, by simpa using he⟩
            · exact h3 m hm hmg
    · rw [if_neg hg]
      refine ⟨?_, ?_⟩
      · intro c hc
        obtain ⟨h1, m, h2, h3⟩ := ih.1 c hc
        exact ⟨h1, m, by simp [h2], h3⟩
      · intro r hr
        obtain ⟨r', hr', rfl⟩ := Option.map_eq_some_iff.1 hr
        obtain ⟨h1, h2, h3⟩ := ih.2 r' hr'
        refine ⟨(h1.cons n).trans List.perm_middle.symm, ?_, ?_⟩
        · intro m hm
          rcases List.mem_cons.1 hm with rfl | hm
          · simpa using hg
          · exact h2 m hm
        · intro m hm hmg
          rcases List.mem_cons.1 hm with rfl | hm
          · exact absurd hmg hg
          · exact h3 m hm hmg

/-- C26: for every order in which Go iterates over the registered builders, if `BuildAll` returns no error
then the nodes handed over in all calls together are exactly the application's nodes, each once; every
call is proper (a builder gets only nodes it accepts, only artifact generators generate themselves); and a
node generates itself only if no registered builder accepts it. -/
theorem C26_every_node_built_once (builders : List Builder) (dirFails genFails : Top → Bool) (dirExists : Bool)
    (nodes : List Top) (calls : List Call)
    (h : buildAll builders dirFails genFails dirExists nodes = (calls, true)) :
    (calls.flatMap Call.nodes).Perm nodes ∧
    (∀ c ∈ calls, c.proper) ∧
    (∀ n, Call.generate n ∈ calls → ∀ b ∈ builders, b.accepts n.type = false) ∧
    (∀ b ns, Call.namespaceBuild b ns ∈ calls → b ∈ builders) := by
  unfold buildAll at h
  cases dirExists with
  | true => simp at h
  | false =>
    simp only [Bool.false_eq_true, if_false] at h
    have hn := namespaces_spec builders nodes
    match hm : buildNamespaces builders nodes with
    | (c1, none) => rw [hm] at h; simp at h
    | (c1, some rem) =>
      rw [hm] at h hn
      simp only at h hn
      have hg := generators_spec dirFails genFails rem
      match hm2 : buildGenerators dirFails genFails rem with
      | (c2, none) => rw [hm2] at h; simp at h
      | (c2, some rest) =>
        rw [hm2] at h hg
        simp only [Prod.mk.injEq] at h hg
        obtain ⟨rfl, hr⟩ := h
        obtain ⟨n1, n2, n3⟩ := hn.2 rem rfl
        obtain ⟨g1, g2, g3⟩ := hg.2 rest rfl
        have hrest : rest = [] := List.isEmpty_iff.1 hr
        subst hrest
        refine ⟨?_, ?_, ?_, ?_⟩
        · rw [List.flatMap_append]
          simp only [List.append_nil] at g1
          exact (List.Perm.append_left _ g1.symm).trans n1.symm
        · intro c hc
          rcases List.mem_append.1 hc with hc | hc
          · exact (hn.1 c hc).1
          · exact (hg.1 c hc).1
        · intro n hc b hb
          rcases List.mem_append.1 hc with hc | hc
          · obtain ⟨_, b', ns, h2, _⟩ := hn.1 _ hc; simp at h2
          · obtain ⟨_, m, h2, h3⟩ := hg.1 _ hc
            cases h3
            exact n2 n h2 b hb
        · intro b ns hc
          rcases List.mem_append.1 hc with hc | hc
          · obtain ⟨_, b', ns', h2, h3⟩ := hn.1 _ hc
            cases h2; exact h3
          · obtain ⟨_, m, h2, h3⟩ := hg.1 _ hc; simp at h3

/-- C26: a node that nobody can build makes `BuildAll` return an error, and so does a failing step. -/
theorem C26_unbuildable_node_fails (builders : List Builder) (dirFails genFails : Top → Bool) (dirExists : Bool)
    (nodes : List Top) (n : Top) (hn : n ∈ nodes) (h1 : ∀ b ∈ builders, b.accepts n.type = false)
    (h2 : n.isGenerator = false ∨ dirFails n = true ∨ genFails n = true) :
    (buildAll builders dirFails genFails dirExists nodes).2 = false := by
  rw [Bool.eq_false_iff]
  intro hh
  obtain ⟨calls, hc⟩ : ∃ calls, buildAll builders dirFails genFails dirExists nodes = (calls, true) :=
    ⟨_, Prod.ext rfl hh⟩
  obtain ⟨p, q, r, _⟩ := C26_every_node_built_once builders dirFails genFails dirExists nodes calls hc
  have hmem : n ∈ calls.flatMap Call.nodes := p.mem_iff.2 hn
  obtain ⟨c, hcm, hnc⟩ := List.mem_flatMap.1 hmem
  have hgen : n.isGenerator = true ∧ Call.generate n ∈ calls := by
    cases c with
    | namespaceBuild b ns =>
      have := (q _ hcm).2 n hnc
      rw [h1 b (by
        have := C26_every_node_built_once builders dirFails genFails dirExists nodes calls hc
        exact this.2.2.2 b ns hcm)] at this
      simp at this
    | generate m =>
      simp [Call.nodes] at hnc; subst hnc
      exact ⟨q _ hcm, hcm⟩
  rcases h2 with h2 | h2
  · simp [hgen.1] at h2
  · -- the generator phase succeeded, so no step of it failed
    unfold buildAll at hc
    cases dirExists with
    | true => simp at hc
    | false =>
      simp only [Bool.false_eq_true, if_false] at hc
      have hns := namespaces_spec builders nodes
      match hm : buildNamespaces builders nodes with
      | (c1, none) => rw [hm] at hc; simp at hc
      | (c1, some rem) =>
        rw [hm] at hc hns
        simp only at hc hns
        have hg := generators_spec dirFails genFails rem
        match hm2 : buildGenerators dirFails genFails rem with
        | (c2, none) => rw [hm2] at hc; simp at hc
        | (c2, some rest) =>
          rw [hm2] at hc hg
          simp only [Prod.mk.injEq] at hc hg
          have hmem2 : n ∈ rem := by
            have h3 := hgen.2
            rw [← hc.1] at h3
            rcases List.mem_append.1 h3 with h3 | h3
            · obtain ⟨_, b', ns, h4, _⟩ := hns.1 _ h3; simp at h4
            · obtain ⟨_, m, h4, h5⟩ := hg.1 _ h3; cases h5; exact h4
          have := (hg.2 rest rfl).2.2 n hmem2 hgen.1
          rcases h2 with h2 | h2 <;> simp [h2] at this

/-! ### Concrete cases -/

example : (getNodes (.mk "app" [.mk "a" [.mk "b" []], .mk "c" []])).map Node.name = ["app", "a", "b", "c"] := by
  simp [getNodes, getAll, Node.name]
example : visits [] ["x", "y", "x", "x"] = [false, false, true, true] := by decide
example : (buildAll [⟨"proc", (· == 1), fun _ => false⟩] (fun _ => false) (fun _ => false) false
    [⟨0, 1, false⟩, ⟨1, 2, true⟩, ⟨2, 1, true⟩]).2 = true := by decide
example : (buildAll [⟨"proc", (· == 1), fun _ => false⟩] (fun _ => false) (fun _ => false) false
    [⟨0, 3, false⟩]).2 = false := by decide

end Verif.IR
