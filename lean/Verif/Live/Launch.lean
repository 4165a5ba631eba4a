import Verif.Live.Defs
/-
The start of a process builds the objects that its nodes should be.
-/
namespace Verif.Live
open Verif.Wiring (Name)
open Verif.Compile (Tree bindName dialName)

section mono
variable {runnable : Name → Bool} {defs : Name → Option RtNs.Src} {fn : Nat → Option Build}

theorem exec_mono1 : ∀ (f : Nat) (r : Run) (t : Task) (x : Run × Option Obj),
    exec runnable defs fn f r t = some x → exec runnable defs fn (f + 1) r t = some x := by
  intro f
  induction f with
  | zero => intro r t x h; simp [exec] at h
  | succ f ih =>
    intro r t x h
    cases t with
    | get n =>
      unfold exec at h ⊢
      cases hb : r.built n with
      | some o => simpa [hb] using h
      | none =>
        simp only [hb] at h ⊢
        cases hd : defs n with
        | none => simpa [hd] using h
        | some d =>
          simp only [hd] at h ⊢
          cases d with
          | unset m => exact h
          | value v => exact h
          | defined i =>
            simp only at h ⊢
            cases hf : fn i with
            | none => simpa [hf] using h
            | some b =>
              simp only [hf] at h ⊢
              cases b with
              | same m =>
                simp only at h ⊢
                cases he : exec runnable defs fn f r (.get m) with
                | none => simp [he] at h
                | some y => rw [ih _ _ _ he]; rw [he] at h; exact h
              | call args =>
                simp only at h ⊢
                cases he : exec runnable defs fn f r (.call n args []) with
                | none => simp [he] at h
                | some y => rw [ih _ _ _ he]; rw [he] at h; exact h
    | call node todo done =>
      cases todo with
      | nil => simpa [exec] using h
      | cons a todo =>
        cases a with
        | lit v =>
          rw [exec] at h ⊢
          exact ih _ _ _ h
        | node m =>
          rw [exec] at h ⊢
          cases he : exec runnable defs fn f r (.get m) with
          | none => simp [he] at h
          | some y =>
            rw [he] at h
            rw [ih _ _ _ he]
            obtain ⟨r', o⟩ := y
            cases o with
            | none => exact h
            | some o => exact ih _ _ _ h

theorem exec_mono {f f' : Nat} {r : Run} {t : Task} {x : Run × Option Obj} (hf : f ≤ f')
    (h : exec runnable defs fn f r t = some x) : exec runnable defs fn f' r t = some x := by
  induction hf with
  | refl => exact h
  | step _ ih => exact exec_mono1 _ _ _ _ ih

end mono

theorem objs_eq (client : Name → Bool) (val : Name → String) : ∀ l, objs client val l = l.map (obj client val)
  | [] => by simp [objs]
  | t :: l => by simp [objs, objs_eq client val l]

/-- The state of a namespace while it is built. -/
structure Inv (p : Proc) (client runnable : Name → Bool) (val : Name → String) (r : Run) : Prop where
  right : ∀ n o, r.built n = some o → (∃ t ∈ p.nodes, n = t.name ∧ o = obj client val t) ∨ ∃ e ∈ p.edges, n = e.name ∧ o = .str (val n)
  made : ∀ t ∈ p.nodes, Constructed client t → madeCount t.name r.log = if (r.built t.name).isSome then 1 else 0
  calls : ∀ node args, .made node args ∈ r.log → ∃ t ∈ p.nodes, Constructed client t ∧ t.name = node ∧ obj client val t = .made node args
  ran : ∀ n, runCount n r.log = match r.built n with
    | some o => if o.runs runnable then 1 else 0
    | none => 0
  runs : ∀ n o, .run n o ∈ r.log → r.built n = some o

/-- What happens to a namespace: nothing is replaced, and nodes larger than `k` are not touched. -/
structure Grows (p : Proc) (k : Nat) (r r' : Run) : Prop where
  keep : ∀ n o, r.built n = some o → r'.built n = some o
  larger : ∀ t ∈ p.nodes, k < sizeOf t → r'.built t.name = r.built t.name

theorem Grows.refl {p : Proc} {k : Nat} (r : Run) : Grows p k r r := ⟨fun _ _ h => h, fun _ _ _ => rfl⟩

theorem Grows.trans {p : Proc} {k : Nat} {r1 r2 r3 : Run} (h : Grows p k r1 r2) (h' : Grows p k r2 r3) : Grows p k r1 r3 :=
  ⟨fun n o e => h'.keep n o (h.keep n o e), fun t ht hk => (h'.larger t ht hk).trans (h.larger t ht hk)⟩

theorem Grows.up {p : Proc} {k k' : Nat} (hk : k ≤ k') {r r' : Run} (h : Grows p k r r') : Grows p k' r r' :=
  ⟨h.keep, fun t ht hl => h.larger t ht (by omega)⟩

theorem part_size {t u : Tree} (h : u ∈ parts t) (hu : ∀ n, u ≠ .bind n) (hu' : ∀ n, u ≠ .dial n) : sizeOf u < sizeOf t := by
  cases t <;> simp [parts] at h
  case handler s args =>
    have := List.sizeOf_lt_of_mem h.1
    simp only [Tree.handler.sizeOf_spec]
    omega
  case wrap n t => subst h; simp only [Tree.wrap.sizeOf_spec]; omega
  case grpcClient n a => exact absurd h (hu' _)
  case grpcServer n t a =>
    rcases h with rfl | h
    · simp only [Tree.grpcServer.sizeOf_spec]; omega
    · exact absurd h (hu _)

theorem finish_inv_edge {p : Proc} {client runnable : Name → Bool} {val : Name → String} (c : p.Closed) {r : Run}
    (h : Inv p client runnable val r) {e : Tree} (he : e ∈ p.edges) (hb : r.built e.name = none) :
    Inv p client runnable val (r.finish runnable e.name (.str (val e.name))) := by
  have hl : (r.finish runnable e.name (.str (val e.name))).log = r.log := by simp [Run.finish, Obj.runs]
  have hne : ∀ t ∈ p.nodes, (r.finish runnable e.name (.str (val e.name))).built t.name = r.built t.name := by
    intro t ht
    simp [Run.finish, c.disjoint ht he]
  refine ⟨?_, ?_, ?_, ?_, ?_⟩
  · intro n o hn
    simp only [Run.finish] at hn
    split at hn
    · rename_i hx; subst hx; cases hn; exact .inr ⟨e, he, rfl, rfl⟩
    · exact h.right n o hn
  · intro t ht hc
    rw [hl, hne t ht]
    exact h.made t ht hc
  · intro node args hm
    rw [hl] at hm
    exact h.calls node args hm
  · intro n
    rw [hl, h.ran n]
    by_cases hx : n = e.name
    · subst hx; rw [hb]; simp [Run.finish, Obj.runs]
    · simp [Run.finish, hx]
  · intro n o hm
    rw [hl] at hm
    have := h.runs n o hm
    have hx : n ≠ e.name := fun hx => by rw [hx, hb] at this; cases this
    simp [Run.finish, hx, this]

theorem madeCount_snoc (n : Name) (l : List Event) (e : Event) :
    madeCount n (l ++ [e]) = madeCount n l + madeCount n [e] := by simp [madeCount, List.countP_append]

theorem runCount_snoc (n : Name) (l : List Event) (e : Event) :
    runCount n (l ++ [e]) = runCount n l + runCount n [e] := by simp [runCount, List.countP_append]

/-- A node is finished: first its constructor was called (if it has one), and then Run. -/
theorem finish_inv_node {p : Proc} {client runnable : Name → Bool} {val : Name → String} (c : p.Closed) {r r' : Run}
    (h : Inv p client runnable val r) {t : Tree} (ht : t ∈ p.nodes) (hb : r.built t.name = none) (hbu : r'.built = r.built)
    (hl : (¬ Constructed client t ∧ r'.log = r.log) ∨
      (Constructed client t ∧ ∃ args, obj client val t = .made t.name args ∧ r'.log = r.log ++ [.made t.name args])) :
    Inv p client runnable val (r'.finish runnable t.name (obj client val t)) := by
  have hmid : (∀ u ∈ p.nodes, Constructed client u → madeCount u.name r'.log = madeCount u.name r.log + if u.name = t.name then 1 else 0) ∧
      (∀ n, runCount n r'.log = runCount n r.log) ∧ (∀ n o, .run n o ∈ r'.log → .run n o ∈ r.log) ∧
      ∀ node args, .made node args ∈ r'.log →
        ∃ t ∈ p.nodes, Constructed client t ∧ t.name = node ∧ obj client val t = .made node args := by
    rcases hl with ⟨hc, e⟩ | ⟨hc, args, ho, e⟩
    · rw [e]
      refine ⟨fun u hu hcu => ?_, fun _ => rfl, fun _ _ h => h, h.calls⟩
      rw [if_neg (fun hx => hc (c.inj hu ht hx ▸ hcu))]
      rfl
    · rw [e]
      refine ⟨fun u hu hcu => ?_, fun n => ?_, fun n o hm => ?_, fun node args' hm => ?_⟩
      · rw [madeCount_snoc]
        congr 1
        by_cases hx : u = t
        · subst hx; simp [madeCount]
        · have : t.name ≠ u.name := fun hn => hx (c.inj hu ht hn.symm)
          simp [madeCount, this, Ne.symm this]
      · rw [runCount_snoc]; simp [runCount]
      · simpa using hm
      · rw [List.mem_append] at hm
        rcases hm with hm | hm
        · exact h.calls _ _ hm
        · simp only [List.mem_singleton, Event.made.injEq] at hm
          obtain ⟨rfl, rfl⟩ := hm
          exact ⟨t, ht, hc, rfl, ho⟩
  obtain ⟨h1, h2, h3, h4⟩ := hmid
  generalize hoo : obj client val t = o at *
  have hmade : ∀ n, madeCount n (r'.finish runnable t.name o).log = madeCount n r'.log := by
    intro n
    simp only [Run.finish]
    split
    · rw [madeCount_snoc]; simp [madeCount]
    · rfl
  have hmem : ∀ node args, .made node args ∈ (r'.finish runnable t.name o).log → .made node args ∈ r'.log := by
    intro node args hm
    simp only [Run.finish] at hm
    split at hm
    · simpa using hm
    · exact hm
  have hbt : ∀ n, (r'.finish runnable t.name o).built n = if n = t.name then some o else r.built n := by
    intro n; simp only [Run.finish, hbu]
  refine ⟨?_, ?_, ?_, ?_, ?_⟩
  · intro n q hn
    rw [hbt] at hn
    split at hn
    · rename_i hx; cases hn; exact .inl ⟨t, ht, hx, hoo.symm⟩
    · exact h.right n q hn
  · intro u hu hc
    rw [hmade, h1 u hu hc, h.made u hu hc, hbt]
    by_cases hx : u = t
    · subst hx; simp [hb]
    · have : u.name ≠ t.name := fun hn => hx (c.inj hu ht hn)
      simp [this]
  · intro node args hm
    exact h4 node args (hmem node args hm)
  · intro n
    rw [hbt]
    by_cases hx : n = t.name
    · subst hx
      have h0 : runCount t.name r'.log = 0 := by rw [h2, h.ran, hb]
      simp only [if_true, Run.finish]
      split
      · rw [runCount_snoc, h0]; simp [runCount]
      · exact h0
    · rw [if_neg hx, ← h.ran n, ← h2 n]
      simp only [Run.finish]
      split
      · rw [runCount_snoc]
        have : t.name ≠ n := fun e => hx e.symm
        simp [runCount, this]
      · rfl
  · intro n q hm
    rw [hbt]
    simp only [Run.finish] at hm
    have hold : .run n q ∈ r'.log → n ≠ t.name ∧ r.built n = some q := by
      intro hm
      have := h.runs n q (h3 n q hm)
      exact ⟨(fun hx => by rw [hx, hb] at this; cases this), this⟩
    split at hm
    · rw [List.mem_append] at hm
      rcases hm with hm | hm
      · obtain ⟨h5, h6⟩ := hold hm
        rw [if_neg h5]; exact h6
      · simp only [List.mem_singleton, Event.run.injEq] at hm
        obtain ⟨rfl, rfl⟩ := hm
        simp
    · obtain ⟨h5, h6⟩ := hold hm
      rw [if_neg h5]; exact h6

section launch
variable {p : Proc} {client runnable : Name → Bool} {w : RtNs.World} {defs : Name → Option RtNs.Src}

set_option quotPrecheck false
local notation "X" => exec runnable defs (fun i => p.nodes[i]?.bind (build client))
local notation "I" => Inv p client runnable (given w)

theorem get_edge (c : p.Closed) (F : Finds p w defs) {e : Tree} (he : e ∈ p.edges) {r : Run} (h : I r) :
    ∃ r', X 1 r (.get e.name) = some (r', some (.str (given w e.name))) ∧ I r' ∧ ∀ k, Grows p k r r' := by
  cases hb : r.built e.name with
  | some o =>
    refine ⟨r, ?_, h, fun k => .refl r⟩
    rcases h.right _ _ hb with ⟨t, ht, h1, _⟩ | ⟨e', _, _, h2⟩
    · exact absurd h1.symm (c.disjoint ht he)
    · subst h2; simp [exec, hb]
  | none =>
    refine ⟨r.finish runnable e.name (.str (given w e.name)), ?_, finish_inv_edge c h he hb, fun k => ⟨?_, ?_⟩⟩
    · simp [exec, hb, F.edge e he]
    · intro n o hn
      have : n ≠ e.name := fun hx => by rw [hx, hb] at hn; cases hn
      simp [Run.finish, this, hn]
    · intro t ht _
      simp [Run.finish, c.disjoint ht he]

/-- What Get of a node of size at most `k` should do. -/
def Gets (p : Proc) (client runnable : Name → Bool) (w : RtNs.World) (defs : Name → Option RtNs.Src) (t : Tree) (k : Nat) : Prop :=
  ∀ r, Inv p client runnable (given w) r → ∃ fuel r',
    exec runnable defs (fun i => p.nodes[i]?.bind (build client)) fuel r (.get t.name) = some (r', some (obj client (given w) t)) ∧
    Inv p client runnable (given w) r' ∧ Grows p k r r' ∧ r'.built t.name = some (obj client (given w) t)

/-- The arguments of a constructor call are gotten. -/
theorem call_ok {k : Nat} (node : Name) : ∀ (todo : List Tree) (done : List Obj) (r : Run),
    (∀ u ∈ todo, (∃ v, u = .value v) ∨ (argOf u = .node u.name ∧ ∀ r, I r → ∃ fuel r', X fuel r (.get u.name) =
      some (r', some (obj client (given w) u)) ∧ I r' ∧ Grows p k r r')) → I r →
    ∃ fuel r', X fuel r (.call node (todo.map argOf) done) =
        some ({ r' with log := r'.log ++ [.made node (done ++ objs client (given w) todo)] },
          some (.made node (done ++ objs client (given w) todo))) ∧ I r' ∧ Grows p k r r'
  | [], done, r, _, h => ⟨1, r, by simp [exec, objs], h, .refl r⟩
  | u :: todo, done, r, hu, h => by
    rcases hu u (by simp) with ⟨v, rfl⟩ | ⟨ha, hg⟩
    · obtain ⟨fuel, r', h1, h2, h3⟩ := call_ok node todo (done ++ [.str v]) r (fun u hm => hu u (by simp [hm])) h
      refine ⟨fuel + 1, r', ?_, h2, h3⟩
      simp only [List.map_cons, argOf, exec, h1, objs, obj, List.append_assoc, List.singleton_append]
    · obtain ⟨f1, r1, g1, g2, g3⟩ := hg r h
      obtain ⟨f2, r', h1, h2, h3⟩ := call_ok node todo (done ++ [obj client (given w) u]) r1 (fun u hm => hu u (by simp [hm])) g2
      refine ⟨max f1 f2 + 1, r', ?_, h2, g3.trans h3⟩
      simp only [List.map_cons, ha, exec]
      rw [exec_mono (Nat.le_max_left f1 f2) g1]
      simp only
      rw [exec_mono (Nat.le_max_right f1 f2) h1]
      simp [objs]

theorem get_part (c : p.Closed) (F : Finds p w defs) {t : Tree} (ht : t ∈ p.nodes)
    (ih : ∀ u ∈ p.nodes, sizeOf u < sizeOf t → Gets p client runnable w defs u (sizeOf u)) {u : Tree} (hu : u ∈ parts t) :
    ∀ r, I r → ∃ fuel r', X fuel r (.get u.name) = some (r', some (obj client (given w) u)) ∧ I r' ∧ Grows p (sizeOf t - 1) r r' := by
  intro r h
  have hno : u ∈ p.nodes → (∀ n, u ≠ .bind n) ∧ ∀ n, u ≠ .dial n := by
    intro hm
    rcases c.code u hm with ⟨s, as, rfl⟩ | ⟨n, v, rfl⟩ | ⟨n, a, rfl⟩ | ⟨n, v, a, rfl⟩ <;> exact ⟨fun _ => nofun, fun _ => nofun⟩
  rcases c.parts t ht u hu with hm | hm
  · have hs := part_size hu (hno hm).1 (hno hm).2
    obtain ⟨f, r', h1, h2, h3, _⟩ := ih u hm hs r h
    exact ⟨f, r', h1, h2, h3.up (by omega)⟩
  · obtain ⟨r', h1, h2, h3⟩ := get_edge c F hm h
    refine ⟨1, r', ?_, h2, h3 _⟩
    rw [h1]
    rcases c.addrs u hm with ⟨n, rfl⟩ | ⟨n, rfl⟩ <;> rfl

theorem size_pos (t : Tree) : 0 < sizeOf t := by cases t <;> simp <;> omega

theorem gets_node (c : p.Closed) (F : Finds p w defs) : ∀ (N : Nat) (t : Tree), sizeOf t < N → t ∈ p.nodes →
    Gets p client runnable w defs t (sizeOf t)
  | 0, _, h, _ => absurd h (Nat.not_lt_zero _)
  | N + 1, t, hN, ht => by
    have ih : ∀ u ∈ p.nodes, sizeOf u < sizeOf t → Gets p client runnable w defs u (sizeOf u) :=
      fun u hu hs => gets_node c F N u (by omega) hu
    intro r h
    cases hb : r.built t.name with
    | some o =>
      have : o = obj client (given w) t := by
        rcases h.right _ _ hb with ⟨u, hu, h1, h2⟩ | ⟨e, he, h1, _⟩
        · rw [c.inj ht hu h1]; exact h2
        · exact absurd h1 (c.disjoint ht he)
      subst this
      exact ⟨1, r, by simp [exec, hb], h, .refl r, hb⟩
    | none =>
      obtain ⟨i, hd, hi⟩ := F.node t ht
      have hpos := size_pos t
      -- the node was finished
      have fin : ∀ r1 r2 : Run, I r1 → Grows p (sizeOf t - 1) r r1 → r2.built = r1.built →
          ((¬ Constructed client t ∧ r2.log = r1.log) ∨ (Constructed client t ∧ ∃ args, obj client (given w) t = .made t.name args ∧
            r2.log = r1.log ++ [.made t.name args])) →
          I (r2.finish runnable t.name (obj client (given w) t)) ∧
          Grows p (sizeOf t) r (r2.finish runnable t.name (obj client (given w) t)) ∧
          (r2.finish runnable t.name (obj client (given w) t)).built t.name = some (obj client (given w) t) := by
        intro r1 r2 h1 hg e hl
        have hb1 : r1.built t.name = none := by rw [hg.larger t ht (by omega)]; exact hb
        refine ⟨finish_inv_node c h1 ht hb1 e hl, ⟨?_, ?_⟩, by simp [Run.finish]⟩
        · intro n o hn
          have : n ≠ t.name := fun hx => by rw [hx, hb] at hn; cases hn
          simp only [Run.finish, this, if_false, e]
          exact hg.keep n o hn
        · intro u hu hs
          have : u.name ≠ t.name := fun hx => by rw [c.inj hu ht hx] at hs; omega
          simp only [Run.finish, this, if_false, e]
          exact hg.larger u hu (by omega)
      have hcall : ∀ as : List Tree, build client t = some (.call (as.map argOf)) → Constructed client t →
          obj client (given w) t = .made t.name (objs client (given w) as) →
          (∀ u ∈ as, (∃ v, u = .value v) ∨ (argOf u = .node u.name ∧ u ∈ parts t)) →
          ∃ fuel r', X fuel r (.get t.name) = some (r', some (obj client (given w) t)) ∧ I r' ∧ Grows p (sizeOf t) r r' ∧
            r'.built t.name = some (obj client (given w) t) := by
        intro as hbu hc ho has
        obtain ⟨f, r1, e1, e2, e3⟩ := call_ok (p := p) (client := client) (runnable := runnable) (w := w) (defs := defs)
          (k := sizeOf t - 1) t.name as [] r (by
            intro u hu
            rcases has u hu with hv | ⟨ha, hp⟩
            · exact .inl hv
            · exact .inr ⟨ha, get_part c F ht ih hp⟩) h
        obtain ⟨f1, f2, f3⟩ := fin r1 { r1 with log := r1.log ++ [.made t.name (objs client (given w) as)] } e2 e3 rfl
          (.inr ⟨hc, _, ho, rfl⟩)
        refine ⟨f + 1, _, ?_, f1, f2, f3⟩
        simp only [List.nil_append] at e1
        simp only [exec, hb, hd, hi, Option.bind_some, hbu, e1, ho]
      have harg : ∀ u ∈ parts t, (∀ s args, t ≠ .handler s args) → argOf u = .node u.name := by
        intro u hu hh
        rcases c.parts t ht u hu with hm | hm
        · rcases c.code u hm with ⟨s, as, rfl⟩ | ⟨n, v, rfl⟩ | ⟨n, a, rfl⟩ | ⟨n, v, a, rfl⟩ <;> rfl
        · rcases c.addrs u hm with ⟨n, rfl⟩ | ⟨n, rfl⟩ <;> rfl
      rcases c.code t ht with ⟨s, as, rfl⟩ | ⟨n, u, rfl⟩ | ⟨n, a, rfl⟩ | ⟨n, u, a, rfl⟩
      · refine hcall as rfl (by simp [Constructed]) (by simp [obj, Tree.name]) ?_
        intro u hu
        cases u <;> simp [argOf, parts, hu]
      · by_cases hc : client n = true
        · obtain ⟨f, r1, e1, e2, e3⟩ := get_part (client := client) (runnable := runnable) c F ht ih
            (u := u) (by simp [parts]) r h
          have ho : obj client (given w) (.wrap n u) = obj client (given w) u := by simp [obj, hc]
          obtain ⟨f1, f2, f3⟩ := fin r1 r1 e2 e3 rfl (.inl ⟨by simp [Constructed, hc], rfl⟩)
          refine ⟨f + 1, _, ?_, f1, f2, f3⟩
          rw [ho]
          simp only [exec, hb, hd, hi, Option.bind_some, build, hc, if_true, e1]
        · have hc' : client n = false := by simpa using hc
          have ha := harg u (by simp [parts]) (by simp)
          refine hcall [u] ?_ (by simp [Constructed, hc']) (by simp [obj, objs, hc', Tree.name]) ?_
          · simp [build, hc', ha]
          · intro v hv
            cases List.mem_singleton.1 hv
            exact .inr ⟨ha, by simp [parts]⟩
      · refine hcall [.dial (dialName a)] rfl (by simp [Constructed]) (by simp [obj, objs, Tree.name]) ?_
        intro v hv
        cases List.mem_singleton.1 hv
        exact .inr ⟨rfl, by simp [parts]⟩
      · have ha := harg u (by simp [parts]) (by simp)
        refine hcall [u, .bind (bindName a)] ?_ (by simp [Constructed]) (by simp [obj, objs, Tree.name]) ?_
        · simp [build, ha]
          rfl
        · intro v hv
          simp only [List.mem_cons, List.not_mem_nil, or_false] at hv
          rcases hv with rfl | rfl
          · exact .inr ⟨ha, by simp [parts]⟩
          · exact .inr ⟨rfl, by simp [parts]⟩

theorem instantiate_ok (c : p.Closed) (F : Finds p w defs) : ∀ (ts : List Tree) (r : Run), (∀ t ∈ ts, t ∈ p.nodes) → I r →
    ∃ fuel r', instantiate runnable defs (fun i => p.nodes[i]?.bind (build client)) fuel (ts.map Tree.name) r = some (r', true) ∧
      I r' ∧ (∀ n o, r.built n = some o → r'.built n = some o) ∧ ∀ t ∈ ts, r'.built t.name = some (obj client (given w) t)
  | [], r, _, h => ⟨0, r, rfl, h, fun _ _ h => h, nofun⟩
  | t :: ts, r, hm, h => by
    obtain ⟨f1, r1, a1, a2, a3, a4⟩ := gets_node (client := client) (runnable := runnable) c F _ t (Nat.lt_succ_self _) (hm t (by simp)) r h
    obtain ⟨f2, r2, b1, b2, b3, b4⟩ := instantiate_ok c F ts r1 (fun t ht => hm t (by simp [ht])) a2
    have hmono : ∀ (l : List Name) (f f' : Nat) (r : Run) (x : Run × Bool), f ≤ f' →
        instantiate runnable defs (fun i => p.nodes[i]?.bind (build client)) f l r = some x →
        instantiate runnable defs (fun i => p.nodes[i]?.bind (build client)) f' l r = some x := by
      intro l
      induction l with
      | nil => intro f f' r x _ h; exact h
      | cons n l ih =>
        intro f f' r x hf h
        simp only [instantiate] at h ⊢
        cases he : exec runnable defs (fun i => p.nodes[i]?.bind (build client)) f r (.get n) with
        | none => simp [he] at h
        | some y =>
          rw [he] at h
          rw [exec_mono hf he]
          obtain ⟨r', o⟩ := y
          cases o with
          | none => exact h
          | some o => exact ih f f' r' x hf h
    refine ⟨max f1 f2, r2, ?_, b2, fun n o hn => b3 n o (a3.keep n o hn), ?_⟩
    · simp only [List.map_cons, instantiate]
      rw [exec_mono (Nat.le_max_left f1 f2) a1]
      exact hmono _ _ _ _ _ (Nat.le_max_right f1 f2) b1
    · intro u hu
      rcases List.mem_cons.1 hu with rfl | hu
      · exact b3 _ _ a4
      · exact b4 u hu

end launch

end Verif.Live
