import Verif.Balance.Spec
/-
C134: calls of load balancers.
-/
namespace Verif.Balance
open Verif.Wiring (Name)

theorem mem_of_lookup : ∀ {l : List (Name × Node)} {d : Name} {t : Node}, l.lookup d = some t → (d, t) ∈ l
  | (a, b) :: l, d, t, h => by
    rw [List.lookup_cons] at h
    split at h
    · rename_i hd
      have := eq_of_beq hd
      cases h; subst this; simp
    · exact List.mem_cons_of_mem _ (mem_of_lookup h)

theorem mem_of_defsOf : ∀ {l : List (Name × Def)} {d : Name} {t : Def}, defsOf l d = some t → (d, t) ∈ l
  | (a, b) :: l, d, t, h => by
    unfold defsOf at h
    rw [List.lookup_cons] at h
    split at h
    · rename_i hd
      have := eq_of_beq hd
      cases h; subst this; simp
    · exact List.mem_cons_of_mem _ (mem_of_defsOf (l := l) h)

theorem defsOf_mem : ∀ {l : List (Name × Def)} {d : Name} {t : Def}, (l.map (·.1)).Nodup → (d, t) ∈ l → defsOf l d = some t
  | (a, b) :: l, d, t, hn, h => by
    unfold defsOf
    rw [List.lookup_cons]
    rw [List.map_cons, List.nodup_cons] at hn
    rcases List.mem_cons.1 h with h | h'
    · cases h; simp
    · have : d ≠ a := by rintro rfl; exact hn.1 (List.mem_map.2 ⟨(d, t), ‹(d, t) ∈ l›, rfl⟩)
      rw [show (d == a) = false by simpa using this]
      exact defsOf_mem hn.2 h'

/-- What namespaces keep: definitions that were gotten have the nodes that they should, and the nodes of the process come from them. -/
structure Ok (defs : Name → Option Def) (s : St) : Prop where
  same : ∀ d t d', (d, t) ∈ s.seen → defs d = some (.same d') → (d', t) ∈ s.seen
  node : ∀ d t k i refs, (d, t) ∈ s.seen → defs d = some (.node k i refs) →
    ∃ ts : List Node, t = ⟨k, i, ts.map Node.name⟩ ∧ ts.length = refs.length ∧ ∀ x ∈ refs.zip ts, x ∈ s.seen
  known : ∀ d t, (d, t) ∈ s.seen → defs d ≠ none
  from_ : ∀ t ∈ s.nodes, ∃ d k i refs, (d, t) ∈ s.seen ∧ defs d = some (.node k i refs)
  has : ∀ d t, (d, t) ∈ s.seen → t.name ∈ s.nodes.map Node.name

theorem Ok.init (defs : Name → Option Def) : Ok defs St.init :=
  ⟨fun _ _ _ h => absurd h (by simp [St.init]), fun _ _ _ _ _ h => absurd h (by simp [St.init]), fun _ _ h => absurd h (by simp [St.init]),
    fun _ h => absurd h (by simp [St.init]), fun _ _ h => absurd h (by simp [St.init])⟩

/-- One state is a later one's past. -/
def Le (s s' : St) : Prop := (∀ x ∈ s.seen, x ∈ s'.seen) ∧ s.nodes <+: s'.nodes

theorem Le.refl (s : St) : Le s s := ⟨fun _ h => h, List.prefix_refl _⟩
theorem Le.trans {a b c : St} (h : Le a b) (h' : Le b c) : Le a c := ⟨fun x hx => h'.1 x (h.1 x hx), h.2.trans h'.2⟩

theorem Ok.alias {defs : Name → Option Def} {s : St} (h : Ok defs s) {d d' : Name} {t : Node} (hd : defs d = some (.same d')) (ht : (d', t) ∈ s.seen) :
    Ok defs ⟨(d, t) :: s.seen, s.nodes⟩ := by
  refine ⟨fun a u a' ha e => ?_, fun a u k i refs ha e => ?_, fun a u ha => ?_, fun u hu => ?_, fun a u ha => ?_⟩
  · rcases List.mem_cons.1 ha with ha | ha
    · obtain ⟨rfl, rfl⟩ := Prod.mk.inj ha
      rw [hd] at e; injection e with e; injection e with e; subst e
      exact List.mem_cons_of_mem _ ht
    · exact List.mem_cons_of_mem _ (h.same a u a' ha e)
  · rcases List.mem_cons.1 ha with ha | ha
    · obtain ⟨rfl, rfl⟩ := Prod.mk.inj ha
      rw [hd] at e; injection e with e; cases e
    · obtain ⟨ts, a1, a2, a3⟩ := h.node a u k i refs ha e
      exact ⟨ts, a1, a2, fun x hx => List.mem_cons_of_mem _ (a3 x hx)⟩
  · rcases List.mem_cons.1 ha with ha | ha
    · obtain ⟨rfl, rfl⟩ := Prod.mk.inj ha
      rw [hd]; simp
    · exact h.known a u ha
  · obtain ⟨a, k, i, refs, h1, h2⟩ := h.from_ u hu
    exact ⟨a, k, i, refs, List.mem_cons_of_mem _ h1, h2⟩
  · rcases List.mem_cons.1 ha with ha | ha
    · obtain ⟨rfl, rfl⟩ := Prod.mk.inj ha
      exact h.has d' _ ht
    · exact h.has a u ha

theorem St.add_le (s : St) (d : Name) (t : Node) : Le s (s.add d t) := by
  refine ⟨fun x hx => List.mem_cons_of_mem _ hx, ?_⟩
  unfold St.add
  simp only
  split
  · exact List.prefix_refl _
  · exact List.prefix_append _ _

theorem Ok.add {defs : Name → Option Def} {s : St} (h : Ok defs s) {d i : Name} {k : Kind} {refs : List Name} {us : List Node}
    (hd : defs d = some (.node k i refs)) (hl : us.length = refs.length) (hu : ∀ x ∈ refs.zip us, x ∈ s.seen) :
    Ok defs (s.add d ⟨k, i, us.map Node.name⟩) := by
  have le := s.add_le d ⟨k, i, us.map Node.name⟩
  refine ⟨fun a u a' ha e => ?_, fun a u k' i' refs' ha e => ?_, fun a u ha => ?_, fun u hn => ?_, fun a u ha => ?_⟩
  · rcases List.mem_cons.1 ha with ha | ha
    · obtain ⟨rfl, rfl⟩ := Prod.mk.inj ha
      rw [hd] at e; injection e with e; cases e
    · exact le.1 _ (h.same a u a' ha e)
  · rcases List.mem_cons.1 ha with ha | ha
    · obtain ⟨rfl, rfl⟩ := Prod.mk.inj ha
      rw [hd] at e; injection e with e; cases e
      exact ⟨us, rfl, hl, fun x hx => le.1 _ (hu x hx)⟩
    · obtain ⟨ts, a1, a2, a3⟩ := h.node a u k' i' refs' ha e
      exact ⟨ts, a1, a2, fun x hx => le.1 _ (a3 x hx)⟩
  · rcases List.mem_cons.1 ha with ha | ha
    · obtain ⟨rfl, rfl⟩ := Prod.mk.inj ha
      rw [hd]; simp
    · exact h.known a u ha
  · have : u ∈ s.nodes ∨ u = ⟨k, i, us.map Node.name⟩ := by
      unfold St.add at hn
      simp only at hn
      split at hn
      · exact .inl hn
      · simpa using hn
    rcases this with hn | rfl
    · obtain ⟨a, k', i', refs', h1, h2⟩ := h.from_ u hn
      exact ⟨a, k', i', refs', le.1 _ h1, h2⟩
    · exact ⟨d, k, i, refs, List.mem_cons_self, hd⟩
  · rcases List.mem_cons.1 ha with ha | ha
    · obtain ⟨rfl, rfl⟩ := Prod.mk.inj ha
      unfold St.add
      simp only
      split
      · rename_i hh; exact hh
      · simp
    · obtain ⟨u', hu', e⟩ := List.mem_map.1 (h.has a u ha)
      exact List.mem_map.2 ⟨u', le.2.subset hu', e⟩

/-- Whatever holds at the beginning and is kept when a definition is finished. -/
theorem getAll_inv {defs : Name → Option Def} (P : St → Prop)
    (ha : ∀ s d d' t, Ok defs s → P s → defs d = some (.same d') → (d', t) ∈ s.seen → P ⟨(d, t) :: s.seen, s.nodes⟩)
    (hn : ∀ s d k i refs us, Ok defs s → P s → defs d = some (.node k i refs) → us.length = refs.length → (∀ x ∈ refs.zip us, x ∈ s.seen) →
      P (s.add d ⟨k, i, us.map Node.name⟩)) :
    ∀ (fuel : Nat) (s : St) (ds : List Name) (s' : St) (ts : List Node), Ok defs s → P s → getAll defs fuel s ds = some (s', ts) →
      Ok defs s' ∧ P s' ∧ Le s s' ∧ ts.length = ds.length ∧ ∀ x ∈ ds.zip ts, x ∈ s'.seen := by
  intro fuel
  induction fuel with
  | zero =>
    intro s ds s' ts h hp he
    cases ds with
    | nil => rw [getAll] at he; obtain ⟨rfl, rfl⟩ := Prod.mk.inj (Option.some.inj he); exact ⟨h, hp, Le.refl _, rfl, by simp⟩
    | cons d ds => rw [getAll] at he; cases he
  | succ fuel ih =>
    intro s ds s' ts h hp he
    cases ds with
    | nil => rw [getAll] at he; obtain ⟨rfl, rfl⟩ := Prod.mk.inj (Option.some.inj he); exact ⟨h, hp, Le.refl _, rfl, by simp⟩
    | cons d ds =>
      rw [getAll] at he
      have fin : ∀ (s1 : St) (t : Node), Ok defs s1 → P s1 → Le s s1 → (d, t) ∈ s1.seen →
          (match getAll defs fuel s1 ds with | some (s', ts) => some (s', t :: ts) | none => none) = some (s', ts) →
          Ok defs s' ∧ P s' ∧ Le s s' ∧ ts.length = (d :: ds).length ∧ ∀ x ∈ (d :: ds).zip ts, x ∈ s'.seen := by
        intro s1 t h1 p1 l1 m1 e1
        cases hg : getAll defs fuel s1 ds with
        | none => rw [hg] at e1; cases e1
        | some x =>
          obtain ⟨s2, us⟩ := x
          rw [hg] at e1
          obtain ⟨rfl, rfl⟩ := Prod.mk.inj (Option.some.inj e1)
          obtain ⟨a, b, c, d1, e⟩ := ih s1 ds s2 us h1 p1 hg
          refine ⟨a, b, l1.trans c, by simp [d1], fun x hx => ?_⟩
          rw [List.zip_cons_cons] at hx
          rcases List.mem_cons.1 hx with rfl | hx
          · exact c.1 _ m1
          · exact e x hx
      cases hs : s.seen.lookup d with
      | some t =>
        simp only [hs] at he
        exact fin s t h hp (Le.refl _) (mem_of_lookup hs) he
      | none =>
        simp only [hs] at he
        cases hd : defs d with
        | none => simp only [hd] at he; cases he
        | some df =>
          cases df with
          | same d' =>
            simp only [hd] at he
            cases hg : getAll defs fuel s [d'] with
            | none => rw [hg] at he; cases he
            | some x =>
              obtain ⟨s1, us⟩ := x
              rw [hg] at he
              obtain ⟨a, b, c, d1, e⟩ := ih s [d'] s1 us h hp hg
              match us, d1 with
              | [t], _ =>
                have ht : (d', t) ∈ s1.seen := e (d', t) (by simp)
                exact fin _ t (a.alias hd ht) (ha s1 d d' t a b hd ht) (c.trans ⟨fun x hx => List.mem_cons_of_mem _ hx, List.prefix_refl _⟩)
                  List.mem_cons_self he
          | node k i refs =>
            simp only [hd] at he
            cases hg : getAll defs fuel s refs with
            | none => rw [hg] at he; cases he
            | some x =>
              obtain ⟨s1, us⟩ := x
              rw [hg] at he
              obtain ⟨a, b, c, d1, e⟩ := ih s refs s1 us h hp hg
              exact fin _ ⟨k, i, us.map Node.name⟩ (a.add hd d1 e) (hn s1 d k i refs us a b hd d1 e) (c.trans (s1.add_le _ _)) List.mem_cons_self he

theorem Reached.ok {defs : Name → Option Def} {s : St} (h : Reached defs s) : Ok defs s := by
  induction h with
  | init => exact Ok.init defs
  | step _ he ih => exact (getAll_inv (fun _ => True) (fun _ _ _ _ _ _ _ _ => trivial) (fun _ _ _ _ _ _ _ _ _ _ _ => trivial) _ _ _ _ _ ih trivial he).1

theorem Ok.ref {defs : Name → Option Def} {s : St} (h : Ok defs s) {d m i : Name} {t : Node} {k : Kind} (ht : (d, t) ∈ s.seen)
    (hd : defs d = some (.node k i [m])) : ∃ u, t = ⟨k, i, [u.name]⟩ ∧ (m, u) ∈ s.seen := by
  obtain ⟨ts, rfl, hl, hz⟩ := h.node d t k i [m] ht hd
  match ts, hl with
  | [u], _ => exact ⟨u, rfl, hz (m, u) (by simp)⟩

/-- The code of a name is that of its definition, if there is one such definition. -/
theorem Ok.declared {defs : Name → Option Def} {s : St} (h : Ok defs s) {d i : Name} {t : Node} {k : Kind} {refs : List Name} (ht : (d, t) ∈ s.seen)
    (hd : defs d = some (.node k i refs))
    (hu : ∀ d' t' k' r', (d', t') ∈ s.seen → defs d' = some (.node k' i r') → d' = d) :
    ∃ t', declared s.nodes i = some t' ∧ (d, t') ∈ s.seen := by
  obtain ⟨ts, rfl, -⟩ := h.node d t k i refs ht hd
  have hm : i ∈ s.nodes.map Node.name := h.has d _ ht
  cases hf : Balance.declared s.nodes i with
  | none =>
    unfold Balance.declared at hf
    rw [List.find?_eq_none] at hf
    obtain ⟨u, hu1, hu2⟩ := List.mem_map.1 hm
    exact absurd hu2 (by simpa using hf u hu1)
  | some u =>
    have h1 := List.mem_of_find?_eq_some hf
    have h2 := List.find?_some hf
    simp only [decide_eq_true_eq] at h2
    obtain ⟨d', k', i', r', a, b⟩ := h.from_ u h1
    obtain ⟨us, rfl, -⟩ := h.node d' u k' i' r' a b
    simp only at h2
    subst h2
    have := hu d' _ k' r' a b
    subst this
    exact ⟨_, rfl, a⟩

theorem Ok.goes {defs : Name → Option Def} {s : St} (h : Ok defs s) (hd : Distinct defs s) {d : Name} {p : List Name} {e : Dest} (hm : Means defs d p e) :
    ∀ t, (d, t) ∈ s.seen → Goes s.nodes t.name p e := by
  induction hm with
  | same h1 _ ih => exact fun t ht => ih t (h.same _ t _ ht h1)
  | handler h1 =>
    intro t ht
    obtain ⟨t', a, b⟩ := h.declared ht h1 fun d' t' k' r' x y => hd d' _ t' t _ _ _ _ _ x ht y h1
    obtain ⟨ts, rfl, -⟩ := h.node _ t _ _ _ ht h1
    obtain ⟨ts', rfl, -⟩ := h.node _ t' _ _ _ b h1
    exact .handler a rfl
  | service h1 =>
    intro t ht
    obtain ⟨t', a, b⟩ := h.declared ht h1 fun d' t' k' r' x y => hd d' _ t' t _ _ _ _ _ x ht y h1
    obtain ⟨ts, rfl, -⟩ := h.node _ t _ _ _ ht h1
    obtain ⟨ts', rfl, -⟩ := h.node _ t' _ _ _ b h1
    exact .service a rfl
  | remote h1 =>
    intro t ht
    obtain ⟨t', a, b⟩ := h.declared ht h1 fun d' t' k' r' x y => hd d' _ t' t _ _ _ _ _ x ht y h1
    obtain ⟨ts, rfl, -⟩ := h.node _ t _ _ _ ht h1
    obtain ⟨ts', rfl, -⟩ := h.node _ t' _ _ _ b h1
    exact .remote a rfl
  | client h1 _ ih =>
    intro t ht
    obtain ⟨t', a, b⟩ := h.declared ht h1 fun d' t' k' r' x y => hd d' _ t' t _ _ _ _ _ x ht y h1
    obtain ⟨u, rfl, -⟩ := h.ref ht h1
    obtain ⟨u', rfl, hu'⟩ := h.ref b h1
    exact .client a rfl rfl (ih u' hu')
  | wrap h1 _ ih =>
    intro t ht
    obtain ⟨t', a, b⟩ := h.declared ht h1 fun d' t' k' r' x y => hd d' _ t' t _ _ _ _ _ x ht y h1
    obtain ⟨u, rfl, -⟩ := h.ref ht h1
    obtain ⟨u', rfl, hu'⟩ := h.ref b h1
    exact .wrap a rfl rfl (ih u' hu')
  | server h1 _ ih =>
    intro t ht
    obtain ⟨t', a, b⟩ := h.declared ht h1 fun d' t' k' r' x y => hd d' _ t' t _ _ _ _ _ x ht y h1
    obtain ⟨u, rfl, -⟩ := h.ref ht h1
    obtain ⟨u', rfl, hu'⟩ := h.ref b h1
    exact .server a rfl rfl (ih u' hu')

/-- **C134**, in general: if no two nodes of a process have the same name, then in the generated code calls go where the definitions of the
wiring spec say, through the wrappers that they say, in whatever order the process got its nodes. -/
theorem C134_calls {defs : Name → Option Def} {s : St} (h : Reached defs s) (hd : Distinct defs s) {d : Name} {p : List Name} {e : Dest}
    (hm : Means defs d p e) {t : Node} (ht : (d, t) ∈ s.seen) : Goes s.nodes t.name p e := h.ok.goes hd hm t ht

/-- A call takes one way. -/
theorem Goes.unique {nodes : List Node} {n : Name} {p : List Name} {d : Dest} (h : Goes nodes n p d) :
    ∀ {p' d'}, Goes nodes n p' d' → p = p' ∧ d = d' := by
  induction h with
  | handler e k =>
    intro p' d' h'
    cases h' <;> simp_all
  | service e k => intro p' d' h'; cases h' <;> simp_all
  | remote e k => intro p' d' h'; cases h' <;> simp_all
  | client e k r _ ih => intro p' d' h'; cases h' <;> simp_all <;> exact ih ‹_›
  | wrap e k r _ ih => intro p' d' h'; cases h' <;> simp_all <;> exact ih ‹_›
  | server e k r _ ih => intro p' d' h'; cases h' <;> simp_all <;> exact ih ‹_›

/-! ### Load balancers -/

theorem means_chain {defs : Name → Option Def} {last : Name} {p : List Name} {e : Dest} (hl : Means defs last p e) : ∀ (ws : List Name),
    (∀ x ∈ chain ws last, defs x.1 = some x.2) → Means defs (headOr ws last) (ws ++ p) e
  | [], _ => hl
  | w :: ws, h => .wrap (h (w, .node .wrap w [headOr ws last]) (by simp [chain])) (means_chain hl ws fun x hx => h x (by simp [chain, hx]))

/-- The table's entries are definitions. -/
theorem entry {x : Name} {reps ws ds : List Name} {rpc : Bool} {others : List (Name × Def)}
    (hn : ((lbDefs x reps ws ds rpc ++ others).map (·.1)).Nodup) {d : Name} {df : Def} (h : (d, df) ∈ lbDefs x reps ws ds rpc) :
    defsOf (lbDefs x reps ws ds rpc ++ others) d = some df := defsOf_mem hn (List.mem_append_left _ h)

/-- What the definitions of a load balancer say: calls pass the client side modifiers in the order in which they were added, then the server side
ones, the last one first, and then they are balanced; with an RPC plugin they leave the process after the client side modifiers. -/
theorem means_lb {x : Name} {reps ws ds : List Name} {rpc : Bool} {others : List (Name × Def)}
    (hn : ((lbDefs x reps ws ds rpc ++ others).map (·.1)).Nodup) :
    Means (defsOf (lbDefs x reps ws ds rpc ++ others)) x (ws ++ if rpc then [] else ds.reverse)
      (if rpc then .remote (rpcClientName x) else .balancer) := by
  refine .same (entry (df := .same (clientName x)) hn (by simp [lbDefs])) (.client (entry (d := clientName x) (df := .node .client x [headOr ws (if rpc then rpcClientName x else headOr ds.reverse (handlerName x))]) hn (by simp [lbDefs])) ?_)
  refine means_chain ?_ ws fun y hy => entry (d := y.1) (df := y.2) hn (by simp [lbDefs, hy])
  cases rpc with
  | true => exact .remote (entry (df := .node .rpcClient (rpcClientName x) []) hn (by simp [lbDefs]))
  | false =>
    have := means_chain (last := handlerName x) (p := []) (e := .balancer)
      (.handler (entry (df := .node .handler x reps) hn (by simp [lbDefs]))) ds.reverse
      fun y hy => entry (d := y.1) (df := y.2) hn (by simp only [lbDefs, List.mem_append]; exact Or.inl (Or.inr hy))
    simpa using this

/-- The server of a balancer: calls pass the server side modifiers, the last one first, and are balanced. -/
theorem means_server {x : Name} {reps ws ds : List Name} {others : List (Name × Def)}
    (hn : ((lbDefs x reps ws ds true ++ others).map (·.1)).Nodup) :
    Means (defsOf (lbDefs x reps ws ds true ++ others)) (rpcServerName x) ds.reverse .balancer := by
  refine .server (entry (df := .node .rpcServer (rpcServerName x) [headOr ds.reverse (handlerName x)]) hn (by simp [lbDefs])) ?_
  have := means_chain (last := handlerName x) (p := []) (e := .balancer)
    (.handler (entry (df := .node .handler x reps) hn (by simp [lbDefs]))) ds.reverse
    fun y hy => entry (d := y.1) (df := y.2) hn (by simp only [lbDefs, List.mem_append]; exact Or.inl (Or.inr hy))
  simpa using this

theorem distinct_without {a : Name} {table : List (Name × Def)} (h : DistinctBut a table) {s : St} (ha : ∀ t, (a, t) ∉ s.seen) :
    Distinct (defsOf table) s := by
  intro d1 d2 t1 t2 k1 k2 i r1 r2 s1 s2 e1 e2
  exact h.2 d1 d2 k1 k2 i r1 r2 (fun e => ha t1 (e ▸ s1)) (fun e => ha t2 (e ▸ s2)) (mem_of_defsOf e1) (mem_of_defsOf e2)

/-- **C134**, callers: in a process that does not have the balancer itself, whatever else is in it and in whatever order it was built, calls of the
balancer pass the modifiers that were added to it, in their order, and leave the process through its RPC client. -/
theorem C134_remote_partial {x : Name} {reps ws ds : List Name} {others : List (Name × Def)}
    (hn : DistinctBut (handlerName x) (lbDefs x reps ws ds true ++ others)) {s : St} (h : Reached (defsOf (lbDefs x reps ws ds true ++ others)) s)
    (hh : ∀ t, (handlerName x, t) ∉ s.seen) {t : Node} (ht : (x, t) ∈ s.seen) :
    t.name = x ∧ Goes s.nodes x ws (.remote (rpcClientName x)) := by
  have hg := C134_calls h (distinct_without hn hh) (means_lb hn.1) ht
  have hs := h.ok.same x t (clientName x) ht (entry hn.1 (by simp [lbDefs]))
  obtain ⟨u, rfl, -⟩ := h.ok.ref hs (entry (df := .node .client x [headOr ws (rpcClientName x)]) hn.1 (by simp [lbDefs]))
  refine ⟨rfl, ?_⟩
  simpa using hg

/-- **C134**, server: in a process that has the balancer's server and no client of it, calls that come in pass the server side modifiers, the last
one first, and are balanced. -/
theorem C134_server_partial {x : Name} {reps ws ds : List Name} {others : List (Name × Def)}
    (hn : DistinctBut (clientName x) (lbDefs x reps ws ds true ++ others)) {s : St} (h : Reached (defsOf (lbDefs x reps ws ds true ++ others)) s)
    (hh : ∀ t, (clientName x, t) ∉ s.seen) {t : Node} (ht : (rpcServerName x, t) ∈ s.seen) :
    t.name = rpcServerName x ∧ Goes s.nodes (rpcServerName x) ds.reverse .balancer := by
  have hg := C134_calls h (distinct_without hn hh) (means_server hn.1) ht
  obtain ⟨u, rfl, -⟩ := h.ok.ref ht (entry (df := .node .rpcServer (rpcServerName x) [headOr ds.reverse (handlerName x)]) hn.1 (by simp [lbDefs]))
  exact ⟨rfl, hg⟩

/-- **C134**, replicas: the balancer of a process balances over its replicas, in the order of the wiring spec, each as often as it is listed. -/
theorem C134_replicas {x : Name} {reps ws ds : List Name} {rpc : Bool} {others : List (Name × Def)}
    (hn : ((lbDefs x reps ws ds rpc ++ others).map (·.1)).Nodup) {s : St} (h : Reached (defsOf (lbDefs x reps ws ds rpc ++ others)) s)
    {t : Node} (ht : (handlerName x, t) ∈ s.seen) :
    t.kind = .handler ∧ ∃ ts : List Node, t.refs = ts.map Node.name ∧ ts.length = reps.length ∧ ∀ y ∈ reps.zip ts, y ∈ s.seen := by
  obtain ⟨ts, rfl, a, b⟩ := h.ok.node _ t _ _ _ ht (entry (df := .node .handler x reps) hn (by simp [lbDefs]))
  exact ⟨rfl, ts, rfl, a, b⟩

theorem Ok.chain {defs : Name → Option Def} {s : St} (h : Ok defs s) {last : Name} : ∀ (ws : List Name), (∀ x ∈ chain ws last, defs x.1 = some x.2) →
    ∀ t, (headOr ws last, t) ∈ s.seen → ∃ u, (last, u) ∈ s.seen
  | [], _, t, ht => ⟨t, ht⟩
  | w :: ws, hc, t, ht => by
    obtain ⟨u, -, hu⟩ := h.ref ht (hc (w, .node .wrap w [headOr ws last]) (by simp [Balance.chain]))
    exact Ok.chain h ws (fun x hx => hc x (by simp [Balance.chain, hx])) u hu

/-- C134 fails for a balancer in its callers' process: handler and client have the same name.  The handler is built first, so the client's code is not
generated, and calls go to the balancer directly: none of the modifiers that were added to it (retries, timeouts, tracing) is passed, although all
of them are in the process. -/
theorem C134_local_refuted {x : Name} {reps ws ds : List Name} {others : List (Name × Def)}
    (hn : DistinctBut (clientName x) (lbDefs x reps ws ds false ++ others)) {s : St} (h : Reached (defsOf (lbDefs x reps ws ds false ++ others)) s)
    {t : Node} (ht : (x, t) ∈ s.seen) :
    t.name = x ∧ (∀ p d, Goes s.nodes x p d ↔ p = [] ∧ d = .balancer) ∧ Means (defsOf (lbDefs x reps ws ds false ++ others)) x (ws ++ ds.reverse) .balancer := by
  have hc := entry (d := clientName x) (df := .node .client x [headOr ws (headOr ds.reverse (handlerName x))]) hn.1 (by simp [lbDefs])
  have hh := entry (df := .node .handler x reps) hn.1 (d := handlerName x) (by simp [lbDefs])
  have toHandler : ∀ {s : St}, Ok (defsOf (lbDefs x reps ws ds false ++ others)) s → ∀ u, (headOr ws (headOr ds.reverse (handlerName x)), u) ∈ s.seen →
      ∃ u, (handlerName x, u) ∈ s.seen := by
    intro s ho u hu
    obtain ⟨v, hv⟩ := ho.chain ws (fun y hy => entry (d := y.1) (df := y.2) hn.1 (by simp [lbDefs, hy])) u hu
    exact ho.chain ds.reverse (fun y hy => entry (d := y.1) (df := y.2) hn.1 (by simp only [lbDefs, List.mem_append]; exact Or.inl (Or.inr hy))) v hv
  have hinv : ∀ u ∈ s.nodes, u.name = x → u.kind = .handler := by
    clear ht
    induction h with
    | init => simp [St.init]
    | step hr he ih =>
      refine (getAll_inv (fun s => ∀ u ∈ s.nodes, u.name = x → u.kind = .handler) (fun _ _ _ _ _ hp _ _ => hp) ?_ _ _ _ _ _ hr.ok ih he).2.1
      intro s1 d k i refs us ho hp hd hl hz u hu hx
      have : u ∈ s1.nodes ∨ (i ∉ s1.nodes.map Node.name ∧ u = ⟨k, i, us.map Node.name⟩) := by
        unfold St.add at hu
        simp only at hu
        split at hu
        · exact .inl hu
        · rename_i hni
          rcases List.mem_append.1 hu with hu | hu
          · exact .inl hu
          · exact .inr ⟨hni, by simpa using hu⟩
      rcases this with hu | ⟨hni, rfl⟩
      · exact hp u hu hx
      · simp only at hx
        subst hx
        by_cases hdc : d = clientName i
        · subst hdc
          exfalso
          rw [hc] at hd
          injection hd with hd
          injection hd with _ _ hd
          subst hd
          match us, hl with
          | [v], _ =>
            obtain ⟨w, hw⟩ := toHandler ho v (hz (_, v) (by simp))
            have hw' := ho.has _ w hw
            obtain ⟨ts, rfl, -⟩ := ho.node _ w _ _ _ hw hh
            exact hni hw'
        · by_cases hdh : handlerName i = clientName i
          · rw [hdh, hc] at hh; injection hh with hh; cases hh
          · have e := hn.2 d (handlerName i) k .handler i refs reps hdc hdh (mem_of_defsOf hd) (mem_of_defsOf hh)
            subst e
            rw [hh] at hd
            injection hd with hd
            injection hd with hk _ _
            exact hk.symm
  have ho := h.ok
  have hs := ho.same x t (clientName x) ht (entry hn.1 (by simp [lbDefs]))
  obtain ⟨u, rfl, -⟩ := ho.ref hs hc
  refine ⟨rfl, ?_, by simpa using means_lb (rpc := false) hn.1⟩
  have hm := ho.has _ _ hs
  cases hf : declared s.nodes x with
  | none =>
    unfold declared at hf
    rw [List.find?_eq_none] at hf
    obtain ⟨v, hv1, hv2⟩ := List.mem_map.1 hm
    exact absurd hv2 (by simpa using hf v hv1)
  | some v =>
    have h2 := List.find?_some hf
    simp only [decide_eq_true_eq] at h2
    have hg : Goes s.nodes x [] .balancer := .handler hf (hinv v (List.mem_of_find?_eq_some hf) h2)
    intro p d
    constructor
    · intro h'
      obtain ⟨rfl, rfl⟩ := hg.unique h'
      exact ⟨rfl, rfl⟩
    · rintro ⟨rfl, rfl⟩
      exact hg

/-- C134 fails for a process that has both a caller of the balancer and its server, if it got the caller first: the code for the balancer's name is
the client's, so the balancer itself is not in the process.  The server calls the client, and every request, from outside or inside, goes through
all modifiers back to the RPC client, which sends it to this server again. -/
theorem C134_loop_refuted {x : Name} {reps ws ds : List Name} {others : List (Name × Def)}
    (hn : DistinctBut (handlerName x) (lbDefs x reps ws ds true ++ others)) {s s' : St} (h : Reached (defsOf (lbDefs x reps ws ds true ++ others)) s)
    (hc : ∃ t, (x, t) ∈ s.seen) (hh : ∀ t, (handlerName x, t) ∉ s.seen)
    {fuel : Nat} {gets : List Name} {ts : List Node} (he : getAll (defsOf (lbDefs x reps ws ds true ++ others)) fuel s gets = some (s', ts))
    {t : Node} (ht : (rpcServerName x, t) ∈ s'.seen) :
    (∀ p d, Goes s'.nodes (rpcServerName x) p d ↔ p = ds.reverse ++ ws ∧ d = .remote (rpcClientName x)) ∧ ∀ u ∈ s'.nodes, u.name = x → u.kind = .client := by
  obtain ⟨tx, hx⟩ := hc
  have ho := h.ok
  have ec := entry (d := clientName x) (df := .node .client x [headOr ws (rpcClientName x)]) hn.1 (by simp [lbDefs])
  have eh := entry (df := .node .handler x reps) hn.1 (d := handlerName x) (by simp [lbDefs])
  have hne : clientName x ≠ handlerName x := by intro e; rw [e, eh] at ec; injection ec with ec; cases ec
  have onlyC : ∀ {s : St} {d : Name} {t : Node} {k : Kind} {r : List Name}, (d, t) ∈ s.seen →
      defsOf (lbDefs x reps ws ds true ++ others) d = some (.node k x r) → d ≠ handlerName x → d = clientName x :=
    fun _ hd hdn => hn.2 _ (clientName x) _ .client x _ _ hdn hne (mem_of_defsOf hd) (mem_of_defsOf ec)
  have hinv : ∀ {s : St}, Ok (defsOf (lbDefs x reps ws ds true ++ others)) s → (∀ t, (handlerName x, t) ∉ s.seen) →
      ∀ u ∈ s.nodes, u.name = x → u.kind = .client := by
    intro s ho hh u hu hux
    obtain ⟨d, k, i, refs, a, b⟩ := ho.from_ u hu
    obtain ⟨us, rfl, -⟩ := ho.node d u k i refs a b
    simp only at hux
    subst hux
    have := onlyC a b (fun e => hh _ (e ▸ a))
    subst this
    rw [ec] at b
    injection b with b
    injection b with b _ _
    exact b.symm
  have hs := ho.same x tx (clientName x) hx (entry hn.1 (by simp [lbDefs]))
  have hxn : x ∈ s.nodes.map Node.name := by
    obtain ⟨u, rfl, -⟩ := ho.ref hs ec
    exact ho.has _ _ hs
  obtain ⟨ho', ⟨hxn', hk'⟩, hle, -, -⟩ := getAll_inv (fun s => x ∈ s.nodes.map Node.name ∧ ∀ u ∈ s.nodes, u.name = x → u.kind = .client)
    (fun _ _ _ _ _ hp _ _ => hp) (by
      intro s1 d k i refs us _ hp _ _ _
      unfold St.add
      simp only
      split
      · exact hp
      · rename_i hni
        refine ⟨by rw [List.map_append]; exact List.mem_append_left _ hp.1, fun u hu hux => ?_⟩
        rcases List.mem_append.1 hu with hu | hu
        · exact hp.2 u hu hux
        · rw [List.mem_singleton] at hu
          subst hu
          simp only at hux
          subst hux
          exact absurd hp.1 hni) fuel s gets s' ts ho ⟨hxn, hinv ho hh⟩ he
  refine ⟨?_, hk'⟩
  -- the code of any other definition is its own
  have own : ∀ {d : Name} {t : Node} {k : Kind} {i : Name} {r : List Name}, (d, t) ∈ s'.seen →
      defsOf (lbDefs x reps ws ds true ++ others) d = some (.node k i r) → i ≠ x → ∃ t', declared s'.nodes i = some t' ∧ (d, t') ∈ s'.seen := by
    intro d t k i r a b hix
    have nh : ∀ {d : Name} {k : Kind} {r : List Name}, defsOf (lbDefs x reps ws ds true ++ others) d = some (.node k i r) → d ≠ handlerName x := by
      rintro d k r hd rfl
      rw [eh] at hd
      injection hd with hd
      injection hd with _ hd _
      exact hix hd.symm
    exact ho'.declared a b fun d' t' k' r' a' b' => hn.2 d' d k' k i r' r (nh b') (nh b) (mem_of_defsOf b') (mem_of_defsOf b)
  have wrapNe : ∀ {d i : Name} {k : Kind} {r : List Name}, defsOf (lbDefs x reps ws ds true ++ others) d = some (.node k i r) → k = .wrap ∨ k = .rpcClient ∨ k = .rpcServer →
      i ≠ x := by
    rintro d i k r hd hk rfl
    have hdn : d ≠ handlerName i := by
      rintro rfl
      rw [eh] at hd
      injection hd with hd
      injection hd with e _ _
      subst e
      simp at hk
    have := hn.2 d (clientName i) k .client i r _ hdn hne (mem_of_defsOf hd) (mem_of_defsOf ec)
    subst this
    rw [ec] at hd
    injection hd with hd
    injection hd with e _ _
    subst e
    simp at hk
  have er := entry (d := rpcClientName x) (df := .node .rpcClient (rpcClientName x) []) hn.1 (by simp [lbDefs])
  have es := entry (d := rpcServerName x) (df := .node .rpcServer (rpcServerName x) [headOr ds.reverse (handlerName x)]) hn.1 (by simp [lbDefs])
  have hrpc : ∀ t, (rpcClientName x, t) ∈ s'.seen → Goes s'.nodes t.name [] (.remote (rpcClientName x)) := by
    intro t ht
    obtain ⟨t', a, b⟩ := own ht er (wrapNe er (.inr (.inl rfl)))
    obtain ⟨us, rfl, -⟩ := ho'.node _ t _ _ _ ht er
    obtain ⟨us', rfl, -⟩ := ho'.node _ t' _ _ _ b er
    exact .remote a rfl
  have hch : ∀ (last : Name) (p : List Name) (e : Dest), (∀ t, (last, t) ∈ s'.seen → Goes s'.nodes t.name p e) → ∀ (vs : List Name),
      (∀ y ∈ chain vs last, defsOf (lbDefs x reps ws ds true ++ others) y.1 = some y.2) →
      ∀ t, (headOr vs last, t) ∈ s'.seen → Goes s'.nodes t.name (vs ++ p) e := by
    intro last p e hl vs
    induction vs with
    | nil => exact fun _ t ht => hl t ht
    | cons w vs ih =>
      intro hc t ht
      have hw := hc (w, .node .wrap w [headOr vs last]) (by simp [chain])
      obtain ⟨t', a, b⟩ := own ht hw (wrapNe hw (.inl rfl))
      obtain ⟨u, rfl, -⟩ := ho'.ref ht hw
      obtain ⟨u', rfl, hu'⟩ := ho'.ref b hw
      exact .wrap a rfl rfl (ih (fun y hy => hc y (by simp [chain, hy])) u' hu')
  have hcl : Goes s'.nodes x ws (.remote (rpcClientName x)) := by
    cases hf : declared s'.nodes x with
    | none =>
      unfold declared at hf
      rw [List.find?_eq_none] at hf
      obtain ⟨v, hv1, hv2⟩ := List.mem_map.1 hxn'
      exact absurd hv2 (by simpa using hf v hv1)
    | some v =>
      have h1 := List.mem_of_find?_eq_some hf
      have h2 := List.find?_some hf
      simp only [decide_eq_true_eq] at h2
      have hvk := hk' v h1 h2
      obtain ⟨d, k, i, refs, a, b⟩ := ho'.from_ v h1
      obtain ⟨us, rfl, -⟩ := ho'.node d v k i refs a b
      simp only at h2 hvk
      subst h2
      subst hvk
      have hd : d = clientName i := onlyC a b (by
        rintro rfl
        rw [eh] at b
        injection b with b
        injection b with b _ _
        cases b)
      subst hd
      obtain ⟨u, hu, hu'⟩ := ho'.ref a ec
      have hr : us.map Node.name = [u.name] := (Node.mk.inj hu).2.2
      refine .client hf rfl hr ?_
      have := hch (rpcClientName i) [] _ hrpc ws (fun y hy => entry (d := y.1) (df := y.2) hn.1 (by simp [lbDefs, hy])) u hu'
      simpa using this
  have hhd : ∀ t, (handlerName x, t) ∈ s'.seen → Goes s'.nodes t.name ws (.remote (rpcClientName x)) := by
    intro t ht
    obtain ⟨us, rfl, -⟩ := ho'.node _ t _ _ _ ht eh
    exact hcl
  obtain ⟨t', a, b⟩ := own ht es (wrapNe es (.inr (.inr rfl)))
  obtain ⟨u, rfl, hu⟩ := ho'.ref b es
  have hg : Goes s'.nodes (rpcServerName x) (ds.reverse ++ ws) (.remote (rpcClientName x)) := .server a rfl rfl (hch (handlerName x) ws _ hhd ds.reverse
    (fun y hy => entry (d := y.1) (df := y.2) hn.1 (by simp only [lbDefs, List.mem_append]; exact Or.inl (Or.inr hy))) u hu)
  intro p d
  constructor
  · intro h'
    obtain ⟨rfl, rfl⟩ := hg.unique h'
    exact ⟨rfl, rfl⟩
  · rintro ⟨rfl, rfl⟩
    exact hg

end Verif.Balance
