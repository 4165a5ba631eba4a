import Verif.Compile.Det
import Verif.Compile.Runs
/-
The invariant of a compilation.
-/
namespace Verif.Compile
open Verif.Wiring (Name Ptr)

/-- The namespace has been derived. -/
def Live (s : St) (sp : Space) : Prop := sp = [] ∨ s.level sp ≠ none

/-- A deferred function that will find what it asks for. -/
def JobOk (env : Env) (Legal : Space → Name → Prop) (s : St) : Job → Prop
  | .get n => ∃ h t, Den env Legal h [] n t ∧ Plain env [] n t
  | .children sp => s.level sp ≠ none
  | .dst sp n => Live s sp ∧ Legal sp n ∧ ∃ ty, env.look n = some (n, ty, some .ptr) ∧ env.accepts sp ty = true

/-- The destination of a pointer has been instantiated: if its interface is an address, then the address has a server. -/
def DstDone (env : Env) (s : St) (sp : Space) (n : Name) : Prop :=
  ∃ p t, env.ptr n = some p ∧ s.seen sp p.interfaceNode = some (some t) ∧ ∀ a, t = .addr a → s.dest a ≠ none

/-- The namespace builds the node itself, under this name. -/
def Owns (env : Env) (Legal : Space → Name → Prop) (sp : Space) (n : Name) (t : Tree) : Prop :=
  ∃ h ty k, Den env Legal h sp n t ∧ env.look n = some (n, ty, some k) ∧ env.accepts sp ty = true ∧ k.proxy = false

/-- The namespace gets the node, under this name, from outside. -/
def Crosses (env : Env) (Legal : Space → Name → Prop) (sp : Space) (n : Name) (t : Tree) : Prop :=
  ∃ h ty k, Den env Legal h sp n t ∧ env.look n = some (n, ty, some k) ∧ env.accepts sp ty = false ∧ k.quiet = false ∧ t.isMeta = false

/-- A name that the namespace's handler is told nothing about: a proxy, or metadata or the container of a backend from outside. -/
def Hidden (env : Env) (Legal : Space → Name → Prop) (sp : Space) (n : Name) (t : Tree) : Prop :=
  ∃ h ty k, Den env Legal h sp n t ∧ env.look n = some (n, ty, some k) ∧
    (k.proxy = true ∨ env.accepts sp ty = false ∧ (t.isMeta = true ∨ k.quiet = true))

/-- The definition of what is at an address when `t` is there: a server, or the container of a backend. -/
def Serves (k : Kind) (n : Name) (t : Tree) (a : Name) : Prop :=
  (∃ next addr u, k = .grpcServer next addr ∧ t = .grpcServer n u a) ∨ (∃ addr, k = .container addr ∧ t = .container n a)

/-- `cur` are the deferred functions that are running. -/
structure Inv (env : Env) (Legal : Space → Name → Prop) (cur : List Job) (s : St) : Prop where
  seen : ∀ sp n o, s.seen sp n = some o → Live s sp ∧ ∃ h t, o = some t ∧ Den env Legal h sp n t
  level : ∀ sp l, s.level sp = some l → ∃ x r ty, sp = x :: r ∧ env.look x = some (x, ty, some (.space l)) ∧
    env.accepts r ty = true ∧ s.seen r x ≠ none
  space : ∀ sp x ty l, s.seen sp x ≠ none → env.look x = some (x, ty, some (.space l)) → env.accepts sp ty = true →
    s.level (x :: sp) = some l
  owner : ∀ v t, s.owner v = some t → ∃ h sp c ty md target, env.look c = some (c, ty, some (.check md target)) ∧
    Den env Legal h sp md (.visibility v) ∧ s.seen sp c ≠ none
  dest : ∀ sp n a, s.seen sp n ≠ none → Binds env Legal sp n a → s.dest a ≠ none
  destOk : ∀ a t, s.dest a = some t → ∃ h sp n ty k, Den env Legal h sp n t ∧
    env.look n = some (n, ty, some k) ∧ env.accepts sp ty = true ∧ Serves k n t a ∧ s.seen sp n ≠ none
  subs : ∀ sp n sp' n', s.seen sp n ≠ none → Sub env Legal sp n sp' n' → s.seen sp' n' ≠ none
  kids : ∀ x r, s.level (x :: r) ≠ none → Job.children (x :: r) ∈ cur ++ s.queue ∨ ∀ c ∈ env.children x, s.seen (x :: r) c ≠ none
  ptrs : ∀ sp n ty, s.seen sp n ≠ none → env.look n = some (n, ty, some .ptr) → env.accepts sp ty = true →
    Job.dst sp n ∈ cur ++ s.queue ∨ DstDone env s sp n
  jobs : ∀ j ∈ cur ++ s.queue, JobOk env Legal s j
  distinct : ∀ sp, ((s.nodes sp ++ s.edges sp).map Tree.name).Nodup
  marked : ∀ sp t, t ∈ s.nodes sp ++ s.edges sp → s.added sp t.name = true
  nodes : ∀ sp t, t ∈ s.nodes sp → ∃ n, Owns env Legal sp n t ∧ s.seen sp n ≠ none
  edges : ∀ sp t, t ∈ s.edges sp → ∃ n, Crosses env Legal sp n t ∧ s.seen sp n ≠ none
  owned : ∀ sp n t, s.seen sp n ≠ none → Owns env Legal sp n t → s.added sp t.name = true
  crossed : ∀ sp n t, s.seen sp n ≠ none → Crosses env Legal sp n t → s.added sp t.name = true
  added : ∀ sp m, s.added sp m = true → (∃ t ∈ s.nodes sp ++ s.edges sp, t.name = m) ∨
    ∃ n t, Hidden env Legal sp n t ∧ t.name = m ∧ ∀ n' u, Reach env Legal sp n sp n' → Owns env Legal sp n' u → u.name ≠ m

/-- What getting nodes does not undo. -/
structure Ext (s s' : St) : Prop where
  seen : ∀ sp n o, s.seen sp n = some o → s'.seen sp n = some o
  level : ∀ sp l, s.level sp = some l → s'.level sp = some l
  dest : ∀ a, s.dest a ≠ none → s'.dest a ≠ none
  queue : ∀ j ∈ s.queue, j ∈ s'.queue

theorem Ext.refl (s : St) : Ext s s := ⟨fun _ _ _ h => h, fun _ _ h => h, fun _ h => h, fun _ h => h⟩

theorem Ext.trans {s s' s'' : St} (h : Ext s s') (h' : Ext s' s'') : Ext s s'' :=
  ⟨fun _ _ _ e => h'.seen _ _ _ (h.seen _ _ _ e), fun _ _ e => h'.level _ _ (h.level _ _ e), fun _ e => h'.dest _ (h.dest _ e),
    fun _ e => h'.queue _ (h.queue _ e)⟩

theorem Ext.seen_ne {s s' : St} (h : Ext s s') {sp : Space} {n : Name} (hs : s.seen sp n ≠ none) : s'.seen sp n ≠ none := by
  cases e : s.seen sp n with
  | none => exact absurd e hs
  | some o => rw [h.seen _ _ _ e]; simp

theorem Ext.level_ne {s s' : St} (h : Ext s s') {sp : Space} (hs : s.level sp ≠ none) : s'.level sp ≠ none := by
  cases e : s.level sp with
  | none => exact absurd e hs
  | some o => rw [h.level _ _ e]; simp

theorem Ext.live {s s' : St} (h : Ext s s') {sp : Space} (hs : Live s sp) : Live s' sp := hs.imp id h.level_ne

theorem Ext.job {env : Env} {Legal : Space → Name → Prop} {s s' : St} (h : Ext s s') {j : Job} (hj : JobOk env Legal s j) :
    JobOk env Legal s' j := by
  cases j with
  | get n => exact hj
  | children sp => exact h.level_ne hj
  | dst sp n => exact ⟨h.live hj.1, hj.2⟩

theorem Ext.done {env : Env} {s s' : St} (h : Ext s s') {sp : Space} {n : Name} (hd : DstDone env s sp n) : DstDone env s' sp n := by
  obtain ⟨p, t, hp, hs, ha⟩ := hd
  exact ⟨p, t, hp, h.seen _ _ _ hs, fun a e => h.dest _ (ha a e)⟩

/-- Only names with ways of at most this length were found. -/
def Frame (env : Env) (Legal : Space → Name → Prop) (h : Nat) (s s' : St) : Prop :=
  ∀ sp n, s.seen sp n = none → s'.seen sp n ≠ none → ∃ h' t, h' ≤ h ∧ Den env Legal h' sp n t

/-- How much there is left to do. -/
def St.left (spaces : List Space) (ptrs : List (Space × Name)) (s : St) : Nat :=
  (spaces.filter fun sp => (s.level sp).isNone).length + (ptrs.filter fun q => (s.seen q.1 q.2).isNone).length + s.queue.length

/-- What getting something with ways of at most length `h` does. -/
structure Good (env : Env) (Legal : Space → Name → Prop) (spaces : List Space) (ptrs : List (Space × Name)) (cur : List Job) (h : Nat)
    (s s' : St) : Prop where
  inv : Inv env Legal cur s'
  ext : Ext s s'
  frame : Frame env Legal h s s'
  left : s'.left spaces ptrs ≤ s.left spaces ptrs

section
variable {env : Env} {Legal : Space → Name → Prop} {spaces : List Space} {ptrs : List (Space × Name)} {cur : List Job}

theorem Good.refl {s : St} (i : Inv env Legal cur s) (h : Nat) : Good env Legal spaces ptrs cur h s s :=
  ⟨i, Ext.refl s, fun _ _ e e' => absurd e e', Nat.le_refl _⟩

theorem Good.trans {h h' : Nat} {s s' s'' : St} (g : Good env Legal spaces ptrs cur h s s')
    (g' : Good env Legal spaces ptrs cur h' s' s'') : Good env Legal spaces ptrs cur (max h h') s s'' := by
  refine ⟨g'.inv, g.ext.trans g'.ext, ?_, Nat.le_trans g'.left g.left⟩
  intro sp n e e'
  cases e1 : s'.seen sp n with
  | none =>
    obtain ⟨h1, t, hle, d⟩ := g'.frame sp n e1 e'
    exact ⟨h1, t, by omega, d⟩
  | some o =>
    obtain ⟨h1, t, hle, d⟩ := g.frame sp n e (by rw [e1]; simp)
    exact ⟨h1, t, by omega, d⟩

theorem Good.mono {h h' : Nat} {s s' : St} (g : Good env Legal spaces ptrs cur h s s') (hle : h ≤ h') :
    Good env Legal spaces ptrs cur h' s s' :=
  ⟨g.inv, g.ext, fun sp n e e' => let ⟨h1, t, hl, d⟩ := g.frame sp n e e'; ⟨h1, t, Nat.le_trans hl hle, d⟩, g.left⟩

theorem Inv.live_tail {s : St} (i : Inv env Legal cur s) {x : Name} {r : Space} (hl : Live s (x :: r)) : Live s r := by
  rcases hl with h | h
  · cases h
  · cases e : s.level (x :: r) with
    | none => exact absurd e h
    | some l =>
      obtain ⟨y, r', ty, e1, _, _, e2⟩ := i.level _ _ e
      cases e1
      cases e3 : s.seen r x with
      | none => exact absurd e3 e2
      | some o => exact (i.seen _ _ _ e3).1

theorem Inv.accepts {s : St} (i : Inv env Legal cur s) {sp : Space} (hl : Live s sp) (ty : Ty) : s.accepts sp ty = env.accepts sp ty := by
  cases sp with
  | nil => rfl
  | cons x r =>
    cases ty with
    | app => rfl
    | level l =>
      rcases hl with h | h
      · cases h
      · cases e : s.level (x :: r) with
        | none => exact absurd e h
        | some m =>
          obtain ⟨y, r', ty, e1, e2, _, _⟩ := i.level _ _ e
          cases e1
          simp [St.accepts, Env.accepts, e, e2]

theorem Inv.seen_some {s : St} (i : Inv env Legal cur s) {sp : Space} {n : Name} (hs : s.seen sp n ≠ none) :
    ∃ h t, s.seen sp n = some (some t) ∧ Den env Legal h sp n t := by
  cases e : s.seen sp n with
  | none => exact absurd e hs
  | some o =>
    obtain ⟨_, h, t, rfl, d⟩ := i.seen _ _ _ e
    exact ⟨h, t, rfl, d⟩

theorem filter_length_le {α : Type} (p q : α → Bool) : ∀ l : List α, (∀ x ∈ l, q x = true → p x = true) →
    (l.filter q).length ≤ (l.filter p).length
  | [], _ => Nat.le_refl _
  | x :: l, h => by
    have ih := filter_length_le p q l fun y hy => h y (List.mem_cons_of_mem _ hy)
    have hx := h x (List.mem_cons_self ..)
    cases hq : q x with
    | false => cases hp : p x <;> simp [hq, hp] <;> omega
    | true => simp [hq, hx hq]; exact ih

theorem filter_length_lt {α : Type} (p q : α → Bool) : ∀ l : List α, (∀ x ∈ l, q x = true → p x = true) →
    (∃ x ∈ l, p x = true ∧ q x = false) → (l.filter q).length < (l.filter p).length
  | [], _, h => by obtain ⟨x, hx, _⟩ := h; cases hx
  | x :: l, h, hex => by
    have hle := filter_length_le p q l fun y hy => h y (List.mem_cons_of_mem _ hy)
    have hx := h x (List.mem_cons_self ..)
    obtain ⟨y, hy, hp, hq⟩ := hex
    rcases List.mem_cons.1 hy with rfl | hy
    · simp [hp, hq]; omega
    · have ih := filter_length_lt p q l (fun y hy => h y (List.mem_cons_of_mem _ hy)) ⟨y, hy, hp, hq⟩
      cases hqx : q x with
      | false => cases hpx : p x <;> simp [hqx, hpx] <;> omega
      | true => simp [hqx, hx hqx]; exact ih

end

end Verif.Compile
