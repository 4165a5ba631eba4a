import Verif.Live.Launch
/-
C113, the start of one process.
-/
namespace Verif.Live
open Verif.Wiring (Name)
open Verif.Compile (Tree bindName dialName)

theorem instantiate_mono {runnable : Name → Bool} {defs : Name → Option RtNs.Src} {fn : Nat → Option Build} :
    ∀ (l : List Name) (f f' : Nat) (r : Run) (x : Run × Bool), f ≤ f' →
      instantiate runnable defs fn f l r = some x → instantiate runnable defs fn f' l r = some x := by
  intro l
  induction l with
  | nil => intro f f' r x _ h; exact h
  | cons n l ih =>
    intro f f' r x hf h
    simp only [instantiate] at h ⊢
    cases he : exec runnable defs fn f r (.get n) with
    | none => simp [he] at h
    | some y =>
      rw [he] at h
      rw [exec_mono hf he]
      obtain ⟨r', o⟩ := y
      cases o with
      | none => exact h
      | some o => exact ih f f' r' x hf h

theorem start_mono {client runnable : Name → Bool} {p : Proc} {w : RtNs.World} {f f' : Nat} {x : Started} (hf : f ≤ f')
    (h : p.start client runnable w f = some x) : p.start client runnable w f' = some x := by
  unfold Proc.start at h ⊢
  split at h
  · exact h
  · split at h
    · exact h
    · rename_i defs _
      cases hi : instantiate runnable defs (fun i => p.nodes[i]?.bind (build client)) f (p.nodes.map Tree.name) ⟨fun _ => none, []⟩ with
      | none => simp [hi] at h
      | some y =>
        rw [hi] at h
        rw [instantiate_mono _ _ _ _ _ hf hi]
        exact h

theorem start_det {client runnable : Name → Bool} {p : Proc} {w : RtNs.World} {f f' : Nat} {x y : Started}
    (h : p.start client runnable w f = some x) (h' : p.start client runnable w f' = some y) : x = y := by
  have a := start_mono (Nat.le_max_left f f') h
  have b := start_mono (Nat.le_max_right f f') h'
  rw [a] at b
  exact Option.some.inj b

theorem obj_made {p : Proc} (c : p.Closed) {client : Name → Bool} {val : Name → String} {t : Tree} (ht : t ∈ p.nodes)
    (hc : Constructed client t) : ∃ args, obj client val t = .made t.name args := by
  rcases c.code t ht with ⟨s, as, rfl⟩ | ⟨n, u, rfl⟩ | ⟨n, a, rfl⟩ | ⟨n, u, a, rfl⟩
  · exact ⟨_, by simp [obj, Tree.name]; rfl⟩
  · simp only [Constructed] at hc
    exact ⟨_, by simp [obj, Tree.name, hc]; rfl⟩
  · exact ⟨_, by simp [obj, Tree.name]; rfl⟩
  · exact ⟨_, by simp [obj, Tree.name]; rfl⟩

/-- What a process is, once it runs. -/
structure Up (p : Proc) (client runnable : Name → Bool) (val : Name → String) (r : Run) : Prop where
  /-- each of its nodes is the object that it should be, -/
  built : ∀ t ∈ p.nodes, r.built t.name = some (obj client val t)
  /-- made by one call of its constructor; -/
  once : ∀ t ∈ p.nodes, Constructed client t → madeCount t.name r.log = 1
  /-- these are the only calls; -/
  calls : ∀ node args, .made node args ∈ r.log ↔ ∃ t ∈ p.nodes, Constructed client t ∧ t.name = node ∧ obj client val t = .made node args
  /-- under the name of each node that is Runnable, Run was called once, on its object, -/
  ran : ∀ t ∈ p.nodes, runCount t.name r.log = if (obj client val t).runs runnable then 1 else 0
  /-- and Run was called on nothing else -/
  runs : ∀ n o, .run n o ∈ r.log → ∃ t ∈ p.nodes, t.name = n ∧ o = obj client val t

/-- C113: a process that is given all its addresses starts: each of its nodes is built once, by a call of its constructor with the objects of
the nodes that it is built from, with literals, and with the addresses that were given; and it is run if it is Runnable. -/
theorem C113_starts {p : Proc} (c : p.Closed) (client runnable : Name → Bool) (w : RtNs.World)
    (hg : ∀ e ∈ p.edges, given w e.name ≠ "") :
    ∃ r, (∃ fuel, p.start client runnable w fuel = some (.running r)) ∧
      (∀ fuel x, p.start client runnable w fuel = some x → x = .running r) ∧ Up p client runnable (given w) r := by
  obtain ⟨reg, b, hb, hok, _⟩ := c.builds client w
  obtain ⟨defs, hd, F⟩ := hok hg
  have h0 : Inv p client runnable (given w) ⟨fun _ => none, []⟩ :=
    ⟨nofun, fun _ _ _ => rfl, nofun, fun _ => rfl, nofun⟩
  obtain ⟨fuel, r, hi, I, -, hall⟩ := instantiate_ok (client := client) (runnable := runnable) c F p.nodes _ (fun _ h => h) h0
  have hs : p.start client runnable w fuel = some (.running r) := by
    simp only [Proc.start, hb, hd, hi]
  have hone : ∀ t ∈ p.nodes, Constructed client t → madeCount t.name r.log = 1 := by
    intro t ht hc
    rw [I.made t ht hc, hall t ht]
    rfl
  refine ⟨r, ⟨fuel, hs⟩, fun f x hx => start_det hx hs, ⟨hall, hone, ?_, ?_, ?_⟩⟩
  · intro node args
    refine ⟨I.calls node args, ?_⟩
    rintro ⟨t, ht, hc, rfl, ho⟩
    have h1 := hone t ht hc
    have hp : 0 < madeCount t.name r.log := by rw [h1]; exact Nat.one_pos
    unfold madeCount at hp
    obtain ⟨e, he, hm⟩ := List.countP_pos_iff.1 hp
    cases e with
    | run n o => simp at hm
    | made m as =>
      simp only [beq_iff_eq] at hm
      subst hm
      obtain ⟨t', ht', _, e', ho'⟩ := I.calls _ _ he
      have := c.inj ht' ht e'
      subst this
      rw [ho] at ho'
      injection ho' with _ h2
      rw [h2]
      exact he
  · intro t ht
    rw [I.ran t.name, hall t ht]
  · intro n o hr
    have hbo := I.runs n o hr
    rcases I.right n o hbo with ⟨t, ht, e, e'⟩ | ⟨e, he, rfl, ho⟩
    · exact ⟨t, ht, e.symm, e'⟩
    · exfalso
      have h1 := I.ran e.name
      rw [hbo, ho] at h1
      have h2 : runCount e.name r.log = 0 := by rw [h1]; rfl
      unfold runCount at h2
      have := List.countP_eq_zero.1 h2 _ hr
      simp at this

/-- C113: a process that is not given all its addresses stops without building anything, and names exactly those that are missing. -/
theorem C113_missing {p : Proc} (c : p.Closed) (client runnable : Name → Bool) (w : RtNs.World)
    (hg : ∃ e ∈ p.edges, given w e.name = "") :
    ∃ names, (∀ fuel, p.start client runnable w fuel = some (.missing names)) ∧
      ∀ n, n ∈ names ↔ ∃ e ∈ p.edges, e.name = n ∧ given w n = "" := by
  obtain ⟨reg, b, hb, _, hmiss⟩ := c.builds client w
  obtain ⟨names, hd, hn⟩ := hmiss hg
  exact ⟨names, fun fuel => by simp only [Proc.start, hb, hd], hn⟩

theorem ranCount_le (a : Name) (log : List Event)
    (h : ∀ n m args, .run n (.made m args) ∈ log → m = a → n = a) : ranCount a log ≤ runCount a log := by
  unfold ranCount runCount
  refine List.countP_mono_left ?_
  intro e he hm
  cases e with
  | made => simp at hm
  | run n o =>
    cases o with
    | str => simp at hm
    | made m args => simp only [beq_iff_eq] at hm ⊢; exact h n m args he hm

theorem le_ranCount (a : Name) (ns : List Name) (hn : ns.Nodup) : ∀ (log : List Event),
    (∀ n ∈ ns, ∀ o, .run n o ∈ log → ∃ args, o = .made a args) → (ns.map fun n => runCount n log).sum ≤ ranCount a log
  | [], _ => by
    have : ∀ ns : List Name, (ns.map fun n => runCount n []).sum = 0 := by
      intro ns; induction ns with
      | nil => rfl
      | cons n ns ih => simp only [List.map_cons, List.sum_cons, ih]; rfl
    rw [this]; exact Nat.zero_le _
  | e :: log, h => by
    have ih := le_ranCount a ns hn log fun n hn o ho => h n hn o (List.mem_cons_of_mem _ ho)
    have hs : ∀ ns : List Name, (ns.map fun n => runCount n (e :: log)).sum =
        (ns.map fun n => runCount n log).sum + (ns.map fun n => runCount n [e]).sum := by
      intro ns
      induction ns with
      | nil => rfl
      | cons n ns ih =>
        simp only [List.map_cons, List.sum_cons, ih]
        have : runCount n (e :: log) = runCount n log + runCount n [e] := by
          unfold runCount
          rw [show e :: log = [e] ++ log from rfl, List.countP_append]
          omega
        omega
    have hr : ranCount a (e :: log) = ranCount a log + ranCount a [e] := by
      unfold ranCount
      rw [show e :: log = [e] ++ log from rfl, List.countP_append]
      omega
    rw [hs, hr]
    refine Nat.add_le_add ih ?_
    cases e with
    | made m args =>
      have : ∀ ns : List Name, (ns.map fun n => runCount n [.made m args]).sum = 0 := by
        intro ns; induction ns with
        | nil => rfl
        | cons n ns ih => simp only [List.map_cons, List.sum_cons, ih]; rfl
      rw [this]; exact Nat.zero_le _
    | run m o =>
      have hz : ∀ ns : List Name, m ∉ ns → (ns.map fun n => runCount n [.run m o]).sum = 0 := by
        intro ns; induction ns with
        | nil => intro _; rfl
        | cons n ns ih =>
          intro hm
          simp only [List.mem_cons, not_or] at hm
          simp only [List.map_cons, List.sum_cons, ih hm.2]
          simp [runCount, hm.1]
      by_cases hm : m ∈ ns
      · obtain ⟨args, rfl⟩ := h m hm o (by simp)
        have h1 : ranCount a [.run m (.made a args)] = 1 := by simp [ranCount]
        rw [h1]
        clear hs ih hr h
        induction ns with
        | nil => cases hm
        | cons n ns ih =>
          rw [List.nodup_cons] at hn
          simp only [List.map_cons, List.sum_cons]
          rcases List.mem_cons.1 hm with rfl | hm'
          · rw [hz ns hn.1]
            simp [runCount]
          · have : m ≠ n := fun e => hn.1 (e ▸ hm')
            have h2 := ih hn.2 hm'
            have h3 : runCount n [.run m (.made a args)] = 0 := by simp [runCount, this]
            omega
      · rw [hz ns hm]; exact Nat.zero_le _

/-- C113, in part: Run is called once on an object that is Runnable, if no node of the process is a client of a workflow service that stands
for the object.  Missing: services that are called in their own process, see C113_run_twice_refuted. -/
theorem C113_run_once_partial {p : Proc} (c : p.Closed) {client runnable : Name → Bool} {val : Name → String} {r : Run}
    (up : Up p client runnable val r) {t : Tree} (ht : t ∈ p.nodes) (hc : Constructed client t) (hr : runnable t.name = true)
    (hno : ∀ u ∈ p.nodes, ¬ Constructed client u → ∀ args, obj client val u ≠ .made t.name args) : ranCount t.name r.log = 1 := by
  have h1 := up.ran t ht
  obtain ⟨args, ho⟩ := obj_made (val := val) c ht hc
  rw [ho, if_pos (by exact hr)] at h1
  refine Nat.le_antisymm ?_ ?_
  · rw [← h1]
    refine ranCount_le _ _ ?_
    intro n m as he hm
    subst hm
    obtain ⟨u, hu, rfl, hou⟩ := up.runs _ _ he
    by_cases hcu : Constructed client u
    · obtain ⟨as', ho'⟩ := obj_made (val := val) c hu hcu
      rw [ho'] at hou
      injection hou with h _
      exact h.symm
    · exact absurd hou.symm (hno u hu hcu as)
  · have := le_ranCount t.name [t.name] (by simp) r.log (by
      intro n hn o he
      simp only [List.mem_singleton] at hn
      subst hn
      obtain ⟨u, hu, e, rfl⟩ := up.runs _ _ he
      rw [c.inj hu ht e]
      exact ⟨_, ho⟩)
    simpa [h1] using this

/-- C113, refuted: Run should be called once on each object.  A workflow service that is Runnable and that has neither gRPC nor wrappers is
the very object that its client is, and Run is called when the service is built and again when the client is: twice at least. -/
theorem C113_run_twice_refuted {p : Proc} (c : p.Closed) {client runnable : Name → Bool} {val : Name → String} {r : Run}
    (up : Up p client runnable val r) {n : Name} {t : Tree} (hu : .wrap n t ∈ p.nodes) (hn : client n = true) (ht : t ∈ p.nodes)
    (hc : Constructed client t) (hr : runnable t.name = true) : 2 ≤ ranCount t.name r.log := by
  obtain ⟨args, ho⟩ := obj_made (val := val) c ht hc
  have hou : obj client val (.wrap n t) = .made t.name args := by simp [obj, hn, ho]
  have h1 := up.ran t ht
  have h2 := up.ran _ hu
  rw [ho, if_pos (by exact hr)] at h1
  rw [hou, if_pos (by exact hr)] at h2
  have hne : t.name ≠ n := by
    intro e
    have := c.inj ht hu e
    rw [this] at hc
    simp [Constructed, hn] at hc
  have := le_ranCount t.name [t.name, n] (by simp [hne]) r.log (by
    intro m hm o he
    obtain ⟨u, hu', e, rfl⟩ := up.runs _ _ he
    simp only [List.mem_cons, List.not_mem_nil, or_false] at hm
    rcases hm with rfl | rfl
    · rw [c.inj hu' ht e]; exact ⟨_, ho⟩
    · rw [c.inj hu' hu e]; exact ⟨_, hou⟩)
  have h2' : runCount n r.log = 1 := h2
  simpa [h1, h2'] using this

end Verif.Live
