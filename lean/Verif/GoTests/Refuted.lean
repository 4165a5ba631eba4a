import Verif.GoTests.Props
/-
C111: where it fails, and when generation succeeds.
-/
namespace Verif.GoTests
open Verif.GoCode (Name Ty Iface contains SameSignature)

/-! ### Test modules -/

theorem lookup_put (m : List (Name × Name)) (k v x : Name) : (GoGen.put m k v).lookup x = if x = k then some v else m.lookup x := by
  unfold GoGen.put
  by_cases h : x = k
  · simp [h]
  · simp only [List.lookup_cons, beq_eq_false_iff_ne.2 h, if_neg h]
    induction m with
    | nil => rfl
    | cons e m ih =>
      obtain ⟨a, b⟩ := e
      by_cases ha : a = k
      · rw [List.filter_cons, if_neg (by simp [ha]), ih, List.lookup_cons]
        rw [ha, beq_eq_false_iff_ne.2 h]
      · rw [List.filter_cons, if_pos (by simp [ha]), List.lookup_cons, List.lookup_cons, ih]

/-- What the workspace has of the test modules. -/
structure Ready (regs : List Reg) (ws : GoGen.Workspace) : Prop where
  dirs : ∀ r ∈ regs, ∀ d, ws.moduleDirs.lookup r.pkg.module = some d → d = r.pkg.subdir
  mods : ∀ r ∈ regs, ∀ m, ws.modules.lookup r.pkg.subdir = some m → m = r.pkg.module

/-- C111: generating the tests succeeds if no two test modules have the same last element of their directories, and the workspace does
not have these modules or directories already (`C111_same_subdir_refuted`). -/
theorem C111_generates_partial (ws : GoGen.Workspace) (regs : List Reg) (svcs : List Service)
    (hd : ∀ r ∈ regs, ∀ r' ∈ regs, r.pkg.module = r'.pkg.module ↔ r.pkg.subdir = r'.pkg.subdir)
    (h1 : ∀ r ∈ regs, ws.moduleDirs.lookup r.pkg.module = none) (h2 : ∀ r ∈ regs, ws.modules.lookup r.pkg.subdir = none) :
    ∃ ws' bs, generate (ws, []) regs svcs = some (ws', bs) := by
  have key : ∀ (l : List (Service × Reg)) (st : GoGen.Workspace × Builders), (∀ x ∈ l, x.2 ∈ regs) → Ready regs st.1 →
      ∃ st', addAll st l = some st' := by
    intro l
    induction l with
    | nil => intro st _ _; exact ⟨st, rfl⟩
    | cons x l ih =>
      obtain ⟨s, r⟩ := x
      intro st hl hst
      have hr : r ∈ regs := hl (s, r) (by simp)
      have hl' : ∀ x ∈ l, x.2 ∈ regs := fun x hx => hl x (by simp [hx])
      simp only [addAll]
      unfold addRegistration
      split
      · exact ih _ hl' hst
      · unfold GoGen.addLocalModule
        cases hm : st.1.moduleDirs.lookup r.pkg.module with
        | some d =>
          have := hst.dirs r hr d hm
          subst this
          simp only [ne_eq, not_true_eq_false, if_false, Option.bind_some]
          exact ih _ hl' hst
        | none =>
          have hdirs : ∀ q ∈ regs, ∀ d, (GoGen.put st.1.moduleDirs r.pkg.module r.pkg.subdir).lookup q.pkg.module = some d → d = q.pkg.subdir := by
            intro q hq d hqd
            rw [lookup_put] at hqd
            split at hqd
            · next e => cases hqd; exact ((hd q hq r hr).1 e).symm
            · exact hst.dirs q hq d hqd
          simp only
          cases hs : st.1.modules.lookup r.pkg.subdir with
          | some m =>
            have := hst.mods r hr m hs
            subst this
            simp only [ne_eq, not_true_eq_false, if_false, Option.bind_some]
            exact ih _ hl' ⟨hdirs, hst.mods⟩
          | none =>
            simp only [Option.bind_some]
            refine ih _ hl' ⟨hdirs, ?_⟩
            intro q hq m hqm
            simp only [lookup_put] at hqm
            split at hqm
            · next e => cases hqm; exact ((hd q hq r hr).2 e).symm
            · exact hst.mods q hq m hqm
  rw [generate_eq]
  obtain ⟨⟨ws', bs⟩, h⟩ := key (pairs regs svcs) (ws, []) (by
    intro x hx
    obtain ⟨s, -, hx⟩ := List.mem_flatMap.1 hx
    obtain ⟨r, hr, rfl⟩ := List.mem_map.1 hx
    exact ((mem_getRegistries regs s r).1 hr).1) ⟨fun r hr d h => (by rw [h1 r hr] at h; cases h), fun r hr m h => (by rw [h2 r hr] at h; cases h)⟩
  exact ⟨ws', bs, h⟩

/-- C111 refuted: the tests of two modules whose directories have the same last element (such as `a/tests` and `b/tests`) cannot be
converted together: the whole compilation fails. -/
theorem C111_same_subdir_refuted (ws : GoGen.Workspace) (r q : Reg) (s : Service) (hr : Fits s r) (hq : Fits s q)
    (hp : r.pkg.path ≠ q.pkg.path) (hm : r.pkg.module ≠ q.pkg.module) (hd : r.pkg.subdir = q.pkg.subdir)
    (h1 : ws.moduleDirs.lookup r.pkg.module = none) (h2 : ws.moduleDirs.lookup q.pkg.module = none)
    (h3 : ws.modules.lookup r.pkg.subdir = none) : generate (ws, []) [r, q] [s] = none := by
  have hg : getRegistries [r, q] s = [r, q] := by
    unfold getRegistries
    rw [List.filter_eq_self]
    intro x hx
    have : x ∈ getRegistries [r, q] s := (mem_getRegistries _ _ _).2 ⟨hx, by
      rcases List.mem_cons.1 hx with e | e
      · exact e ▸ hr
      · rw [List.mem_singleton] at e; exact e ▸ hq⟩
    exact (List.mem_filter.1 this).2
  simp only [generate, hg, addRegistrations, addRegistration, List.lookup_nil, Option.isSome_none, Bool.false_eq_true, if_false,
    GoGen.addLocalModule, h1, h3, Option.bind_some, lookup_addClient, List.nil_append, List.lookup_cons, beq_eq_false_iff_ne.2 (Ne.symm hp),
    Option.map_none, lookup_put, if_neg (Ne.symm hm), h2, if_pos hd.symm]
  rw [if_pos hm]
  rfl

/-! ### The wrong client -/

/-- C111 refuted: if two services fit, it is Go's map order that decides which of them the tests talk to. -/
theorem C111_two_services_refuted (r : Reg) (s t : Service) (hs : Fits s r) (ht : Fits t r) (hn : s.name ≠ t.name)
    (hf : FirstInOrder r.var r.pkg.files) (hd : ∀ f ∈ r.pkg.files, ∀ name, Stmt.setDefault r.var name ∉ f.init)
    (ho : ∀ f ∈ r.pkg.files, ∀ b, Stmt.register r.var s.name b ∉ f.init ∧ Stmt.register r.var t.name b ∉ f.init) (code : Build → Nat) :
    ∃ ws bs ws' bs', generate ({}, []) [r] [s, t] = some (ws, bs) ∧ generate ({}, []) [r] [t, s] = some (ws', bs') ∧
      (firstGet code r.var (outputFiles bs r.pkg)).2 = some (code (.client s.node)) ∧
      (firstGet code r.var (outputFiles bs' r.pkg)).2 = some (code (.client t.node)) := by
  obtain ⟨ws, bs, h1⟩ := C111_generates_partial {} [r] [s, t] (by simp) (by simp) (by simp)
  obtain ⟨ws', bs', h2⟩ := C111_generates_partial {} [r] [t, s] (by simp) (by simp) (by simp)
  refine ⟨ws, bs, ws', bs', h1, h2, ?_, ?_⟩
  · rw [C111_uses_client_partial {} ws [r] [s, t] bs h1 (by simp) (by simp [hn]) r (by simp) s [t] (by simp [hs, ht]) hf hd
      (fun f h b => (ho f h b).1)]
  · rw [C111_uses_client_partial {} ws' [r] [t, s] bs' h2 (by simp) (by simp [Ne.symm hn]) r (by simp) t [s] (by simp [hs, ht]) hf hd
      (fun f h b => (ho f h b).2)]

/-- What one registration after another leaves to the first test that asks. -/
theorem firstGet_two (code : Build → Nat) (var n m : Name) (a b : Build) (files : List File)
    (h : initStmts files = [.register var n a, .register var m b]) :
    (firstGet code var files).2 = some (code (if n = m then b else a)) := by
  unfold firstGet
  rw [h]
  by_cases e : n = m
  · subst e
    simp [opsOf, Registry.run, Registry.register, Registry.init, Registry.get, Registry.lookup]
  · have e' : String.ofList m ≠ String.ofList n := fun h => e (String.ofList_inj.1 h).symm
    simp [opsOf, Registry.run, Registry.register, Registry.init, Registry.get, Registry.lookup, e, e']

theorem one_registry (r : Reg) (s : Service) (hs : s.type = r.type) :
    ∃ ws, generate ({}, []) [r] [s] = some (ws, [(r.pkg.path, [⟨s.name, r.var, r.type, s.node⟩])]) := by
  have hg : getRegistries [r] s = [r] := by
    simp [getRegistries, (GoCode.C29_equals_iff_same s.type r.type).2 hs]
  refine ⟨(GoGen.addLocalModule {} r.pkg.subdir r.pkg.module).2, ?_⟩
  simp [generate, hg, addRegistrations, addRegistration, GoGen.addLocalModule, addClient]

/-- C111 refuted: if the service has the name under which the test registers its own instance (`local` in all the examples), the test's
own instance replaces the client, and the tests of the output do not use the compiled application. -/
theorem C111_local_name_refuted (r : Reg) (s : Service) (hs : s.type = r.type) (file : Name) (hf : file ≠ clientsFile) (vars : List Var)
    (k : Nat) (hp : r.pkg.files = [⟨file, true, vars, [.register r.var s.name (.own k)]⟩]) (code : Build → Nat) :
    ∃ ws bs, generate ({}, []) [r] [s] = some (ws, bs) ∧ (firstGet code r.var (outputFiles bs r.pkg)).2 = some (code (.own k)) := by
  obtain ⟨ws, h⟩ := one_registry r s hs
  refine ⟨ws, _, h, ?_⟩
  rw [firstGet_two code r.var s.name s.name (.client s.node) (.own k), if_pos rfl]
  simp [outputFiles, hp, hf, initStmts, clientsGo]

/-- C111 refuted: if the file that registers the test's own instance is not a test file and its name sorts before the generated file's,
its registration comes first and stays the default: the tests of the output do not use the compiled application. -/
theorem C111_early_file_refuted (r : Reg) (s : Service) (hs : s.type = r.type) (file : Name) (hf : file ≠ clientsFile)
    (hl : file ≤ clientsFile) (vars : List Var) (n : Name) (k : Nat)
    (hp : r.pkg.files = [⟨file, false, vars, [.register r.var n (.own k)]⟩]) (code : Build → Nat) (hn : n ≠ s.name) :
    ∃ ws bs, generate ({}, []) [r] [s] = some (ws, bs) ∧ (firstGet code r.var (outputFiles bs r.pkg)).2 = some (code (.own k)) := by
  obtain ⟨ws, h⟩ := one_registry r s hs
  refine ⟨ws, _, h, ?_⟩
  rw [firstGet_two code r.var n s.name (.own k) (.client s.node), if_neg hn]
  have hsort : ∀ g : File, g.name = clientsFile → List.mergeSort [⟨file, false, vars, [.register r.var n (.own k)]⟩, g] File.le =
      [⟨file, false, vars, [.register r.var n (.own k)]⟩, g] := by
    intro g hg
    apply List.mergeSort_of_pairwise
    simp [File.le, hg, hl]
  simp [outputFiles, hp, hf, initStmts, clientsGo, hsort]

end Verif.GoTests
