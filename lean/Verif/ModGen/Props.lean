import Verif.ModGen.Lemmas
/-!
# Properties of generated modules
-/

namespace Verif.ModGen

/-! ### C70: wrapper parameters -/

/-- C70, as far as it holds: after generating a process, a node runs the code generated for its own interface, with
the parameters given for it in the wiring spec, whatever other nodes there are and in whatever order and however often
they are visited, provided the others are kept apart from it. Missing, see the refutations: wrappers of the same
plugin around services whose interfaces have the same name. -/
theorem C70_own_parameters_partial (T : Templates) (ifaces nodes : List Node) (n : Node) (hn : n ∈ nodes)
    (hi : ∀ m ∈ ifaces, Apart m n) (hf : ∀ m ∈ nodes, Apart m n) :
    RunsAsConfigured T (generate T ifaces nodes) n := by
  have h0 : IfaceInv T n empty := ⟨by simp [empty], by simp [empty]⟩
  have h1 := iface_run ifaces hi h0
  have h2 : FuncInv T n (run T empty (ifaces.map .addInterfaces)) :=
    ⟨fun o ho => by rw [h1.short o ho]; exact T.longer _ _ _ _, fun x hx hk => absurd hk (h1.fresh x hx)⟩
  have h3 : (generate T ifaces nodes).files (path n) = some (text T n) := func_run nodes hf h2 (.inl hn)
  refine ⟨fun hc => ?_, fun hc => ?_, passed_inCall⟩
  · rw [h3, text, baked_inCode hc, calledCtor_eq]
  · rw [h3, text, baked_not hc, calledCtor_eq]

/-- C70, which parameters count: among the nodes of a plugin that generates code per instance, with the same file, the
last one generated decides, if its code is not shorter than the others'. -/
theorem C70_last_wins (T : Templates) (ifaces before after : List Node) (n : Node)
    (hk : key n = some (n.name ++ ".generateFuncs".toList)) (hw : ∀ m ∈ ifaces, path m ≠ path n)
    (hb : ∀ m ∈ before, m.name ≠ n.name)
    (hl : ∀ m ∈ before, path m = path n →
      (T.code m.kind m.iface (calledCtor m) m.param).length ≤ (T.code n.kind n.iface (calledCtor n) n.param).length)
    (hc : InCode n.kind) (ha : ∀ m ∈ after, path m ≠ path n) :
    (generate T ifaces (before ++ n :: after)).files (path n) =
      some (T.code n.kind n.iface (calledCtor n) n.param) := by
  have ht : ∀ m : Node, InCode m.kind → text T m = T.code m.kind m.iface (calledCtor m) m.param := by
    intro m hm; rw [text, baked_inCode hm, calledCtor_eq]
  rw [← ht n hc]
  let s0 := run T empty (ifaces.map .addInterfaces)
  have hs0 : s0.files (path n) = none := by
    have : ∀ (ms : List Node) (s : Module), (∀ m ∈ ms, path m ≠ path n) → s.files (path n) = none →
        (run T s (ms.map .addInterfaces)).files (path n) = none := by
      intro ms
      induction ms with
      | nil => intro s _ h; exact h
      | cons m ms ih =>
        intro s hm h
        refine ih _ (fun x hx => hm x (by simp [hx])) ?_
        have hw : ∀ v : List Str, (write { s with visited := v } (path m) (T.iface m.kind m.iface)).files (path n) = none := by
          intro v; simp only [write]; rw [if_neg (fun e => hm m (by simp) e.symm)]; exact h
        simp only [step]
        split
        · unfold once
          split
          · exact hw s.visited
          · split
            · exact h
            · exact hw _
        · exact h
    exact this ifaces empty hw rfl
  have hv : n.name ++ ".generateFuncs".toList ∉ (run T s0 (before.map .generateFuncs)).visited := by
    intro hin
    rcases run_visited before hin with h | ⟨m, hm, h⟩
    · obtain ⟨m, h'⟩ := ifaces_visited ifaces (by simp [empty]) _ h
      exact key_ne_ifaceKey h' hk
    · have hkm : m.name = n.name := by
        have hkk : ∀ (q : Node) (x : Str), key q = some (x ++ ".generateFuncs".toList) → q.name = x := by
          intro q x hq
          obtain ⟨a, k, i, p⟩ := q
          cases k <;> first
            | exact List.append_cancel_right (Option.some.inj hq)
            | (cases hq; done)
            | exact absurd (Option.some.inj hq) (tail_ne 11 (by decide) (by decide) (by decide))
        exact hkk m _ h
      exact hb m hm hkm
  have hlen : ∀ o, (run T s0 (before.map .generateFuncs)).files (path n) = some o → o.length ≤ (text T n).length := by
    refine run_length before (by simp [hs0]) ?_
    intro m hm e
    rw [ht n hc, ht m ((path_eq e).1 ▸ hc)]
    exact hl m hm e
  show (run T s0 ((before ++ n :: after).map .generateFuncs)).files (path n) = _
  rw [List.map_append, run_append, List.map_cons]
  show (run T (step T (run T s0 (before.map .generateFuncs)) (.generateFuncs n)) (after.map .generateFuncs)).files (path n) = _
  rw [run_other after ha]
  have stepEq : ∀ s, step T s (.generateFuncs n) = once s (key n) fun s => write s (path n) (text T n) := fun _ => rfl
  rw [stepEq]
  simp only [once, hk, if_neg hv, write, if_true]
  rw [overwrite_eq hlen]

/-- C70 fails: two retriers around services with the same interface in one process, the first configured with `p` retries
and the second with `q`. Both run with `q`: the file is named after the interface and the second overwrites the first.
This is so for all interfaces, names and templates, if the texts with `p` and `q` differ and have the same length (as
for 3 and 5 in the real one). -/
theorem C70_second_retrier_refuted (i : Iface) (na nb p q : Str) (hnames : na ≠ nb) (T : Templates)
    (hne : T.code .retrier i (calledCtor ⟨na, .retrier, i, p⟩) p ≠ T.code .retrier i (calledCtor ⟨nb, .retrier, i, q⟩) q)
    (hlen : (T.code .retrier i (calledCtor ⟨na, .retrier, i, p⟩) p).length =
      (T.code .retrier i (calledCtor ⟨nb, .retrier, i, q⟩) q).length) :
    ¬ RunsAsConfigured T (generate T [] [⟨na, .retrier, i, p⟩, ⟨nb, .retrier, i, q⟩]) ⟨na, .retrier, i, p⟩ ∧
    RunsAsConfigured T (generate T [] [⟨na, .retrier, i, p⟩, ⟨nb, .retrier, i, q⟩]) ⟨nb, .retrier, i, q⟩ := by
  have hc : InCode .retrier := by simp [InCode]
  have hf := two_fresh T ⟨na, .retrier, i, p⟩ ⟨nb, .retrier, i, q⟩ _ _ rfl rfl
    (fun e => hnames (List.append_cancel_right e).symm) rfl
  have ha := text_inCode T (n := ⟨na, .retrier, i, p⟩) hc
  have hb := text_inCode T (n := ⟨nb, .retrier, i, q⟩) hc
  simp only at ha hb
  rw [← ha, ← hb] at hne hlen
  rw [overwrite_eq (by intro o ho; rw [← Option.some.inj ho, hlen]; exact Nat.le_refl _)] at hf
  refine ⟨fun h => hne ?_, ?_, fun h => absurd hc h, fun h => by simp [InCall] at h⟩
  · have := h.1 hc
    simp only at this
    rw [← ha] at this
    exact Option.some.inj (this.symm.trans hf)
  · intro _; simp only; rw [← hb]; exact hf

/-- C70 fails: if the second retrier's text is shorter, as with delays "100ms" and "1s", the file is not even the text
of one of them: the end of the first text remains after the second. -/
theorem C70_leftover_refuted (i : Iface) (na nb p q : Str) (hnames : na ≠ nb) (T : Templates)
    (hlen : (T.code .retrierFixedDelay i (calledCtor ⟨nb, .retrierFixedDelay, i, q⟩) q).length <
      (T.code .retrierFixedDelay i (calledCtor ⟨na, .retrierFixedDelay, i, p⟩) p).length) :
    ∃ rest, rest ≠ [] ∧
      (generate T [] [⟨na, .retrierFixedDelay, i, p⟩, ⟨nb, .retrierFixedDelay, i, q⟩]).files
        (path ⟨nb, .retrierFixedDelay, i, q⟩) =
      some (T.code .retrierFixedDelay i (calledCtor ⟨nb, .retrierFixedDelay, i, q⟩) q ++ rest) := by
  have hc : InCode .retrierFixedDelay := by simp [InCode]
  have hf := two_fresh T ⟨na, .retrierFixedDelay, i, p⟩ ⟨nb, .retrierFixedDelay, i, q⟩ _ _ rfl rfl
    (fun e => hnames (List.append_cancel_right e).symm) rfl
  have ha := text_inCode T (n := ⟨na, .retrierFixedDelay, i, p⟩) hc
  have hb := text_inCode T (n := ⟨nb, .retrierFixedDelay, i, q⟩) hc
  simp only at ha hb
  rw [← ha, ← hb] at hlen
  rw [← hb]
  refine ⟨(text T ⟨na, .retrierFixedDelay, i, p⟩).drop (text T ⟨nb, .retrierFixedDelay, i, q⟩).length, ?_, hf⟩
  intro h
  have := congrArg List.length h
  simp only [List.length_drop, List.length_nil] at this
  omega

/-- C70 fails the other way round for client pools: two pools of clients with the same interface both get the capacity
of the first one generated. -/
theorem C70_second_pool_refuted (i : Iface) (na nb p q : Str) (T : Templates)
    (hne : T.code .clientPool i (calledCtor ⟨na, .clientPool, i, p⟩) p ≠
      T.code .clientPool i (calledCtor ⟨nb, .clientPool, i, q⟩) q) :
    RunsAsConfigured T (generate T [] [⟨na, .clientPool, i, p⟩, ⟨nb, .clientPool, i, q⟩]) ⟨na, .clientPool, i, p⟩ ∧
    ¬ RunsAsConfigured T (generate T [] [⟨na, .clientPool, i, p⟩, ⟨nb, .clientPool, i, q⟩]) ⟨nb, .clientPool, i, q⟩ := by
  have hc : InCode .clientPool := by simp [InCode]
  have hf := two_same T ⟨na, .clientPool, i, p⟩ ⟨nb, .clientPool, i, q⟩ _ rfl rfl
  have ha := text_inCode T (n := ⟨na, .clientPool, i, p⟩) hc
  have hb := text_inCode T (n := ⟨nb, .clientPool, i, q⟩) hc
  simp only at ha hb
  rw [← ha, ← hb] at hne
  have hp : path ⟨nb, .clientPool, i, q⟩ = path ⟨na, .clientPool, i, p⟩ := rfl
  refine ⟨⟨fun _ => ?_, fun h => absurd hc h, fun h => by simp [InCall] at h⟩, fun h => hne ?_⟩
  · simp only; rw [← ha, hf, if_pos rfl]
  · have := h.1 hc
    simp only at this
    rw [← hb, hf, if_pos hp] at this
    exact Option.some.inj this

/-! ### C71: the code of every node is generated -/

/-- C71, as far as it holds: after generation, the file that defines a node's constructor exists, for every node of the
process. Missing: Thrift clients of services that also have gRPC clients, see the refutation. -/
theorem C71_constructor_exists_partial (T : Templates) (ifaces nodes : List Node) (n : Node) (hn : n ∈ nodes)
    (hm : ∀ m ∈ nodes, KeyMates m.kind n.kind → m.iface.name ≠ n.iface.name)
    (hnames : ∀ m ∈ nodes, m.name = n.name → m = n)
    (hb : ∀ m ∈ nodes, m.iface.base = n.iface.base ↔ m.iface.name = n.iface.name) :
    (generate T ifaces nodes).files (path n) ≠ none ∧ calledCtor n = definedCtor n.kind n.iface := by
  refine ⟨?_, calledCtor_eq n⟩
  let s0 := run T empty (ifaces.map .addInterfaces)
  have hv0 : ∀ x ∈ s0.visited, key n ≠ some x := by
    intro x hx
    obtain ⟨m, h'⟩ := ifaces_visited ifaces (by simp [empty]) _ hx
    exact key_ne_ifaceKey h'
  have main : ∀ (ms : List Node) (s : Module), (∀ m ∈ ms, m ∈ nodes) →
      (∀ x ∈ s.visited, key n = some x → s.files (path n) ≠ none) → (n ∈ ms ∨ s.files (path n) ≠ none) →
      (run T s (ms.map .generateFuncs)).files (path n) ≠ none := by
    intro ms
    induction ms with
    | nil =>
      intro s _ _ h
      rcases h with h | h
      · cases h
      · exact h
    | cons m ms ih =>
      intro s hsub hv h
      have hmn := hsub m (by simp)
      -- a step of `m` with the key of `n` writes the file of `n`
      have hsame : ∀ x, key m = some x → key n = some x → path m = path n := by
        intro x h1 h2
        rcases key_eq h1 h2 with e | ⟨e1, e2⟩
        · rw [hnames m hmn e]
        · have e3 : m.iface.base = n.iface.base ∧ m.iface.name = n.iface.name := by
            rcases e1 with e | e
            · exact ⟨e, (hb m hmn).1 e⟩
            · exact ⟨(hb m hmn).2 e, e⟩
          rcases e2 with e | e
          · have hfn : ∀ k, fileName k m.iface = fileName k n.iface := by
              intro k; cases k <;> simp [fileName, e3.1, e3.2]
            simp [path, e, hfn]
          · exact absurd e3.2 (hm m hmn e)
      have hwrote : (path m = path n ∧ ∀ x ∈ s.visited, key m ≠ some x) →
          (step T s (.generateFuncs m)).files (path n) ≠ none := by
        rintro ⟨e, hfresh⟩
        have stepEq : step T s (.generateFuncs m) = once s (key m) fun s => write s (path m) (text T m) := rfl
        rw [stepEq]
        unfold once
        split
        · simp [write, e]
        · rename_i k hk
          rw [if_neg (fun h => hfresh k h hk)]
          simp [write, e]
      refine ih _ (fun x hx => hsub x (by simp [hx])) ?_ ?_
      · intro x hx hk
        by_cases hx' : x ∈ s.visited
        · exact step_keeps (hv x hx' hk)
        · rcases step_visited hx with h | h
          · exact absurd h hx'
          · refine hwrote ⟨hsame x h hk, ?_⟩
            intro y hy hy'
            rw [h] at hy'
            exact hx' (Option.some.inj hy' ▸ hy)
      · rcases h with h | h
        · rcases List.mem_cons.1 h with rfl | h
          · refine .inr ?_
            by_cases hd : ∃ x ∈ s.visited, key n = some x
            · obtain ⟨x, hx, hk⟩ := hd
              exact step_keeps (hv x hx hk)
            · exact hwrote ⟨rfl, fun x hx hk => hd ⟨x, hx, hk⟩⟩
          · exact .inl h
        · exact .inr (step_keeps h)
  exact main nodes s0 (fun _ h => h) (fun x hx hk => absurd hk (hv0 x hx)) (.inl hn)

/-- C71 fails: a process with a gRPC client and a Thrift client of services with the same interface. The Thrift plugin
marks its work done under gRPC's name, so the file of the Thrift client is never written although its constructor is
called. -/
theorem C71_thrift_client_refuted (i : Iface) (na nb : Str) (T : Templates) :
    (generate T [] [⟨na, .grpcClient, i, []⟩, ⟨nb, .thriftClient, i, []⟩]).files (path ⟨nb, .thriftClient, i, []⟩) = none ∧
    (generate T [] [⟨na, .grpcClient, i, []⟩, ⟨nb, .thriftClient, i, []⟩]).files (path ⟨na, .grpcClient, i, []⟩) ≠ none := by
  have hf := two_same T ⟨na, .grpcClient, i, []⟩ ⟨nb, .thriftClient, i, []⟩ _ rfl rfl
  refine ⟨?_, by rw [hf, if_pos rfl]; simp⟩
  rw [hf, if_neg]
  intro e
  have := (path_eq e).1
  cases this

/-- C71, no two files of a package define the same constructor, if interfaces with the same base name have the same
name. -/
theorem C71_one_definition_partial (m n : Node) (hb : m.iface.base = n.iface.base → m.iface.name = n.iface.name)
    (hp : (path m).1 = (path n).1) (h : calledCtor m = calledCtor n) : path m = path n := by
  rw [calledCtor_eq, calledCtor_eq] at h
  obtain ⟨h1, h2⟩ := ctor_eq hp h
  have hfn : ∀ k, fileName k m.iface = fileName k n.iface := by
    intro k; cases k <;> simp [fileName, h2, hb h2]
  simp [path, h1, hfn]

/-- C71 fails: gRPC servers for the plain interface of a service and for the one wrapped by OpenTelemetry in one process
are written to two files of the same package that define the same constructor. -/
theorem C71_one_definition_refuted :
    ∃ m n : Node, m.kind = .grpcServer ∧ n.kind = .grpcServer ∧ m.iface.base = n.iface.base ∧
      (path m).1 = (path n).1 ∧ path m ≠ path n ∧ calledCtor m = calledCtor n := by
  refine ⟨⟨"a".toList, .grpcServer, ⟨"workflow".toList, "Leaf".toList, "Leaf".toList, []⟩, []⟩,
    ⟨"b".toList, .grpcServer, ⟨"proc/ot".toList, "Leaf_OTServerWrapperInterface".toList, "Leaf".toList, []⟩, []⟩,
    rfl, rfl, rfl, rfl, by decide, rfl⟩

/-! ### C72: modules a process depends on -/

/-- C72, as far as it holds: after a node added its modules, each of its local ones is in the workspace, if at most one
of them was missing. Missing: several modules, see the refutation. -/
theorem C72_copied_partial (w : Workspace) (ms : List GoModule) (hw : ∀ x, x ∈ w.visited ↔ x ∈ w.copied)
    (h1 : ∀ a ∈ ms, ∀ b ∈ ms, a.isLocal → b.isLocal → a.name ∉ w.copied → b.name ∉ w.copied → a.name = b.name)
    (m : GoModule) (hm : m ∈ ms) (hl : m.isLocal) : m.name ∈ (addToWorkspace w ms).copied := by
  induction ms with
  | nil => cases hm
  | cons a ms ih =>
    have ih' : m ∈ ms → m.name ∈ (addToWorkspace w ms).copied :=
      ih fun x hx y hy => h1 x (by simp [hx]) y (by simp [hy])
    simp only [addToWorkspace]
    by_cases ha : a.isLocal
    · rw [if_pos ha]
      by_cases hv : a.name ∈ w.visited
      · rw [if_pos hv]
        rcases List.mem_cons.1 hm with rfl | hm
        · exact (addToWorkspace_mono ms w).1 ((hw _).1 hv)
        · exact ih' hm
      · rw [if_neg hv]
        by_cases hc : m.name ∈ w.copied
        · simp [hc]
        · simp [h1 a (by simp) m hm ha hl (fun h => hv ((hw _).2 h)) hc]
    · rw [if_neg ha]
      rcases List.mem_cons.1 hm with rfl | hm
      · exact absurd hl ha
      · exact ih' hm

/-- C72, nothing else is copied, and nothing twice: only local modules that were asked for. -/
theorem C72_only_asked (w : Workspace) (ms : List GoModule) (hw : ∀ x, x ∈ w.visited ↔ x ∈ w.copied)
    (hd : w.copied.Nodup) :
    (addToWorkspace w ms).copied.Nodup ∧
    ∀ x ∈ (addToWorkspace w ms).copied, x ∈ w.copied ∨ ∃ m ∈ ms, m.isLocal ∧ m.name = x := by
  induction ms with
  | nil => exact ⟨hd, fun x hx => .inl hx⟩
  | cons a ms ih =>
    have ih' : (addToWorkspace w ms).copied.Nodup ∧
        ∀ x ∈ (addToWorkspace w ms).copied, x ∈ w.copied ∨ ∃ m ∈ a :: ms, m.isLocal ∧ m.name = x :=
      ⟨ih.1, fun x hx => (ih.2 x hx).imp id fun ⟨m, hm, h⟩ => ⟨m, by simp [hm], h⟩⟩
    simp only [addToWorkspace]
    split
    · rename_i ha
      split
      · exact ih'
      · rename_i hv
        refine ⟨List.nodup_cons.2 ⟨fun h => hv ((hw _).2 h), hd⟩, ?_⟩
        intro x hx
        rcases List.mem_cons.1 hx with rfl | hx
        · exact .inr ⟨a, by simp, ha, rfl⟩
        · exact .inl hx
    · exact ih'

/-- C72 fails: a service whose interface and implementation live in two local modules. Only the first is copied to the
workspace; the module with the constructor is missing. -/
theorem C72_copied_refuted :
    ∃ ms : List GoModule, (∀ m ∈ ms, m.isLocal) ∧ ∃ m ∈ ms, m.name ∉ (addToWorkspace ⟨[], []⟩ ms).copied :=
  ⟨[⟨"example.com/api".toList, true⟩, ⟨"example.com/impl".toList, true⟩], by simp,
    ⟨"example.com/impl".toList, true⟩, by simp, by decide⟩

/-- C72, modules that are not local are all required in `go.mod`, each once, and no others. -/
theorem C72_required (w : Workspace) (ms : List GoModule) (hw : ∀ x, x ∈ w.visited ↔ x ∈ w.copied) (hd : w.copied.Nodup) :
    (addToModule w ms).copied.Nodup ∧
    ∀ x, x ∈ (addToModule w ms).copied ↔ x ∈ w.copied ∨ ∃ m ∈ ms, m.isLocal = false ∧ m.name = x := by
  induction ms generalizing w with
  | nil => exact ⟨hd, fun x => by simp [addToModule]⟩
  | cons a ms ih =>
    simp only [addToModule]
    by_cases ha : a.isLocal
    · rw [if_pos ha]
      refine ⟨(ih w hw hd).1, fun x => ?_⟩
      rw [(ih w hw hd).2 x]
      constructor
      · rintro (h | ⟨m, hm, h⟩)
        · exact .inl h
        · exact .inr ⟨m, by simp [hm], h⟩
      · rintro (h | ⟨m, hm, h⟩)
        · exact .inl h
        · rcases List.mem_cons.1 hm with rfl | hm
          · simp [ha] at h
          · exact .inr ⟨m, hm, h⟩
    · rw [if_neg ha]
      by_cases hv : a.name ∈ w.visited
      · rw [if_pos hv]
        refine ⟨(ih w hw hd).1, fun x => ?_⟩
        rw [(ih w hw hd).2 x]
        constructor
        · rintro (h | ⟨m, hm, h⟩)
          · exact .inl h
          · exact .inr ⟨m, by simp [hm], h⟩
        · rintro (h | ⟨m, hm, h⟩)
          · exact .inl h
          · rcases List.mem_cons.1 hm with rfl | hm
            · exact .inl (h.2 ▸ (hw _).1 hv)
            · exact .inr ⟨m, hm, h⟩
      · rw [if_neg hv]
        have h := ih ⟨a.name :: w.visited, a.name :: w.copied⟩ (by intro x; simp [hw x])
          (List.nodup_cons.2 ⟨fun h => hv ((hw _).2 h), hd⟩)
        refine ⟨h.1, fun x => ?_⟩
        rw [h.2 x]
        constructor
        · rintro (h | ⟨m, hm, h⟩)
          · rcases List.mem_cons.1 h with rfl | h
            · exact .inr ⟨a, by simp, by simpa using ha, rfl⟩
            · exact .inl h
          · exact .inr ⟨m, by simp [hm], h⟩
        · rintro (h' | ⟨m, hm, h'⟩)
          · exact .inl (by simp [h'])
          · rcases List.mem_cons.1 hm with e | hm
            · exact .inl (by simp [← h'.2, e])
            · exact .inr ⟨m, hm, h'⟩

/-! ### Concrete cases -/

/-- Templates as the real ones: the constructor's name and the parameters appear in the text. -/
def sample : Templates where
  code _ i c p := "type ".toList ++ i.name ++ "\nfunc ".toList ++ c ++ "() { max = ".toList ++ p ++ " }\n".toList
  iface _ i := "type ".toList ++ i.name
  longer := by intro k i c p; simp only [List.length_append]; omega

def leaf : Iface := ⟨"workflow".toList, "Leaf".toList, "Leaf".toList, []⟩
def cart : Iface := ⟨"workflow".toList, "Cart".toList, "Cart".toList, []⟩

/-- The hypotheses of `C70_own_parameters_partial` hold of a process with retriers and timeouts around two services and
a tracing wrapper. -/
example : RunsAsConfigured sample
    (generate sample [⟨"leaf.ot".toList, .otServer, leaf, []⟩]
      [⟨"leaf.r".toList, .retrier, leaf, "3".toList⟩, ⟨"cart.r".toList, .retrier, cart, "5".toList⟩,
       ⟨"leaf.t".toList, .timeout, leaf, "1s".toList⟩, ⟨"leaf.ot".toList, .otServer, leaf, []⟩])
    ⟨"leaf.r".toList, .retrier, leaf, "3".toList⟩ := by
  apply C70_own_parameters_partial
  · simp
  · intro m hm; simp only [List.mem_singleton] at hm; subst hm
    exact .inr ⟨by decide, .inr (.inl ⟨by decide, by simp [KeyMates]⟩)⟩
  · intro m hm
    simp only [List.mem_cons, List.not_mem_nil, or_false] at hm
    rcases hm with rfl | rfl | rfl | rfl
    · exact .inl ⟨rfl, rfl⟩
    · exact .inr ⟨by decide, .inl ⟨by decide, by decide⟩⟩
    · exact .inr ⟨by decide, .inr (.inl ⟨by decide, by simp [KeyMates]⟩)⟩
    · exact .inr ⟨by decide, .inr (.inl ⟨by decide, by simp [KeyMates]⟩)⟩

/-- The texts of the refutation: different, of the same length. -/
example : sample.code .retrier leaf [] "3".toList ≠ sample.code .retrier leaf [] "5".toList ∧
    (sample.code .retrier leaf [] "3".toList).length = (sample.code .retrier leaf [] "5".toList).length := by decide

/-- A shorter second text leaves the end of the first. -/
example : overwrite (some "max = 100ms }\n".toList) "max = 1s }\n".toList = "max = 1s }\n }\n".toList := by decide

/-- The hypotheses of `C71_constructor_exists_partial`. -/
example : (generate sample [] [⟨"a".toList, .grpcClient, leaf, []⟩, ⟨"b".toList, .thriftClient, cart, []⟩]).files
    ("thrift".toList, "Cart_ThriftClient".toList) ≠ none :=
  (C71_constructor_exists_partial sample [] _ ⟨"b".toList, .thriftClient, cart, []⟩ (by simp)
    (by intro m hm _; simp only [List.mem_cons, List.not_mem_nil, or_false] at hm; rcases hm with rfl | rfl
        · decide
        · rename_i h; simp [KeyMates] at h)
    (by intro m hm h; simp only [List.mem_cons, List.not_mem_nil, or_false] at hm; rcases hm with rfl | rfl
        · exact absurd h (by decide)
        · rfl)
    (by intro m hm; simp only [List.mem_cons, List.not_mem_nil, or_false] at hm; rcases hm with rfl | rfl
        · exact ⟨fun h => absurd h (by decide), fun h => absurd h (by decide)⟩
        · simp)).1

/-- Calling twice copies the second module too. -/
example : (addToWorkspace (addToWorkspace ⟨[], []⟩ [⟨"a".toList, true⟩, ⟨"b".toList, true⟩])
    [⟨"a".toList, true⟩, ⟨"b".toList, true⟩]).copied = ["b".toList, "a".toList] := by decide

end Verif.ModGen
