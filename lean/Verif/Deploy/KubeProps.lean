import Verif.Deploy.KubeLemmas

namespace Verif.Deploy.Kube
open Verif.Deploy Verif.Strings
open Verif.Deploy.Compose (argKey NoClash)

/-! ### The declared containers -/

/-- The workspace before processArgNodes. -/
structure Declared (ops : List Op) (w : Workspace) : Prop where
  args : w.args = containers ops
  keys : w.file.map (·.1) = w.args.map fun a => cleanName a.1
  names : (w.args.map fun a => cleanName a.1).Nodup
  set : ∀ n k t, .setEnv n k t ∈ ops → cleanName n ∈ w.args.map fun a => cleanName a.1
  plain : ∀ c i, get c w.file = some i → i.ports = [] ∧ i.configMap = [] ∧
    (i.config.map (·.1)).Nodup ∧
    (∀ x v, get x i.config = some v → ∃ n k t, .setEnv n k t ∈ ops ∧ cleanName n = c ∧
      envVar k = x ∧ v = .lit t) ∧
    ∀ n k t, .setEnv n k t ∈ ops → cleanName n = c → get (envVar k) i.config ≠ none

theorem containers_append (a b : List Op) : containers (a ++ b) = containers a ++ containers b := by
  simp [containers]

theorem Declared.step {ops : List Op} {w w' : Workspace} {op : Op} (h : Declared ops w)
    (hs : w.step op = some w') : Declared (ops ++ [op]) w' := by
  cases op with
  | declare name args =>
    simp only [Workspace.step] at hs
    cases hf : get (cleanName name) w.file with
    | some i => simp [hf] at hs
    | none =>
      simp only [hf, Option.some.injEq] at hs
      subst hs
      have hni : cleanName name ∉ w.args.map fun a => cleanName a.1 := by
        rw [← h.keys]; exact (get_none _ _).1 hf
      refine ⟨?_, ?_, ?_, ?_, ?_⟩
      · rw [containers_append, ← h.args]; rfl
      · show (put _ _ _).map _ = _
        rw [put_keys, if_neg (by rw [h.keys]; exact hni), h.keys]
        simp
      · simp only [List.map_append, List.map_cons, List.map_nil]
        rw [List.nodup_append]
        refine ⟨h.names, by simp, ?_⟩
        intro a ha b hb hab
        simp only [List.mem_singleton] at hb
        exact hni (by rw [← hb, ← hab]; exact ha)
      · intro n k t hm
        simp only [List.map_append, List.mem_append]
        exact .inl (h.set n k t (by simpa using hm))
      · intro c i hi
        simp only [get_put] at hi
        by_cases hc : c = cleanName name
        · rw [if_pos hc] at hi
          cases hi
          refine ⟨rfl, rfl, by simp, by simp [get], ?_⟩
          intro n k t hm hnc
          exact absurd (h.set n k t (by simpa using hm)) (by rw [hnc, hc]; exact hni)
        · rw [if_neg hc] at hi
          obtain ⟨h1, h2, h3, h4, h5⟩ := h.plain c i hi
          refine ⟨h1, h2, h3, fun x v hv => ?_, fun n k t hm hnc => ?_⟩
          · obtain ⟨n, k, t, hm, r⟩ := h4 x v hv
            exact ⟨n, k, t, List.mem_append_left _ hm, r⟩
          · exact h5 n k t (by simpa using hm) hnc
  | setEnv name key val =>
    simp only [Workspace.step] at hs
    cases hf : get (cleanName name) w.file with
    | none => simp [hf] at hs
    | some i0 =>
      simp only [hf, Option.some.injEq] at hs
      subst hs
      have hin : cleanName name ∈ w.args.map fun a => cleanName a.1 := by
        rw [← h.keys]
        exact List.mem_map.2 ⟨_, get_mem hf, rfl⟩
      refine ⟨?_, ?_, h.names, ?_, ?_⟩
      · rw [containers_append, ← h.args]; simp [containers]
      · show (addEnvVar _ _ _ _).map _ = _
        rw [addEnvVar, modify_keys, h.keys]
      · intro n k t hm
        rcases List.mem_append.1 hm with hm | hm
        · exact h.set n k t hm
        · simp only [List.mem_singleton, Op.setEnv.injEq] at hm
          rw [hm.1]; exact hin
      · intro c i hi
        simp only [addEnvVar, get_modify] at hi
        by_cases hc : c = cleanName name
        · rw [if_pos hc, hc, hf] at hi
          simp only [Option.map_some, Option.some.injEq] at hi
          subst hi
          obtain ⟨h1, h2, h3, h4, h5⟩ := h.plain _ _ hf
          refine ⟨h1, h2, put_nodup h3, fun x v hv => ?_, fun n k t hm hnc => ?_⟩
          · simp only [get_put] at hv
            by_cases hx : x = envVar key
            · rw [if_pos hx] at hv
              cases hv
              exact ⟨name, key, val, by simp, hc.symm, hx.symm, rfl⟩
            · rw [if_neg hx] at hv
              obtain ⟨n, k, t, hm, r, r'⟩ := h4 x v hv
              exact ⟨n, k, t, List.mem_append_left _ hm, by rw [hc]; exact r, r'⟩
          · simp only [get_put]
            split
            · simp
            · rename_i hne
              rcases List.mem_append.1 hm with hm | hm
              · exact h5 n k t hm (hnc.trans hc)
              · simp only [List.mem_singleton, Op.setEnv.injEq] at hm
                exact absurd (by rw [hm.2.1]) hne
        · rw [if_neg hc] at hi
          obtain ⟨h1, h2, h3, h4, h5⟩ := h.plain c i hi
          refine ⟨h1, h2, h3, fun x v hv => ?_, fun n k t hm hnc => ?_⟩
          · obtain ⟨n, k, t, hm, r⟩ := h4 x v hv
            exact ⟨n, k, t, List.mem_append_left _ hm, r⟩
          · rcases List.mem_append.1 hm with hm | hm
            · exact h5 n k t hm hnc
            · simp only [List.mem_singleton, Op.setEnv.injEq] at hm
              rw [hm.1] at hnc
              exact absurd hnc.symm hc

theorem declared (ops : List Op) (w : Workspace) (h : Workspace.empty.run ops = some w) :
    Declared ops w := by
  suffices ∀ ops pre w0, Declared pre w0 → w0.run ops = some w → Declared (pre ++ ops) w by
    simpa using this ops [] _ ⟨rfl, rfl, by simp [Workspace.empty], by simp,
      by simp [Workspace.empty, get]⟩ h
  intro ops
  induction ops with
  | nil =>
    intro pre w0 h0 h
    simp only [Workspace.run, Option.some.injEq] at h
    subst h; simpa using h0
  | cons op ops ih =>
    intro pre w0 h0 h
    rw [Workspace.run] at h
    cases hs : w0.step op with
    | none => simp [hs] at h
    | some w1 =>
      simp only [hs] at h
      have := ih _ _ (h0.step hs) h
      simpa using this

/-! ### The pods -/

/-- What is known about the ports of a pod. -/
structure PodPorts (h h' : Heap) (ids asg : List Nat) : Prop where
  same : ∀ i ∈ ids, (h' i).key = (h i).key ∧ (h' i).addr = (h i).addr
  preset : ∀ i ∈ ids, (h i).port ≠ 0 → (h' i).port = (h i).port
  asg : ∀ i ∈ ids, (i ∈ asg ↔ (h i).port = 0)
  distinct : ∀ i ∈ ids, ∀ j ∈ ids, (h' i).port = (h' j).port → i = j
  bits : ∀ i ∈ ids, (h' i).port < 65536

/-- The servers, in the order in which they are visited. -/
def visited (p : PodIn) : List Nat := p.o1.flatMap fun a => bindIds a.2

/-- What is known about a generated pod. -/
def PodDone (h h' : Heap) (p : PodIn) (files : List (Str × File)) : Prop :=
  ∃ w hp asg f ds, Workspace.empty.run p.ops = some w ∧ PodPorts h hp (visited p) asg ∧
    (∀ i ∈ visited p, h' i = hp i) ∧
    secondLoop hp asg (localAddresses hp [] (visited p)) w.file [] p.o2 = some (f, ds) ∧
    get (kubernetesName p.name) files = some f

theorem generatePods_spec : ∀ (ps : List PodIn) (s s' : St),
    (ps.map fun p => kubernetesName p.name).Nodup → (ps.flatMap visited).Nodup →
    (∀ p ∈ ps, p.o2.Perm (containers p.ops)) →
    Ports16 s.heap → generatePods s ps = .ok s' →
    s'.addrs = putAll (ps.flatMap fun p => (visited p).map fun i =>
      ((s.heap i).addr, (kubernetesName p.name, i))) s.addrs ∧
    s'.dials = s.dials ++ ps.flatMap (fun p => p.o2.flatMap fun a => dialsOf a.2) ∧
    (∀ i, (s'.heap i).key = (s.heap i).key ∧ (s'.heap i).addr = (s.heap i).addr) ∧
    (∀ i, i ∉ ps.flatMap visited → s'.heap i = s.heap i) ∧
    (∀ k, k ∉ ps.map (fun p => kubernetesName p.name) → get k s'.files = get k s.files) ∧
    ∀ p ∈ ps, PodDone s.heap s'.heap p s'.files := by
  intro ps
  induction ps with
  | nil =>
    intro s s' _ _ _ _ hg
    simp only [generatePods, Outcome.ok.injEq] at hg
    subst hg
    simp [putAll]
  | cons p ps ih =>
    intro s s' hn ho hp2 h16 hg
    simp only [List.map_cons, List.nodup_cons] at hn
    rw [List.flatMap_cons, List.nodup_append] at ho
    obtain ⟨ho1, ho2, ho3⟩ := ho
    rw [generatePods] at hg
    cases hp : generatePod p s.heap with
    | error => simp [hp] at hg
    | diverges => simp [hp] at hg
    | ok r =>
      obtain ⟨pod, h1⟩ := r
      simp only [hp] at hg
      -- the first pod
      rw [generatePod] at hp
      cases hw : Workspace.empty.run p.ops with
      | none => simp [hw] at hp
      | some w =>
        simp only [hw, processArgNodes] at hp
        cases ha : assignPorts s.heap (visited p) with
        | error => rw [visited] at ha; simp [ha] at hp
        | diverges => rw [visited] at ha; simp [ha] at hp
        | ok r =>
          obtain ⟨hp', asg⟩ := r
          have ha' := ha
          rw [visited] at ha'
          simp only [ha'] at hp
          cases hl : secondLoop hp' asg (localAddresses hp' [] (visited p)) w.file [] p.o2 with
          | none => have hl' := hl; rw [visited] at hl'; simp [hl'] at hp
          | some r =>
            obtain ⟨f, ds⟩ := r
            have hl' := hl
            rw [visited] at hl'
            simp only [hl', Outcome.ok.injEq, Prod.mk.injEq] at hp
            obtain ⟨rfl, rfl⟩ := hp
            have hA := assignPorts_spec _ _ _ _ ho1 h16 ha
            have hD := declared _ _ hw
            have hnd : (p.o2.map fun a => cleanName a.1).Nodup := by
              have := hD.names
              rw [hD.args] at this
              exact (((hp2 p (by simp)).map _).nodup_iff).2 this
            have hds := (secondLoop_spec _ _ _ _ _ _ _ _ hnd hl).1
            have h16' : Ports16 hp' := by
              intro i
              by_cases hi : i ∈ visited p
              · have := hA.bits i hi
                omega
              · rw [hA.others i hi]; exact h16 i
            obtain ⟨g1, g2, g3, g4, g5, g6⟩ := ih _ _ hn.2 ho2 (fun q hq => hp2 q (by simp [hq])) h16' hg
            simp only at g1 g2 g3 g4 g5 g6
            refine ⟨?_, ?_, ?_, ?_, ?_, ?_⟩
            · rw [g1, noteBinds_eq, List.flatMap_cons, putAll_append]
              have e1 : (visited p).map (fun i => ((hp' i).addr, (kubernetesName p.name, i))) =
                  (visited p).map fun i => ((s.heap i).addr, (kubernetesName p.name, i)) :=
                List.map_congr_left fun i _ => by rw [(hA.same i).2]
              have e2 : (ps.flatMap fun q => (visited q).map fun i =>
                  ((hp' i).addr, (kubernetesName q.name, i))) =
                  ps.flatMap fun q => (visited q).map fun i =>
                  ((s.heap i).addr, (kubernetesName q.name, i)) := by
                congr 1
                funext q
                exact List.map_congr_left fun i _ => by rw [(hA.same i).2]
              rw [e2]
              show putAll _ (putAll ((visited p).map _) _) = _
              rw [e1]
            · rw [g2, hds]
              simp
            · intro i
              rw [(g3 i).1, (g3 i).2]
              exact hA.same i
            · intro i hi
              simp only [List.flatMap_cons, List.mem_append, not_or] at hi
              rw [g4 i hi.2, hA.others i hi.1]
            · intro k hk
              simp only [List.map_cons, List.mem_cons, not_or] at hk
              rw [g5 k hk.2, get_put, if_neg hk.1]
            · intro q hq
              rcases List.mem_cons.1 hq with rfl | hq
              · refine ⟨w, hp', asg, f, ds, hw, ⟨fun i _ => hA.same i, hA.preset, fun i hi => ?_,
                  hA.distinct, fun i hi => (hA.bits i hi).1⟩, fun i hi => ?_, hl, ?_⟩
                · rw [hA.asg]; exact ⟨fun h => h.2, fun h => ⟨hi, h⟩⟩
                · exact g4 i fun hi' => ho3 i hi i hi' rfl
                · rw [g5 _ hn.1, get_put, if_pos rfl]
              · obtain ⟨w', hq', asg', f', ds', k1, k2, k3, k4, k5⟩ := g6 q hq
                have hout : ∀ i ∈ visited q, hp' i = s.heap i := fun i hi =>
                  hA.others i fun hi' => ho3 i hi' i (List.mem_flatMap.2 ⟨q, hq, hi⟩) rfl
                refine ⟨w', hq', asg', f', ds', k1, ⟨?_, ?_, ?_, k2.distinct, k2.bits⟩, k3, k4, k5⟩
                · intro i hi; rw [← hout i hi]; exact k2.same i hi
                · intro i hi; rw [← hout i hi]; exact k2.preset i hi
                · intro i hi; rw [← hout i hi]; exact k2.asg i hi

/-! ### The variables of a container -/

theorem env_get (i : Inst) (h1 : (i.config.map (·.1)).Nodup) (h2 : (i.configMap.map (·.1)).Nodup)
    (hne : i.config ≠ []) (x : Str) :
    get x i.env.reverse =
      if x ∈ i.configMap.map (·.1) then some (.configMapKeyRef x)
      else (get x i.config).map .value := by
  rw [Inst.env, if_neg (by simpa using hne), List.reverse_append, get_append]
  have hm : get x ((i.configMap.map fun e => ((e.1, .configMapKeyRef e.1) : Str × EnvSource)).reverse) =
      (get x i.configMap).map fun _ => .configMapKeyRef x := by
    rw [get_reverse (by rw [List.map_map]; exact h2)]
    exact get_map_snd x (fun k _ => EnvSource.configMapKeyRef k) i.configMap
  have hc : get x ((i.config.map fun e => ((e.1, .value e.2) : Str × EnvSource)).reverse) =
      (get x i.config).map .value := by
    rw [get_reverse (by rw [List.map_map]; exact h1)]
    exact get_map_snd x (fun _ v => EnvSource.value v) i.config
  rw [hm, hc]
  by_cases hx : x ∈ i.configMap.map (·.1)
  · rw [if_pos hx]
    cases hg : get x i.configMap with
    | none => exact absurd hx ((get_none _ _).1 hg)
    | some v => rfl
  · rw [if_neg hx, (get_none _ _).2 hx]
    rfl

theorem mem_localWrites (loc : List (Str × Nat)) (args : List Arg) (e : Str × Value) :
    e ∈ localWrites loc args ↔ ∃ key addr port, .dial key addr ∈ args ∧ get addr loc = some port ∧
      e = (envVar key, .localhost port) := by
  induction args with
  | nil => simp [localWrites]
  | cons a args ih =>
    cases a with
    | dial key addr =>
      rw [localWrites]
      cases hg : get addr loc with
      | none =>
        simp only [ih, List.mem_cons]
        constructor
        · rintro ⟨k, a, p, h1, h2⟩; exact ⟨k, a, p, .inr h1, h2⟩
        · rintro ⟨k, a, p, h1 | h1, h2, h3⟩
          · cases h1; rw [hg] at h2; cases h2
          · exact ⟨k, a, p, h1, h2, h3⟩
      | some port =>
        simp only [List.mem_cons, ih]
        constructor
        · rintro (rfl | ⟨k, a, p, h1, h2⟩)
          · exact ⟨key, addr, port, .inl rfl, hg, rfl⟩
          · exact ⟨k, a, p, .inr h1, h2⟩
        · rintro ⟨k, a, p, h1 | h1, h2, h3⟩
          · cases h1; rw [hg] at h2; cases h2; exact .inl h3
          · exact .inr ⟨k, a, p, h1, h2, h3⟩
    | _ => simp [localWrites, ih]

theorem mem_mapWrites (loc : List (Str × Nat)) (args : List Arg) (x : Str) :
    x ∈ (mapWrites loc args).map (·.1) ↔ ∃ key addr, .dial key addr ∈ args ∧ get addr loc = none ∧
      x = envVar key := by
  induction args with
  | nil => simp [mapWrites]
  | cons a args ih =>
    cases a with
    | dial key addr =>
      rw [mapWrites]
      cases hg : get addr loc with
      | some port =>
        simp only [ih, List.mem_cons]
        constructor
        · rintro ⟨k, a, h1, h2⟩; exact ⟨k, a, .inr h1, h2⟩
        · rintro ⟨k, a, h1 | h1, h2, h3⟩
          · cases h1; rw [hg] at h2; cases h2
          · exact ⟨k, a, h1, h2, h3⟩
      | none =>
        simp only [List.map_cons, List.mem_cons, ih]
        constructor
        · rintro (rfl | ⟨k, a, h1, h2⟩)
          · exact ⟨key, addr, .inl rfl, hg, rfl⟩
          · exact ⟨k, a, .inr h1, h2⟩
        · rintro ⟨k, a, h1 | h1, h2, h3⟩
          · cases h1; exact .inl h3
          · exact .inr ⟨k, a, h1, h2, h3⟩
    | _ => simp [mapWrites, ih]

theorem mem_listenWrites (h : Heap) (asg ids : List Nat) (e : Str × Value) :
    e ∈ listenWrites h asg ids ↔ ∃ i ∈ ids, i ∈ asg ∧ e = (envVar (h i).key, .listen (h i).port) := by
  simp only [listenWrites, List.mem_map, List.mem_filter, decide_eq_true_eq]
  constructor
  · rintro ⟨i, ⟨h1, h2⟩, rfl⟩; exact ⟨i, h1, h2, rfl⟩
  · rintro ⟨i, h1, h2, rfl⟩; exact ⟨i, ⟨h1, h2⟩, rfl⟩

theorem putAll_keys {α : Type} (ws : List (Str × α)) (x : Str) : ∀ m : List (Str × α),
    x ∈ (putAll ws m).map (·.1) ↔ x ∈ ws.map (·.1) ∨ x ∈ m.map (·.1) := by
  induction ws with
  | nil => intro m; simp [putAll]
  | cons e ws ih =>
    intro m
    have e' : putAll (e :: ws) m = putAll ws (put e.1 e.2 m) := rfl
    rw [e', ih, put_keys]
    simp only [List.map_cons, List.mem_cons]
    split
    · rename_i hm
      constructor
      · rintro (h | h)
        · exact .inl (.inr h)
        · exact .inr h
      · rintro ((rfl | h) | h)
        · exact .inr hm
        · exact .inl h
        · exact .inr h
    · simp only [List.mem_append, List.mem_singleton]
      constructor
      · rintro (h | h | h)
        · exact .inl (.inr h)
        · exact .inr h
        · exact .inl (.inl h)
      · rintro ((h | h) | h)
        · exact .inr (.inr h)
        · exact .inl h
        · exact .inr (.inl h)

/-! ### The finished application -/

/-- A finished container: `P` are the ports of the servers, `loc` the addresses of the pod. -/
structure Done (h : Heap) (P : Nat → Nat) (loc : List (Str × Nat)) (p : PodIn) (n : Str)
    (args : List Arg) (c : Inst) : Prop where
  ports : c.ports = putAll ((bindIds args).map fun i => ((h i).addr, P i)) []
  writes : ∃ i0 : List (Str × Value), ∃ ws, c.config = putAll ws i0 ∧
    (∀ e, e ∈ ws ↔
      (∃ i, .bind i ∈ args ∧ (h i).port = 0 ∧ e = (envVar (h i).key, .listen (P i))) ∨
      (∃ key addr port, .dial key addr ∈ args ∧ get addr loc = some port ∧
        e = (envVar key, .localhost port))) ∧
    (∀ m k t, .setEnv m k t ∈ p.ops → cleanName m = cleanName n → i0 ≠ []) ∧
    ∃ w i, Workspace.empty.run p.ops = some w ∧ get (cleanName n) w.file = some i ∧ i0 = i.config
  configMap : ∀ x, x ∈ c.configMap.map (·.1) ↔
    ∃ key addr, .dial key addr ∈ args ∧ get addr loc = none ∧ x = envVar key
  nodup1 : (c.config.map (·.1)).Nodup
  nodup2 : (c.configMap.map (·.1)).Nodup
  check : checkConfigs args = true

theorem Generated.pods_done {pods : List PodIn} {h : Heap} {out : Output} (g : Generated pods h out) :
    ∃ (P : Nat → Nat) (addrs : List (Str × (Str × Nat))) (loc : PodIn → List (Str × Nat)),
      addrs = putAll (pods.flatMap fun p => (visited p).map fun i =>
        ((h i).addr, (kubernetesName p.name, i))) [] ∧
      (∀ p ∈ pods, ∀ c ∈ containers p.ops, ∀ key addr, .dial key addr ∈ c.2 →
        (∃ pod i, get addr addrs = some (pod, i)) ∧ get (envVar key) out.data ≠ none) ∧
      (∀ x v, get x out.data = some v → ∃ p ∈ pods, ∃ c ∈ containers p.ops, ∃ key addr,
        .dial key addr ∈ c.2 ∧ envVar key = x ∧ ∃ pod i, get addr addrs = some (pod, i) ∧ v = (pod, P i)) ∧
      ∀ p ∈ pods, loc p = putAll ((visited p).map fun i => ((h i).addr, P i)) [] ∧
        (∀ i ∈ visited p, ((h i).port ≠ 0 → P i = (h i).port) ∧ P i < 65536) ∧
        (∀ i ∈ visited p, ∀ j ∈ visited p, P i = P j → i = j) ∧
        ∃ f, get (kubernetesName p.name) out.files = some f ∧
          f.map (·.1) = (containers p.ops).map (fun a => cleanName a.1) ∧
          ((containers p.ops).map fun a => cleanName a.1).Nodup ∧
          ∀ n args, (n, args) ∈ containers p.ops → ∃ c, get (cleanName n) f = some c ∧
            Done h P (loc p) p n args c := by
  have hd := g.done
  rw [generateArtifacts] at hd
  cases hg : generatePods ⟨[], [], h, []⟩ pods with
  | error => simp [hg] at hd
  | diverges => simp [hg] at hd
  | ok s =>
    simp only [hg] at hd
    cases hc : configData s.addrs s.heap [] s.dials with
    | none => simp [hc] at hd
    | some data =>
      simp only [hc, Outcome.ok.injEq] at hd
      subst hd
      have hobj : (pods.flatMap visited).Nodup := by
        have hperm : ∀ ps : List PodIn, (∀ p ∈ ps, p.o1.Perm (containers p.ops)) →
            (ps.flatMap visited).Perm (ps.flatMap servers) := by
          intro ps
          induction ps with
          | nil => intro _; exact .refl _
          | cons p ps ih =>
            intro hp
            rw [List.flatMap_cons, List.flatMap_cons]
            exact ((hp p (by simp)).flatMap_right _).append (ih fun q hq => hp q (by simp [hq]))
        exact (hperm pods g.perm1).nodup_iff.2 g.objects
      obtain ⟨s1, s2, s3, s4, s5, s6⟩ := generatePods_spec pods _ s g.names hobj g.perm2 g.bits hg
      simp only [List.nil_append] at s1 s2
      obtain ⟨c1, c2, c3⟩ := configData_spec _ _ _ _ _ hc
      have hdial : ∀ d, d ∈ s.dials ↔ ∃ p ∈ pods, ∃ c ∈ containers p.ops, .dial d.1 d.2 ∈ c.2 := by
        intro d
        rw [s2]
        simp only [List.mem_flatMap]
        constructor
        · rintro ⟨p, hp, a, ha, hm⟩
          refine ⟨p, hp, a, (g.perm2 p hp).mem_iff.1 ha, ?_⟩
          simp only [dialsOf, List.mem_filterMap] at hm
          obtain ⟨b, hb, hbe⟩ := hm
          cases b <;> simp at hbe
          subst hbe; exact hb
        · rintro ⟨p, hp, a, ha, hm⟩
          refine ⟨p, hp, a, (g.perm2 p hp).mem_iff.2 ha, ?_⟩
          simp only [dialsOf, List.mem_filterMap]
          exact ⟨_, hm, rfl⟩
      refine ⟨fun i => (s.heap i).port, s.addrs, fun p =>
        putAll ((visited p).map fun i => ((h i).addr, (s.heap i).port)) [], s1,
        ?_, ?_, ?_⟩
      · intro p hp c hc' key addr hm
        have := (hdial (key, addr)).2 ⟨p, hp, c, hc', hm⟩
        exact ⟨c1 _ this, c2 _ this⟩
      · intro x v hx
        rcases c3 x v hx with h0 | ⟨d, hd, h1, pod, i, h2, h3⟩
        · simp [get] at h0
        · obtain ⟨p, hp, c, hc', hm⟩ := (hdial d).1 hd
          exact ⟨p, hp, c, hc', d.1, d.2, hm, h1, pod, i, h2, h3⟩
      · intro p hp
        obtain ⟨w, hq, asg, f, ds, k1, k2, k3, k4, k5⟩ := s6 p hp
        have hD := declared _ _ k1
        have hnd : ((containers p.ops).map fun a => cleanName a.1).Nodup := hD.args ▸ hD.names
        have hnd2 : (p.o2.map fun a => cleanName a.1).Nodup :=
          (((g.perm2 p hp).map _).nodup_iff).2 hnd
        obtain ⟨-, l2, l3, l4, -⟩ := secondLoop_spec _ _ _ _ _ _ _ _ hnd2 k4
        have hvis : ∀ a ∈ containers p.ops, ∀ i ∈ bindIds a.2, i ∈ visited p := by
          intro a ha i hi
          exact List.mem_flatMap.2 ⟨a, (g.perm1 p hp).mem_iff.2 ha, hi⟩
        have hloc : localAddresses hq [] (visited p) =
            putAll ((visited p).map fun i => ((h i).addr, (s.heap i).port)) [] := by
          rw [localAddresses_eq, portWrites]
          congr 1
          exact List.map_congr_left fun i hi => by rw [k3 i hi, (k2.same i hi).2]
        refine ⟨rfl, ?_, ?_, f, k5, ?_, hnd, ?_⟩
        · intro i hi
          simp only [k3 i hi]
          exact ⟨k2.preset i hi, k2.bits i hi⟩
        · intro i hi j hj hij
          simp only [k3 i hi, k3 j hj] at hij
          exact k2.distinct i hi j hj hij
        · rw [l2, hD.keys, hD.args]
        · intro n args ha
          have hin : cleanName n ∈ w.file.map (·.1) := by
            rw [hD.keys, hD.args]
            exact List.mem_map.2 ⟨_, ha, rfl⟩
          cases hi0 : get (cleanName n) w.file with
          | none => exact absurd hin ((get_none _ _).1 hi0)
          | some i0 =>
            obtain ⟨d1, d2, d3, d4, d5⟩ := hD.plain _ _ hi0
            have ha2 := (g.perm2 p hp).mem_iff.2 ha
            have hl := l4 _ ha2
            rw [hi0, hloc] at hl
            simp only [Option.map_some] at hl
            refine ⟨_, hl, ⟨?_, ⟨i0.config, _, rfl, ?_, ?_, w, i0, k1, hi0, rfl⟩, ?_, putAll_nodup d3, ?_,
              l3 _ ha2⟩⟩
            · show putAll (portWrites hq (bindIds args)) i0.ports = _
              rw [d1, portWrites]
              congr 1
              exact List.map_congr_left fun i hi => by
                rw [k3 i (hvis _ ha i hi), (k2.same i (hvis _ ha i hi)).2]
            · intro e
              rw [List.mem_append, mem_listenWrites, mem_localWrites]
              have : (∃ i ∈ bindIds args, i ∈ asg ∧ e = (envVar (hq i).key, .listen (hq i).port)) ↔
                  ∃ i, .bind i ∈ args ∧ (h i).port = 0 ∧
                    e = (envVar (h i).key, .listen (s.heap i).port) := by
                constructor
                · rintro ⟨i, hi, hia, he⟩
                  have hv := hvis _ ha i hi
                  refine ⟨i, (mem_bindIds _ _).1 hi, (k2.asg i hv).1 hia, ?_⟩
                  rw [k3 i hv, he, (k2.same i hv).1]
                · rintro ⟨i, hi, hia, he⟩
                  have hi' := (mem_bindIds _ _).2 hi
                  have hv := hvis _ ha i hi'
                  refine ⟨i, hi', (k2.asg i hv).2 hia, ?_⟩
                  rw [he, k3 i hv, (k2.same i hv).1]
              rw [this]
            · intro m k t hm hmn he
              have := d5 m k t hm hmn
              rw [he] at this
              simp [get] at this
            · intro x
              show x ∈ (putAll (mapWrites _ args) i0.configMap).map (·.1) ↔ _
              rw [putAll_keys, d2, mem_mapWrites]
              simp
            · show ((putAll (mapWrites _ args) i0.configMap).map (·.1)).Nodup
              rw [d2]
              exact putAll_nodup (by simp)

/-- How a value is seen. -/
def valueSeen : Value → Seen
  | .lit s => .lit s
  | .listen p => .listen p
  | .localhost p => .addr "localhost".toList p

theorem seen_eq {out : Output} {pod container : Str} {f : File} {c : Inst}
    (hf : get pod out.files = some f) (hc : get container f = some c)
    (h1 : (c.config.map (·.1)).Nodup) (h2 : (c.configMap.map (·.1)).Nodup) (hne : c.config ≠ [])
    (x : Str) : seen out pod container x =
      if x ∈ c.configMap.map (·.1) then (get x out.data).map (fun v => .addr v.1 v.2)
      else (get x c.config).map valueSeen := by
  simp only [seen, hf, hc, env_get c h1 h2 hne]
  by_cases hx : x ∈ c.configMap.map (·.1)
  · simp only [if_pos hx]
  · simp only [if_neg hx]
    cases get x c.config with
    | none => rfl
    | some v => cases v <;> rfl

theorem Done.seen_write {h : Heap} {P : Nat → Nat} {loc : List (Str × Nat)} {p : PodIn} {n : Str}
    {args : List Arg} {c : Inst} (d : Done h P loc p n args c) {out : Output} {pod : Str} {f : File}
    (hf : get pod out.files = some f) (hc : get (cleanName n) f = some c) (hnc : NoClash h args)
    {x : Str} {v : Value}
    (hw : (∃ i, .bind i ∈ args ∧ (h i).port = 0 ∧ (x, v) = (envVar (h i).key, .listen (P i))) ∨
      (∃ key addr port, .dial key addr ∈ args ∧ get addr loc = some port ∧
        (x, v) = (envVar key, .localhost port))) :
    seen out pod (cleanName n) x = some (valueSeen v) := by
  obtain ⟨i0, ws, e, hws, -⟩ := d.writes
  have hmem : (x, v) ∈ ws := (hws _).2 hw
  have hne : c.config ≠ [] := by
    rw [e]
    exact putAll_ne_nil (.inl fun h => by rw [h] at hmem; cases hmem)
  -- the argument that is configured by the variable
  have harg : ∃ a ∈ args, ∃ k, argKey h a = some k ∧ x = envVar k ∧
      (∀ key addr, a = .dial key addr → get addr loc ≠ none) := by
    rcases hw with ⟨i, hi, -, he⟩ | ⟨key, addr, port, hi, hl, he⟩
    · exact ⟨_, hi, _, rfl, congrArg Prod.fst he, by simp⟩
    · refine ⟨_, hi, _, rfl, congrArg Prod.fst he, ?_⟩
      intro k' a' e'
      cases e'
      simp [hl]
  obtain ⟨a, ha, k, hk, hx, hloc⟩ := harg
  rw [seen_eq hf hc d.nodup1 d.nodup2 hne, if_neg]
  · rw [e, get_putAll_of_mem hmem]
    · rfl
    · intro u hu
      rcases (hws _).1 hu with ⟨i, hi, -, he⟩ | ⟨key, addr, port, hi, hl, he⟩
      · obtain ⟨he1, rfl⟩ := Prod.mk.inj he
        have := hnc _ hi a ha _ k rfl hk (by rw [← he1, hx])
        subst this
        rcases hw with ⟨j, hj, -, he'⟩ | ⟨key, addr, port, hj, -, he'⟩
        · obtain ⟨he2, rfl⟩ := Prod.mk.inj he'
          have := hnc _ hi _ hj _ _ rfl rfl (by rw [← he1, ← he2])
          cases this; rfl
        · obtain ⟨he2, rfl⟩ := Prod.mk.inj he'
          have := hnc _ hi _ hj _ _ rfl rfl (by rw [← he1, ← he2])
          cases this
      · obtain ⟨he1, rfl⟩ := Prod.mk.inj he
        rcases hw with ⟨j, hj, -, he'⟩ | ⟨key', addr', port', hj, hl', he'⟩
        · obtain ⟨he2, rfl⟩ := Prod.mk.inj he'
          have := hnc _ hi _ hj _ _ rfl rfl (by rw [← he1, ← he2])
          cases this
        · obtain ⟨he2, rfl⟩ := Prod.mk.inj he'
          have := hnc _ hi _ hj _ _ rfl rfl (by rw [← he1, ← he2])
          cases this
          rw [hl] at hl'
          cases hl'; rfl
  · intro hin
    obtain ⟨key, addr, hd, hl, he⟩ := (d.configMap x).1 hin
    have := hnc _ hd a ha key k rfl hk (by rw [← he, hx])
    subst this
    exact hloc _ _ rfl hl

theorem mem_visited {p : PodIn} (hp : p.o1.Perm (containers p.ops)) (i : Nat) :
    i ∈ visited p ↔ ∃ c ∈ containers p.ops, .bind i ∈ c.2 := by
  unfold visited
  rw [List.mem_flatMap]
  constructor
  · rintro ⟨a, ha, hi⟩; exact ⟨a, hp.mem_iff.1 ha, (mem_bindIds _ _).1 hi⟩
  · rintro ⟨a, ha, hi⟩; exact ⟨a, hp.mem_iff.2 ha, (mem_bindIds _ _).2 hi⟩

theorem Done.serves {h : Heap} {P : Nat → Nat} {loc : List (Str × Nat)} {p : PodIn} {n : Str}
    {args : List Arg} {c : Inst} (d : Done h P loc p n args c) {out : Output} {f : File}
    (hf : get (kubernetesName p.name) out.files = some f) (hc : get (cleanName n) f = some c)
    (hnc : NoClash h args)
    (hone : ∀ i j, .bind i ∈ args → .bind j ∈ args → (h i).addr = (h j).addr → i = j)
    {i : Nat} (hi : .bind i ∈ args) (hP : (h i).port ≠ 0 → P i = (h i).port) :
    Serves out h p.name n i (P i) := by
  have hport : ((h i).addr, P i) ∈ c.ports := by
    refine get_mem ?_
    rw [d.ports]
    refine get_putAll_of_mem (List.mem_map.2 ⟨i, (mem_bindIds _ _).2 hi, rfl⟩) ?_
    intro u hu
    obtain ⟨j, hj, he⟩ := List.mem_map.1 hu
    obtain ⟨he1, rfl⟩ := Prod.mk.inj he
    rw [hone j i ((mem_bindIds _ _).1 hj) hi he1]
  refine ⟨hP, fun hz => ?_, f, c, hf, hc, List.mem_map.2 ⟨_, hport, rfl⟩, ?_⟩
  · exact d.seen_write hf hc hnc (v := .listen (P i)) (.inl ⟨i, hi, hz, rfl⟩)
  · unfold servicePorts
    exact List.mem_flatMap.2 ⟨_, get_mem hc, List.mem_map.2 ⟨_, hport, rfl⟩⟩

/-- C62: every server of a pod has a port that no other server of the pod has; its container
is told to listen on it (unless the port was fixed in advance), and the container and the
pod's service publish it. -/
theorem C62_servers {pods : List PodIn} {h : Heap} {out : Output} (g : Generated pods h out)
    (p : PodIn) (hp : p ∈ pods) (hnc : ∀ c ∈ containers p.ops, NoClash h c.2)
    (hone : OncePerContainer h p) :
    ∃ P : Nat → Nat,
      (∀ c ∈ containers p.ops, ∀ i, .bind i ∈ c.2 → Serves out h p.name c.1 i (P i) ∧ P i < 65536) ∧
      ∀ i ∈ servers p, ∀ j ∈ servers p, P i = P j → i = j := by
  obtain ⟨P, addrs, loc, -, -, -, hpods⟩ := g.pods_done
  obtain ⟨-, h2, h3, f, hf, -, -, hcon⟩ := hpods p hp
  have hv := mem_visited (g.perm1 p hp)
  have hs : ∀ i, i ∈ servers p → i ∈ visited p := by
    intro i hi
    obtain ⟨a, ha, hi⟩ := List.mem_flatMap.1 hi
    exact (hv i).2 ⟨a, ha, (mem_bindIds _ _).1 hi⟩
  refine ⟨P, fun c hc i hi => ?_, fun i hi j hj => h3 i (hs i hi) j (hs j hj)⟩
  obtain ⟨ci, hci, d⟩ := hcon c.1 c.2 hc
  have hvi := (hv i).2 ⟨c, hc, hi⟩
  exact ⟨d.serves hf hci (hnc c hc) (hone c hc) hi (h2 i hvi).1, (h2 i hvi).2⟩

/-- C62: a container that dials a server of its own pod is given localhost and that server's
port. -/
theorem C62_local_dial {pods : List PodIn} {h : Heap} {out : Output} (g : Generated pods h out)
    (p : PodIn) (hp : p ∈ pods) (hnc : ∀ c ∈ containers p.ops, NoClash h c.2)
    (hone : OncePerContainer h p) (c : Str × List Arg) (hc : c ∈ containers p.ops) (key addr : Str)
    (hd : .dial key addr ∈ c.2)
    (hlocal : ∃ b ∈ containers p.ops, ∃ i, .bind i ∈ b.2 ∧ (h i).addr = addr) :
    ∃ b ∈ containers p.ops, ∃ i port, .bind i ∈ b.2 ∧ (h i).addr = addr ∧
      Serves out h p.name b.1 i port ∧
      seen out (kubernetesName p.name) (cleanName c.1) (envVar key) =
        some (.addr "localhost".toList port) := by
  obtain ⟨P, addrs, loc, -, -, -, hpods⟩ := g.pods_done
  obtain ⟨h1, h2, h3, f, hf, -, -, hcon⟩ := hpods p hp
  have hv := mem_visited (g.perm1 p hp)
  obtain ⟨b0, hb0, i0, hi0, ha0⟩ := hlocal
  rcases get_putAll ((visited p).map fun i => ((h i).addr, P i)) addr [] with ⟨-, hno⟩ | ⟨port, hm, hget⟩
  · exact absurd (List.mem_map.2 ⟨((h i0).addr, P i0),
      List.mem_map.2 ⟨i0, (hv i0).2 ⟨b0, hb0, hi0⟩, rfl⟩, ha0⟩) hno
  · obtain ⟨i, hi, he⟩ := List.mem_map.1 hm
    obtain ⟨he1, rfl⟩ := Prod.mk.inj he
    obtain ⟨b, hb, hib⟩ := (hv i).1 hi
    obtain ⟨bi, hbi, db⟩ := hcon b.1 b.2 hb
    obtain ⟨ci, hci, d⟩ := hcon c.1 c.2 hc
    refine ⟨b, hb, i, P i, hib, he1, db.serves hf hbi (hnc b hb) (hone b hb) hib (h2 i hi).1, ?_⟩
    rw [← h1] at hget
    exact d.seen_write hf hci (hnc c hc) (v := .localhost (P i)) (.inr ⟨key, addr, P i, hd, hget, rfl⟩)

/-- Dials that are configured by the same variable have the same address, in all pods. -/
def NoDialClash (pods : List PodIn) : Prop :=
  ∀ p ∈ pods, ∀ q ∈ pods, ∀ c ∈ containers p.ops, ∀ d ∈ containers q.ops, ∀ k l a b,
    .dial k a ∈ c.2 → .dial l b ∈ d.2 → envVar k = envVar l → a = b

/-- C62, in part: a container that dials a server of another pod is given that pod's service
name and that server's port.  Missing: containers that have no variable of their own (no
server without a fixed port, no dial of a server of the same pod, and none set by a plugin);
for these the claim is false, see C62_no_env_refuted. -/
theorem C62_remote_dial_partial {pods : List PodIn} {h : Heap} {out : Output}
    (g : Generated pods h out) (hnc : ∀ p ∈ pods, ∀ c ∈ containers p.ops, NoClash h c.2)
    (hdc : NoDialClash pods) (hone : ∀ p ∈ pods, OncePerContainer h p)
    (p : PodIn) (hp : p ∈ pods) (c : Str × List Arg) (hc : c ∈ containers p.ops) (key addr : Str)
    (hd : .dial key addr ∈ c.2)
    (hremote : ∀ b ∈ containers p.ops, ∀ i, .bind i ∈ b.2 → (h i).addr ≠ addr)
    (hown : (∃ i, .bind i ∈ c.2 ∧ (h i).port = 0) ∨
      (∃ key' addr', .dial key' addr' ∈ c.2 ∧
        ∃ b ∈ containers p.ops, ∃ i, .bind i ∈ b.2 ∧ (h i).addr = addr') ∨
      ∃ n k t, .setEnv n k t ∈ p.ops ∧ cleanName n = cleanName c.1) :
    ∃ q ∈ pods, ∃ b ∈ containers q.ops, ∃ i port, .bind i ∈ b.2 ∧ (h i).addr = addr ∧
      Serves out h q.name b.1 i port ∧
      seen out (kubernetesName p.name) (cleanName c.1) (envVar key) =
        some (.addr (kubernetesName q.name) port) := by
  obtain ⟨P, addrs, loc, haddrs, hdials, hdata, hpods⟩ := g.pods_done
  obtain ⟨h1, h2, h3, f, hf, -, -, hcon⟩ := hpods p hp
  have hv := mem_visited (g.perm1 p hp)
  obtain ⟨ci, hci, d⟩ := hcon c.1 c.2 hc
  obtain ⟨⟨pod, i, hget⟩, hne⟩ := hdials p hp c hc key addr hd
  -- the server
  have hserver : ∀ pod i, get addr addrs = some (pod, i) → ∃ q ∈ pods, pod = kubernetesName q.name ∧
      i ∈ visited q ∧ (h i).addr = addr := by
    intro pod i hget
    rw [haddrs] at hget
    rcases get_putAll (pods.flatMap fun p => (visited p).map fun i =>
        ((h i).addr, (kubernetesName p.name, i))) addr [] with ⟨h0, -⟩ | ⟨v, hm, hg⟩
    · rw [hget] at h0; simp [get] at h0
    · rw [hget] at hg
      cases hg
      obtain ⟨q, hq, hm⟩ := List.mem_flatMap.1 hm
      obtain ⟨j, hj, he⟩ := List.mem_map.1 hm
      simp only [Prod.mk.injEq] at he
      obtain ⟨e1, e2, rfl⟩ := he
      exact ⟨q, hq, e2.symm, hj, e1⟩
  -- the variable in the config map
  have hloc : get addr (loc p) = none := by
    rw [h1, get_none, putAll_keys]
    rintro (hin | hin)
    · obtain ⟨e, he, hea⟩ := List.mem_map.1 hin
      obtain ⟨j, hj, rfl⟩ := List.mem_map.1 he
      obtain ⟨b, hb, hjb⟩ := (hv j).1 hj
      exact hremote b hb j hjb hea
    · simp at hin
  have hin : envVar key ∈ ci.configMap.map (·.1) := (d.configMap _).2 ⟨key, addr, hd, hloc, rfl⟩
  -- the container has variables
  have hcfg : ci.config ≠ [] := by
    obtain ⟨i0, ws, e, hws, hset, -⟩ := d.writes
    rw [e]
    rcases hown with ⟨j, hj, hz⟩ | ⟨k', a', hd', b, hb, j, hj, hja⟩ | ⟨n, k, t, hm, hn⟩
    · exact putAll_ne_nil (.inl fun he => by
        have := (hws _).2 (.inl ⟨j, hj, hz, rfl⟩)
        rw [he] at this; cases this)
    · have : ∃ port, get a' (loc p) = some port := by
        cases hg : get a' (loc p) with
        | some port => exact ⟨port, rfl⟩
        | none =>
          rw [h1, get_none, putAll_keys] at hg
          exact absurd (.inl (List.mem_map.2 ⟨((h j).addr, P j),
            List.mem_map.2 ⟨j, (hv j).2 ⟨b, hb, hj⟩, rfl⟩, hja⟩)) hg
      obtain ⟨port, hport⟩ := this
      exact putAll_ne_nil (.inl fun he => by
        have := (hws _).2 (.inr ⟨k', a', port, hd', hport, rfl⟩)
        rw [he] at this; cases this)
    · exact putAll_ne_nil (.inr (hset n k t hm hn))
  cases hv' : get (envVar key) out.data with
  | none => exact absurd hv' hne
  | some v =>
    obtain ⟨p', hp', c', hc', k', a', hd', hk', pod', i', hget', rfl⟩ := hdata _ _ hv'
    have hae : a' = addr := hdc p' hp' p hp c' hc' c hc k' key a' addr hd' hd hk'
    subst hae
    obtain ⟨q, hq, rfl, hi', ha'⟩ := hserver pod' i' hget'
    obtain ⟨-, q2, -, fq, hfq, -, -, hconq⟩ := hpods q hq
    obtain ⟨b, hb, hib⟩ := (mem_visited (g.perm1 q hq) i').1 hi'
    obtain ⟨bi, hbi, db⟩ := hconq b.1 b.2 hb
    refine ⟨q, hq, b, hb, i', P i', hib, ha',
      db.serves hfq hbi (hnc q hq b hb) (hone q hq b hb) hib (q2 i' hi').1, ?_⟩
    rw [seen_eq hf hci d.nodup1 d.nodup2 hcfg, if_pos hin, hv']
    rfl

/-- C62: the containers in the files are the declared ones. -/
theorem C62_containers {pods : List PodIn} {h : Heap} {out : Output} (g : Generated pods h out)
    (p : PodIn) (hp : p ∈ pods) : ∃ f, get (kubernetesName p.name) out.files = some f ∧
      ∀ x, get x f ≠ none ↔ ∃ c ∈ containers p.ops, cleanName c.1 = x := by
  obtain ⟨P, addrs, loc, -, -, -, hpods⟩ := g.pods_done
  obtain ⟨-, -, -, f, hf, hk, -, -⟩ := hpods p hp
  refine ⟨f, hf, fun x => ?_⟩
  rw [ne_eq, get_none, Classical.not_not, hk, List.mem_map]

/-- C62: if the generation succeeds, every dialled address has a server in one of the pods,
and no container has an argument that is neither an address nor a configuration with a
value. -/
theorem C62_complete {pods : List PodIn} {h : Heap} {out : Output} (g : Generated pods h out)
    (p : PodIn) (hp : p ∈ pods) (c : Str × List Arg) (hc : c ∈ containers p.ops) :
    (∀ key addr, .dial key addr ∈ c.2 → ∃ q ∈ pods, ∃ b ∈ containers q.ops, ∃ i, .bind i ∈ b.2 ∧
      (h i).addr = addr) ∧
    (∀ name opt, .config name opt false ∉ c.2) ∧ .other ∉ c.2 := by
  obtain ⟨P, addrs, loc, haddrs, hdials, hdata, hpods⟩ := g.pods_done
  obtain ⟨-, -, -, f, hf, -, -, hcon⟩ := hpods p hp
  obtain ⟨ci, hci, d⟩ := hcon c.1 c.2 hc
  have hchk : ∀ args : List Arg, checkConfigs args = true →
      (∀ name opt, .config name opt false ∉ args) ∧ .other ∉ args := by
    intro args
    induction args with
    | nil => simp
    | cons a args ih =>
      intro h
      cases a with
      | config n o v =>
        simp only [checkConfigs, Bool.and_eq_true] at h
        obtain ⟨i1, i2⟩ := ih h.2
        refine ⟨fun name opt hm => ?_, by simpa using i2⟩
        rcases List.mem_cons.1 hm with hm | hm
        · cases hm; simp at h
        · exact i1 name opt hm
      | bind i => simpa using ih h
      | dial k a => simpa using ih h
      | other => simp [checkConfigs] at h
  refine ⟨fun key addr hd => ?_, hchk _ d.check⟩
  obtain ⟨⟨pod, i, hget⟩, -⟩ := hdials p hp c hc key addr hd
  rw [haddrs] at hget
  rcases get_putAll (pods.flatMap fun p => (visited p).map fun i =>
      ((h i).addr, (kubernetesName p.name, i))) addr [] with ⟨h0, -⟩ | ⟨v, hm, hg⟩
  · rw [hget] at h0; simp [get] at h0
  · obtain ⟨q, hq, hm⟩ := List.mem_flatMap.1 hm
    obtain ⟨j, hj, he⟩ := List.mem_map.1 hm
    simp only [Prod.mk.injEq] at he
    obtain ⟨b, hb, hjb⟩ := (mem_visited (g.perm1 q hq) j).1 hj
    exact ⟨q, hq, b, hb, j, hjb, he.1⟩

/-- C62: the names of pods' services, and of service ports, differ from the given ones only
in that Kubernetes' forbidden characters are replaced. -/
theorem C62_names (s : Str) :
    ((kubernetesName s).length = s.length ∧ '_' ∉ kubernetesName s ∧
      ∀ (i : Nat) c, s[i]? = some c → c ≠ '_' → (kubernetesName s)[i]? = some c) ∧
    ((templateName s).length = s.length ∧ '_' ∉ templateName s ∧ '.' ∉ templateName s ∧
      ∀ (i : Nat) c, s[i]? = some c → c ≠ '_' → c ≠ '.' → (templateName s)[i]? = some c) := by
  refine ⟨⟨by simp [kubernetesName], ?_, ?_⟩, by simp [templateName], ?_, ?_, ?_⟩
  · simp only [kubernetesName, List.mem_map, not_exists, not_and]
    intro c _ e
    split at e
    · cases e
    · exact absurd e ‹_›
  · intro i c hc hne
    simp [kubernetesName, hc, hne]
  · simp only [templateName, List.mem_map, not_exists, not_and]
    intro c _ e
    split at e
    · cases e
    · exact absurd (Or.inl e) ‹_›
  · simp only [templateName, List.mem_map, not_exists, not_and]
    intro c _ e
    split at e
    · cases e
    · exact absurd (Or.inr e) ‹_›
  · intro i c hc h1 h2
    simp [templateName, hc, h1, h2]

theorem run_append (a b : List Op) (w : Workspace) : w.run (a ++ b) = (w.run a).bind (·.run b) := by
  induction a generalizing w with
  | nil => rfl
  | cons op a ih =>
    simp only [List.cons_append, Workspace.run]
    cases w.step op with
    | none => rfl
    | some w => exact ih w

theorem run_keeps (ops : List Op) (c x : Str) (v : Value)
    (hlast : ∀ n k t, .setEnv n k t ∈ ops → cleanName n = c → envVar k ≠ x) :
    ∀ (w w' : Workspace) (i : Inst), get c w.file = some i → get x i.config = some v →
      w.run ops = some w' → ∃ i', get c w'.file = some i' ∧ get x i'.config = some v := by
  induction ops with
  | nil =>
    intro w w' i hi hx hr
    simp only [Workspace.run, Option.some.injEq] at hr
    exact ⟨i, hr ▸ hi, hx⟩
  | cons op ops ih =>
    intro w w' i hi hx hr
    have ih := ih fun n k t h => hlast n k t (List.mem_cons_of_mem _ h)
    rw [Workspace.run] at hr
    cases hs : w.step op with
    | none => simp [hs] at hr
    | some w1 =>
      simp only [hs] at hr
      cases op with
      | declare name args =>
        simp only [Workspace.step] at hs
        cases hf : get (cleanName name) w.file with
        | some j => simp [hf] at hs
        | none =>
          simp only [hf, Option.some.injEq] at hs
          have hne : c ≠ cleanName name := by rintro rfl; rw [hi] at hf; cases hf
          refine ih w1 w' i ?_ hx hr
          rw [← hs]
          simpa [get_put, hne] using hi
      | setEnv name key val =>
        simp only [Workspace.step] at hs
        cases hf : get (cleanName name) w.file with
        | none => simp [hf] at hs
        | some j =>
          simp only [hf, Option.some.injEq] at hs
          by_cases hc : c = cleanName name
          · have hne : x ≠ envVar key := fun e =>
              hlast name key val (by simp) hc.symm e.symm
            refine ih w1 w' { i with config := put (envVar key) (.lit val) i.config }
              ?_ (by simpa [get_put, hne] using hx) hr
            rw [← hs]
            simp [addEnvVar, get_modify, ← hc, hi]
          · refine ih w1 w' i ?_ hx hr
            rw [← hs]
            simpa [addEnvVar, get_modify, hc] using hi

/-- C62: a variable that a plugin sets for a container has the text it was last given, if no
argument of the container is configured by that variable. -/
theorem C62_set_env {pods : List PodIn} {h : Heap} {out : Output} (g : Generated pods h out)
    (p : PodIn) (hp : p ∈ pods) (pre post : List Op) (n k t : Str)
    (hops : p.ops = pre ++ .setEnv n k t :: post)
    (hlast : ∀ m l u, .setEnv m l u ∈ post → cleanName m = cleanName n → envVar l ≠ envVar k)
    (hargs : ∀ c ∈ containers p.ops, cleanName c.1 = cleanName n →
      ∀ a ∈ c.2, ∀ l, argKey h a = some l → envVar l ≠ envVar k) :
    seen out (kubernetesName p.name) (cleanName n) (envVar k) = some (.lit t) := by
  obtain ⟨P, addrs, loc, -, -, -, hpods⟩ := g.pods_done
  obtain ⟨-, -, -, f, hf, -, -, hcon⟩ := hpods p hp
  have hD : ∃ w, Workspace.empty.run p.ops = some w := by
    have hd := g.done
    apply Classical.byContradiction
    intro hno
    have hnone : Workspace.empty.run p.ops = none := by
      cases hr : Workspace.empty.run p.ops with
      | none => rfl
      | some w => exact absurd ⟨w, hr⟩ hno
    have : ∀ (ps : List PodIn) (s s' : St), p ∈ ps → generatePods s ps ≠ .ok s' := by
      intro ps
      induction ps with
      | nil => simp
      | cons q ps ih =>
        intro s s' hm hg
        rw [generatePods] at hg
        rcases List.mem_cons.1 hm with rfl | hm
        · simp [generatePod, hnone] at hg
        · cases hq : generatePod q s.heap with
          | error => simp [hq] at hg
          | diverges => simp [hq] at hg
          | ok r =>
            simp only [hq] at hg
            exact ih _ _ hm hg
    rw [generateArtifacts] at hd
    cases hg : generatePods ⟨[], [], h, []⟩ pods with
    | error => simp [hg] at hd
    | diverges => simp [hg] at hd
    | ok s => exact this _ _ _ hp hg
  obtain ⟨w, hw⟩ := hD
  have hdec := declared _ _ hw
  have hmem := hdec.set n k t (by rw [hops]; simp)
  rw [hdec.args] at hmem
  obtain ⟨c, hc, hcn⟩ := List.mem_map.1 hmem
  obtain ⟨ci, hci, d⟩ := hcon c.1 c.2 hc
  obtain ⟨i0, ws, e, hws, -, w', i, hw', hi, rfl⟩ := d.writes
  rw [hw] at hw'
  cases hw'
  -- the text in the workspace
  have hval : get (envVar k) i.config = some (.lit t) := by
    rw [hops, run_append] at hw
    cases h1 : Workspace.empty.run pre with
    | none => simp [h1] at hw
    | some w1 =>
      simp only [h1, Option.bind_some, Workspace.run, Workspace.step] at hw
      cases hf1 : get (cleanName n) w1.file with
      | none => simp [hf1] at hw
      | some j =>
        simp only [hf1] at hw
        obtain ⟨i', hi', hx'⟩ := run_keeps post (cleanName n) (envVar k) (.lit t) hlast _ w
          { j with config := put (envVar k) (.lit t) j.config }
          (by simp [addEnvVar, get_modify, hf1]) (by simp [get_put]) hw
        rw [hcn, hi'] at hi
        cases hi
        exact hx'
  have hne : ci.config ≠ [] := by
    rw [e]
    exact putAll_ne_nil (.inr fun h => by rw [h] at hval; simp [get] at hval)
  rw [← hcn, seen_eq hf hci d.nodup1 d.nodup2 hne, if_neg, e]
  · rcases get_putAll ws (envVar k) i.config with ⟨e1, -⟩ | ⟨v, hv, -⟩
    · rw [e1, hval]; rfl
    · rcases (hws _).1 hv with ⟨j, hj, -, he⟩ | ⟨key, addr, port, hj, -, he⟩
      · exact absurd (Prod.mk.inj he).1.symm (hargs c hc hcn _ hj _ rfl)
      · exact absurd (Prod.mk.inj he).1.symm (hargs c hc hcn _ hj _ rfl)
  · intro hin
    obtain ⟨key, addr, hj, -, he⟩ := (d.configMap _).1 hin
    exact absurd he.symm (hargs c hc hcn _ hj _ rfl)

/-! ### Concrete cases -/

def exHeap : Heap
  | 0 => ⟨"user.bind_addr".toList, "user.addr".toList, 0, 0⟩
  | 1 => ⟨"db.bind_addr".toList, "db.addr".toList, 27017, 0⟩
  | _ => ⟨"cart.bind_addr".toList, "cart.addr".toList, 0, 0⟩

theorem exHeap_bits : Ports16 exHeap := by
  intro i
  match i with
  | 0 => exact ⟨(by omega : 0 < 65536), (by omega : 0 < 65536)⟩
  | 1 => exact ⟨(by omega : 27017 < 65536), (by omega : 0 < 65536)⟩
  | (n + 2) => exact ⟨(by omega : 0 < 65536), (by omega : 0 < 65536)⟩

def exUser : Str × List Arg := ("user_ctr".toList,
  [.bind 0, .dial "db.dial_addr".toList "db.addr".toList, .dial "cart.dial_addr".toList "cart.addr".toList])
def exDb : Str × List Arg := ("db_ctr".toList, [.bind 1])
def exCart : Str × List Arg := ("cart_ctr".toList, [.bind 2, .config "level".toList false true])
def exFront : Str × List Arg := ("front_ctr".toList, [.dial "user.dial_addr".toList "user.addr".toList])

/-- A pod with a service and its database. -/
def exPod1 : PodIn := ⟨"user_pod".toList, [.declare exUser.1 exUser.2, .declare exDb.1 exDb.2,
  .setEnv "db_ctr".toList "user".toList "root".toList], [exDb, exUser], [exUser, exDb]⟩
def exPod2 : PodIn := ⟨"cart_pod".toList, [.declare exCart.1 exCart.2], [exCart], [exCart]⟩
/-- A pod whose container only dials. -/
def exPod3 : PodIn := ⟨"front_pod".toList, [.declare exFront.1 exFront.2], [exFront], [exFront]⟩

/-- The output, if there is one. -/
def outOf (pods : List PodIn) (h : Heap) : Option Output :=
  match generateArtifacts pods h with
  | .ok o => some o
  | _ => none

theorem generated_of {pods : List PodIn} {h : Heap} {out : Output}
    (h1 : ∀ p ∈ pods, p.o1.Perm (containers p.ops)) (h2 : ∀ p ∈ pods, p.o2.Perm (containers p.ops))
    (hn : (pods.map fun p => kubernetesName p.name).Nodup) (ho : (pods.flatMap servers).Nodup)
    (hb : Ports16 h) (hd : outOf pods h = some out) : Generated pods h out := by
  refine ⟨h1, h2, hn, ho, hb, ?_⟩
  rw [outOf] at hd
  cases hg : generateArtifacts pods h with
  | ok o => simp only [hg, Option.some.injEq] at hd; rw [hd]
  | error => simp [hg] at hd
  | diverges => simp [hg] at hd

theorem noClash_of {h : Heap} {args : List Arg} (hk : ∀ x ∈ args, ∀ y ∈ args,
    (argKey h x).map envVar = (argKey h y).map envVar → x = y) : NoClash h args := by
  intro x hx y hy k l hxk hyl he
  exact hk x hx y hy (by rw [hxk, hyl]; simp [he])

/-- One variable in a generated application. -/
def seenIn (o : Option Output) (pod container x : Str) : Option Seen :=
  o.bind fun out => seen out pod container x

theorem exApp : ∃ out, Generated [exPod1, exPod2] exHeap out ∧
    (∀ p ∈ [exPod1, exPod2], ∀ c ∈ containers p.ops, NoClash exHeap c.2) ∧
    seen out "user-pod".toList "user_ctr".toList "USER_BIND_ADDR".toList = some (.listen 2000) ∧
    seen out "user-pod".toList "user_ctr".toList "DB_DIAL_ADDR".toList =
      some (.addr "localhost".toList 27017) ∧
    seen out "user-pod".toList "user_ctr".toList "CART_DIAL_ADDR".toList =
      some (.addr "cart-pod".toList 2000) ∧
    seen out "user-pod".toList "db_ctr".toList "USER".toList = some (.lit "root".toList) ∧
    (get "user-pod".toList out.files).map servicePorts =
      some [("user-addr".toList, 2000), ("db-addr".toList, 27017)] := by
  have hs : (outOf [exPod1, exPod2] exHeap).isSome = true := by decide +kernel
  obtain ⟨out, ho⟩ := Option.isSome_iff_exists.1 hs
  refine ⟨out, generated_of (by decide) (by decide) (by decide) (by decide) exHeap_bits ho, ?_, ?_⟩
  · have hk : ∀ p ∈ [exPod1, exPod2], ∀ c ∈ containers p.ops, ∀ x ∈ c.2, ∀ y ∈ c.2,
        (argKey exHeap x).map envVar = (argKey exHeap y).map envVar → x = y := by decide +kernel
    exact fun p hp c hc => noClash_of (hk p hp c hc)
  · have h : ∀ (o : Output) (pod c x : Str), seen o pod c x = seenIn (some o) pod c x := fun _ _ _ _ => rfl
    have h' : (get "user-pod".toList out.files).map servicePorts =
      (some out).bind fun o => (get "user-pod".toList o.files).map servicePorts := rfl
    simp only [h, h', ← ho]
    decide +kernel

/-- The addresses of the example have one server each, and the dials do not clash. -/
example : OncePerContainer exHeap exPod1 ∧ NoDialClash [exPod1, exPod2] := by
  constructor
  · have hk : ∀ c ∈ containers exPod1.ops, ∀ x ∈ c.2, ∀ y ∈ c.2,
        (match x, y with
        | .bind i, .bind j => decide ((exHeap i).addr = (exHeap j).addr → i = j)
        | _, _ => true) = true := by
      decide +kernel
    exact fun c hc i j hi hj => of_decide_eq_true (hk c hc _ hi _ hj)
  · have hk : ∀ p ∈ [exPod1, exPod2], ∀ q ∈ [exPod1, exPod2], ∀ c ∈ containers p.ops,
        ∀ d ∈ containers q.ops, ∀ x ∈ c.2, ∀ y ∈ d.2,
        (match x, y with
        | .dial k a, .dial l b => decide (envVar k = envVar l → a = b)
        | _, _ => true) = true := by
      decide +kernel
    exact fun p hp q hq c hc d hd k l a b h1 h2 =>
      of_decide_eq_true (hk p hp q hq c hc d hd _ h1 _ h2)

/-- C62 refuted: a container that has no variable of its own and dials a server of another
pod is not given the address: the deployment file lists the variables of the config map only
if the container has other variables. -/
theorem C62_no_env_refuted : ∃ pods h out p c key addr, Generated pods h out ∧ p ∈ pods ∧
    c ∈ containers p.ops ∧ NoClash h c.2 ∧ .dial key addr ∈ c.2 ∧
    (∃ q ∈ pods, ∃ b ∈ containers q.ops, ∃ i, .bind i ∈ b.2 ∧ (h i).addr = addr) ∧
    seen out (kubernetesName p.name) (cleanName c.1) (envVar key) = none := by
  have hs : (outOf [exPod1, exPod2, exPod3] exHeap).isSome = true := by decide +kernel
  obtain ⟨out, ho⟩ := Option.isSome_iff_exists.1 hs
  refine ⟨_, _, out, exPod3, exFront, "user.dial_addr".toList, "user.addr".toList,
    generated_of (by decide) (by decide) (by decide) (by decide) exHeap_bits ho, by simp, by decide,
    noClash_of (by decide +kernel), by decide, ⟨exPod1, by simp, exUser, by decide, 0, by decide, rfl⟩, ?_⟩
  have h : ∀ (o : Output) (pod c x : Str), seen o pod c x = seenIn (some o) pod c x := fun _ _ _ _ => rfl
  rw [h, ← ho]
  decide +kernel

/-- C62 refuted: the ports depend on the order in which Go visits the map of containers. -/
theorem C62_order_refuted : ∃ p q h out out' c x, Generated [p] h out ∧ Generated [q] h out' ∧
    p.ops = q.ops ∧ p.name = q.name ∧ (∀ c ∈ containers p.ops, NoClash h c.2) ∧
    seen out (kubernetesName p.name) c x ≠ seen out' (kubernetesName p.name) c x := by
  let a : Str × List Arg := ("user_ctr".toList, [.bind 0])
  let ops : List Op := [.declare a.1 a.2, .declare exCart.1 exCart.2]
  let p : PodIn := ⟨"pod".toList, ops, [a, exCart], [a, exCart]⟩
  let q : PodIn := ⟨"pod".toList, ops, [exCart, a], [a, exCart]⟩
  have hs1 : (outOf [p] exHeap).isSome = true := by decide +kernel
  have hs2 : (outOf [q] exHeap).isSome = true := by decide +kernel
  obtain ⟨o1, h1⟩ := Option.isSome_iff_exists.1 hs1
  obtain ⟨o2, h2⟩ := Option.isSome_iff_exists.1 hs2
  refine ⟨p, q, exHeap, o1, o2, "user_ctr".toList, "USER_BIND_ADDR".toList,
    generated_of (by decide) (by decide) (by decide) (by decide) exHeap_bits h1,
    generated_of (by decide) (by decide) (by decide) (by decide) exHeap_bits h2, rfl, rfl, ?_, ?_⟩
  · have hk : ∀ c ∈ containers p.ops, ∀ x ∈ c.2, ∀ y ∈ c.2,
        (argKey exHeap x).map envVar = (argKey exHeap y).map envVar → x = y := by decide +kernel
    exact fun c hc => noClash_of (hk c hc)
  · have h : ∀ (o : Output) (pod c x : Str), seen o pod c x = seenIn (some o) pod c x := fun _ _ _ _ => rfl
    rw [h, h, ← h1, ← h2]
    decide +kernel

/-- C62 needs different variable names: two pods whose dials have names that differ only in
punctuation share an entry of the config map, so that one of them is given the other's
server. -/
theorem C62_clash_refuted : ∃ pods h out p c key addr, Generated pods h out ∧
    (∀ p ∈ pods, ∀ c ∈ containers p.ops, NoClash h c.2) ∧ p ∈ pods ∧ c ∈ containers p.ops ∧
    .dial key addr ∈ c.2 ∧ (∃ i, .bind i ∈ c.2 ∧ (h i).port = 0) ∧
    (∀ q ∈ pods, ∀ b ∈ containers q.ops, ∀ i port, .bind i ∈ b.2 → (h i).addr = addr →
      seen out (kubernetesName p.name) (cleanName c.1) (envVar key) ≠
        some (.addr (kubernetesName q.name) port)) := by
  let h : Heap := fun i =>
    if i = 0 then ⟨"x.y.bind_addr".toList, "x.y.addr".toList, 0, 0⟩
    else if i = 1 then ⟨"x_y.bind_addr".toList, "x_y.addr".toList, 0, 0⟩
    else if i = 2 then ⟨"u.bind_addr".toList, "u.addr".toList, 0, 0⟩
    else ⟨"v.bind_addr".toList, "v.addr".toList, 0, 0⟩
  have hb : Ports16 h := by
    intro i
    simp only [h]
    repeat (first | split | simp)
  let cx : Str × List Arg := ("c1".toList, [.bind 0])
  let cy : Str × List Arg := ("c2".toList, [.bind 1])
  let cu : Str × List Arg := ("c3".toList, [.bind 2, .dial "x.y.dial_addr".toList "x.y.addr".toList])
  let cv : Str × List Arg := ("c4".toList, [.bind 3, .dial "x_y.dial_addr".toList "x_y.addr".toList])
  let mk : Str → Str × List Arg → PodIn := fun n c => ⟨n, [.declare c.1 c.2], [c], [c]⟩
  let pods := [mk "p1".toList cx, mk "p2".toList cy, mk "p3".toList cu, mk "p4".toList cv]
  have hs : (outOf pods h).isSome = true := by decide +kernel
  obtain ⟨out, ho⟩ := Option.isSome_iff_exists.1 hs
  refine ⟨pods, h, out, mk "p3".toList cu, cu, "x.y.dial_addr".toList, "x.y.addr".toList,
    generated_of (by decide) (by decide) (by decide) (by decide) hb ho, ?_, by simp [pods], by decide,
    by decide, ⟨2, by decide, rfl⟩, ?_⟩
  · have hk : ∀ p ∈ pods, ∀ c ∈ containers p.ops, ∀ x ∈ c.2, ∀ y ∈ c.2,
        (argKey h x).map envVar = (argKey h y).map envVar → x = y := by decide +kernel
    exact fun p hp c hc => noClash_of (hk p hp c hc)
  · have hseen : seen out "p3".toList "c3".toList "X_Y_DIAL_ADDR".toList =
        some (.addr "p2".toList 2000) := by
      have h : ∀ (o : Output) (pod c x : Str), seen o pod c x = seenIn (some o) pod c x := fun _ _ _ _ => rfl
      rw [h, ← ho]
      decide +kernel
    have hn : kubernetesName "p3".toList = "p3".toList ∧ cleanName "c3".toList = "c3".toList ∧
        envVar "x.y.dial_addr".toList = "X_Y_DIAL_ADDR".toList := by decide +kernel
    intro q hq b hbq i port hi ha
    show seen out (kubernetesName "p3".toList) (cleanName "c3".toList) (envVar "x.y.dial_addr".toList) ≠ _
    rw [hn.1, hn.2.1, hn.2.2, hseen]
    intro he
    have hq' : kubernetesName q.name = "p2".toList := (Seen.addr.inj (Option.some.inj he)).1.symm
    have : ∀ q ∈ pods, kubernetesName q.name = "p2".toList → ∀ b ∈ containers q.ops, ∀ x ∈ b.2,
        (match x with | .bind i => decide ((h i).addr ≠ "x.y.addr".toList) | _ => true) = true := by decide +kernel
    exact of_decide_eq_true (this q hq hq' b hbq _ hi) ha

/-- C62 needs different Kubernetes names: the files of the second of two pods whose names
differ in `_` and `-` replace those of the first. -/
theorem C62_same_file_refuted : ∃ pods h out, outOf pods h = some out ∧ 1 < pods.length ∧
    (pods.map (·.name)).Nodup ∧ (pods.flatMap servers).Nodup ∧ Ports16 h ∧ out.files.length = 1 := by
  let p : PodIn := ⟨"a_b".toList, [.declare exDb.1 exDb.2], [exDb], [exDb]⟩
  let q : PodIn := ⟨"a-b".toList, [.declare exCart.1 exCart.2], [exCart], [exCart]⟩
  have hs : (outOf [p, q] exHeap).isSome = true := by decide +kernel
  obtain ⟨out, ho⟩ := Option.isSome_iff_exists.1 hs
  refine ⟨[p, q], exHeap, out, ho, by decide, by decide, by decide, exHeap_bits, ?_⟩
  have : (outOf [p, q] exHeap).map (fun o => o.files.length) = some 1 := by decide +kernel
  rw [ho] at this
  exact Option.some.inj this

end Verif.Deploy.Kube
