import Verif.Deploy.ComposeLemmas
import Verif.Deploy.ComposeSpec

namespace Verif.Deploy.Compose
open Verif.Deploy Verif.Strings

/-! ### The declared containers -/

/-- Where the contents of the file come from before processArgNodes. -/
structure Declared (ops : List Op) (w : Workspace) : Prop where
  names : (w.args.map fun a => cleanName a.1).Nodup
  file : ∀ c, w.file c = none ↔ c ∉ w.args.map fun a => cleanName a.1
  plain : ∀ c i, w.file c = some i → (∀ p, i.expose p = false) ∧ (∀ e, i.ports e = none) ∧
    ∀ x v, i.config x = some v → ∃ n k t, .setEnv n k t ∈ ops ∧ cleanName n = c ∧ envVar k = x ∧
      v = .lit t
  args : ∀ n as, (n, as) ∈ w.args ↔ .declare n as ∈ ops

theorem Declared.step {ops : List Op} {w w' : Workspace} {op : Op} (h : Declared ops w)
    (hs : w.step op = some w') : Declared (ops ++ [op]) w' := by
  cases op with
  | declare name args =>
    simp only [Workspace.step] at hs
    cases hf : w.file (cleanName name) with
    | some i => simp [hf] at hs
    | none =>
      simp only [hf, Option.some.injEq] at hs
      subst hs
      have hni := (h.file _).1 hf
      refine ⟨?_, ?_, ?_, ?_⟩
      · simp only [List.map_append, List.map_cons, List.map_nil]
        rw [List.nodup_append]
        refine ⟨h.names, by simp, ?_⟩
        intro a ha b hb hab
        simp only [List.mem_singleton] at hb
        exact hni (by rw [← hb, ← hab]; exact ha)
      · intro c
        simp only [List.map_append, List.map_cons, List.map_nil, List.mem_append, List.mem_singleton]
        by_cases hc : c = cleanName name
        · simp [hc]
        · simp only [hc, if_false, or_false]
          exact h.file c
      · intro c i hi
        by_cases hc : c = cleanName name
        · simp only [hc, if_true, Option.some.injEq] at hi
          subst hi
          exact ⟨fun _ => rfl, fun _ => rfl, fun x v hv => by simp [Inst.empty] at hv⟩
        · simp only [hc, if_false] at hi
          obtain ⟨h1, h2, h3⟩ := h.plain c i hi
          refine ⟨h1, h2, fun x v hv => ?_⟩
          obtain ⟨n, k, t, hm, r⟩ := h3 x v hv
          exact ⟨n, k, t, List.mem_append_left _ hm, r⟩
      · intro n as
        simp only [List.mem_append, List.mem_singleton, h.args, Prod.mk.injEq, Op.declare.injEq]
  | setEnv name key val =>
    simp only [Workspace.step] at hs
    cases hf : w.file (cleanName name) with
    | none => simp [hf] at hs
    | some i0 =>
      simp only [hf, Option.some.injEq] at hs
      subst hs
      refine ⟨h.names, ?_, ?_, ?_⟩
      · intro c
        rw [← h.file c]
        simp only [addEnvVar, modify]
        split <;> simp
      · intro c i hi
        simp only [addEnvVar, modify] at hi
        by_cases hc : c = cleanName name
        · simp only [hc, if_true, hf, Option.map_some, Option.some.injEq] at hi
          subst hi
          obtain ⟨h1, h2, h3⟩ := h.plain _ _ hf
          refine ⟨h1, h2, fun x v hv => ?_⟩
          by_cases hx : x = envVar key
          · simp only [hx, if_true, Option.some.injEq] at hv
            exact ⟨name, key, val, by simp, hc.symm, hx.symm, hv.symm⟩
          · simp only [hx, if_false] at hv
            obtain ⟨n, k, t, hm, r, r'⟩ := h3 x v hv
            exact ⟨n, k, t, List.mem_append_left _ hm, by rw [hc]; exact r, r'⟩
        · simp only [hc, if_false] at hi
          obtain ⟨h1, h2, h3⟩ := h.plain c i hi
          refine ⟨h1, h2, fun x v hv => ?_⟩
          obtain ⟨n, k, t, hm, r⟩ := h3 x v hv
          exact ⟨n, k, t, List.mem_append_left _ hm, r⟩
      · intro n as
        simp only [List.mem_append, List.mem_singleton, reduceCtorEq, or_false]
        exact h.args n as

theorem declared (ops : List Op) (w : Workspace) (h : Workspace.empty.run ops = some w) :
    Declared ops w := by
  suffices ∀ ops pre w0, Declared pre w0 → w0.run ops = some w → Declared (pre ++ ops) w by
    simpa using this ops [] _ ⟨by simp [Workspace.empty], by simp [Workspace.empty],
      by simp [Workspace.empty], by simp [Workspace.empty]⟩ h
  intro ops
  induction ops with
  | nil =>
    intro pre w0 h0 h
    simp only [Workspace.run, Option.some.injEq] at h
    subst h; simpa using h0
  | cons op ops ih =>
    intro pre w0 h0 h
    rw [Workspace.run] at h
    cases hs : w0.step op with
    | none => simp [hs] at h
    | some w1 =>
      simp only [hs] at h
      have := ih _ _ (h0.step hs) h
      simpa using this

/-- Different containers have different names in the file. -/
theorem same_container {ops : List Op} {w : Workspace} (h : Declared ops w) {a b : Str × List Arg}
    (ha : a ∈ w.args) (hb : b ∈ w.args) (he : cleanName a.1 = cleanName b.1) : a = b := by
  obtain ⟨n, hn⟩ := List.mem_iff_getElem?.1 ha
  obtain ⟨m, hm⟩ := List.mem_iff_getElem?.1 hb
  have := nodup_get_inj _ h.names n m (cleanName a.1) (by simp [hn]) (by simp [hm, he])
  subst this
  rw [hn] at hm
  exact Option.some.inj hm

/-! ### The finished file -/

/-- The value each argument gives to its variable. -/
inductive Gives (h : Heap) (P : Nat → Nat) (addresses : Str → Option (Str × Nat)) :
    Arg → Str → Value → Prop where
  | config (n : Str) (optional : Bool) :
      Gives h P addresses (.config n optional false) n (passValue n optional)
  | bind (i : Nat) : (h i).port = 0 → Gives h P addresses (.bind i) (h i).key (.listen (P i))
  | dial (key addr : Str) : Gives h P addresses (.dial key addr) key (dialValue addresses key addr)

theorem Gives.key {h : Heap} {P : Nat → Nat} {addresses : Str → Option (Str × Nat)} {a : Arg}
    {k : Str} {v : Value} (g : Gives h P addresses a k v) : argKey h a = some k := by
  cases g <;> rfl

theorem Gives.unique {h : Heap} {P : Nat → Nat} {addresses : Str → Option (Str × Nat)} {a : Arg}
    {k k' : Str} {v v' : Value} (g : Gives h P addresses a k v) (g' : Gives h P addresses a k' v') :
    v = v' := by
  cases g <;> cases g' <;> rfl

/-- The finished file, container by container. -/
theorem Generated.container {ops : List Op} {w : Workspace} {h : Heap}
    {o1 o2 : List (Str × List Arg)} {file : File} (g : Generated ops w h o1 o2 file) :
    (∀ a ∈ w.args, .other ∉ a.2) ∧ ∃ (P : Nat → Nat) (addresses : Str → Option (Str × Nat)),
      (∀ a ∈ w.args, PortsOf h P (bindIds a.2)) ∧
      (∀ x, (addresses x = none ∧ ∀ a ∈ w.args, ∀ i, .bind i ∈ a.2 → (h i).addr ≠ x) ∨
        ∃ a ∈ w.args, ∃ i, .bind i ∈ a.2 ∧ (h i).addr = x ∧
          addresses x = some (cleanName a.1, P i)) ∧
      (∀ c, file c = none ↔ w.file c = none) ∧
      ∀ n args, (n, args) ∈ w.args → ∃ i0 c, w.file (cleanName n) = some i0 ∧
        file (cleanName n) = some c ∧
        (∀ x, (c.config x = i0.config x ∧
            ∀ a ∈ args, ∀ k v, Gives h P addresses a k v → envVar k ≠ x) ∨
          ∃ a ∈ args, ∃ k v, Gives h P addresses a k v ∧ envVar k = x ∧ c.config x = some v) ∧
        (∀ p, c.expose p = true ↔ ∃ i, .bind i ∈ args ∧ P i = p) ∧
        (∀ e, (c.ports e = none ∧
            ∀ i, .bind i ∈ args → .required (envVar (h i).key) (h i).key ≠ e) ∨
          ∃ i, .bind i ∈ args ∧ .required (envVar (h i).key) (h i).key = e ∧
            c.ports e = some (P i)) := by
  obtain ⟨h', hd⟩ := g.done
  have hD := declared _ _ g.run
  have hn1 : (o1.flatMap fun a => bindIds a.2).Nodup :=
    ((g.perm1.flatMap_right _).nodup_iff).2 g.objects
  obtain ⟨ho, P, addresses, hP, ⟨ws, hws, hw⟩, had⟩ := finish_spec _ _ _ _ _ _ hn1 g.bits hd
  have hw' : ∀ x, x ∈ ws ↔ (∃ a ∈ w.args, First h P a.1 a.2 x) ∨
      ∃ a ∈ w.args, ∃ key addr, .dial key addr ∈ a.2 ∧
        x = .env a.1 key (dialValue addresses key addr) := by
    intro x
    rw [hw]
    simp only [g.perm1.mem_iff, g.perm2.mem_iff]
  refine ⟨fun a ha => ho a (g.perm1.mem_iff.2 ha), P, addresses,
    fun a ha => hP a (g.perm1.mem_iff.2 ha), ?_, ?_, ?_⟩
  · intro x
    simpa only [g.perm1.mem_iff] using had x
  · intro c
    cases hc : w.file c with
    | none => rw [hws, applyAll_none _ _ _ hc]
    | some i =>
      obtain ⟨i', hi', -⟩ := applyAll_effect ws _ _ _ hc
      rw [hws, hi']; simp
  · intro n args hm
    cases hc : w.file (cleanName n) with
    | none =>
      exact absurd (List.mem_map.2 ⟨_, hm, rfl⟩) ((hD.file _).1 hc)
    | some i0 =>
      obtain ⟨c, hcf, he⟩ := applyAll_effect ws _ _ _ hc
      obtain ⟨hpl1, hpl2, -⟩ := hD.plain _ _ hc
      have henv : ∀ name key v, .env name key v ∈ ws → cleanName name = cleanName n →
          ∃ a ∈ args, Gives h P addresses a key v := by
        intro name key v hx hcl
        rcases (hw' _).1 hx with ⟨a, ha, hf⟩ | ⟨a, ha, k, d, hk, hx⟩
        · cases hf with
          | config _ o hk =>
            rw [same_container hD ha hm hcl] at hk
            exact ⟨_, hk, .config _ _⟩
          | assigned i hk hz =>
            rw [same_container hD ha hm hcl] at hk
            exact ⟨_, hk, .bind _ hz⟩
        · simp only [Write.env.injEq] at hx
          obtain ⟨rfl, rfl, rfl⟩ := hx
          rw [same_container hD ha hm hcl] at hk
          exact ⟨_, hk, .dial _ _⟩
      have henv' : ∀ a ∈ args, ∀ k v, Gives h P addresses a k v → .env n k v ∈ ws := by
        intro a ha k v hg
        rw [hw']
        cases hg with
        | config _ o => exact .inl ⟨_, hm, .config _ _ ha⟩
        | bind i hz => exact .inl ⟨_, hm, .assigned _ ha hz⟩
        | dial _ d => exact .inr ⟨_, hm, _, _, ha, rfl⟩
      refine ⟨i0, c, rfl, by rw [hws]; exact hcf, ?_, ?_, ?_⟩
      · intro x
        rcases he.config x with ⟨h1, h2⟩ | ⟨name, key, v, hx, h1, h2, h3⟩
        · exact .inl ⟨h1, fun a ha k v hg => h2 n k v (henv' a ha k v hg) rfl⟩
        · obtain ⟨a, ha, hg⟩ := henv _ _ _ hx h1
          exact .inr ⟨a, ha, key, v, hg, h2, h3⟩
      · intro p
        rw [he.expose, hpl1 p]
        simp only [Bool.false_eq_true, false_or]
        constructor
        · rintro ⟨name, hx, hcl⟩
          rcases (hw' _).1 hx with ⟨a, ha, hf⟩ | ⟨a, ha, k, d, hk, hx⟩
          · cases hf with
            | expose i hk =>
              rw [same_container hD ha hm hcl] at hk
              exact ⟨i, hk, rfl⟩
          · simp at hx
        · rintro ⟨i, hi, rfl⟩
          exact ⟨n, (hw' _).2 (.inl ⟨_, hm, .expose i hi⟩), rfl⟩
      · intro e
        rcases he.ports e with ⟨h1, h2⟩ | ⟨name, key, p, hx, hcl, h2, h3⟩
        · exact .inl ⟨h1.trans (hpl2 e), fun i hi =>
            h2 n _ _ ((hw' _).2 (.inl ⟨_, hm, .map i hi⟩)) rfl⟩
        · rcases (hw' _).1 hx with ⟨a, ha, hf⟩ | ⟨a, ha, k, d, hk, hx⟩
          · cases hf with
            | map i hk =>
              rw [same_container hD ha hm hcl] at hk
              exact .inr ⟨i, hk, h2, h3⟩
          · simp at hx

/-- The variable of an argument that clashes with no other has the value the argument gives. -/
theorem config_of_gives {h : Heap} {P : Nat → Nat} {addresses : Str → Option (Str × Nat)}
    {args : List Arg} {c i0 : Inst} (hnc : NoClash h args)
    (hc : ∀ x, (c.config x = i0.config x ∧
            ∀ a ∈ args, ∀ k v, Gives h P addresses a k v → envVar k ≠ x) ∨
          ∃ a ∈ args, ∃ k v, Gives h P addresses a k v ∧ envVar k = x ∧ c.config x = some v)
    {a : Arg} (ha : a ∈ args) {k : Str} {v : Value} (hg : Gives h P addresses a k v) :
    c.config (envVar k) = some v := by
  rcases hc (envVar k) with ⟨-, h2⟩ | ⟨b, hb, l, v', hg', h1, h2⟩
  · exact absurd rfl (h2 a ha k v hg)
  · have := hnc b hb a ha l k hg'.key hg.key h1
    subst this
    rw [h2, hg'.unique hg]

theorem serves_of {file : File} {h : Heap} {P : Nat → Nat} {addresses : Str → Option (Str × Nat)}
    {n : Str} {args : List Arg} {c i0 : Inst} (hnc : NoClash h args) (h16 : Ports16 h)
    (hnd : (bindIds args).Nodup)
    (hP : PortsOf h P (bindIds args)) (hf : file (cleanName n) = some c)
    (hc : ∀ x, (c.config x = i0.config x ∧
            ∀ a ∈ args, ∀ k v, Gives h P addresses a k v → envVar k ≠ x) ∨
          ∃ a ∈ args, ∃ k v, Gives h P addresses a k v ∧ envVar k = x ∧ c.config x = some v)
    (he : ∀ p, c.expose p = true ↔ ∃ i, .bind i ∈ args ∧ P i = p)
    (hp : ∀ e, (c.ports e = none ∧
            ∀ i, .bind i ∈ args → .required (envVar (h i).key) (h i).key ≠ e) ∨
          ∃ i, .bind i ∈ args ∧ .required (envVar (h i).key) (h i).key = e ∧
            c.ports e = some (P i))
    {i : Nat} (hi : .bind i ∈ args) : Serves file h n i (P i) ∧ P i < 65536 := by
  obtain ⟨h1, asg, ha, hPi⟩ := hP
  have hA := assignPorts_spec _ _ _ _ hnd h16 ha
  have hi' := (mem_bindIds _ _).2 hi
  refine ⟨⟨c, hf, ?_, ?_, (he _).2 ⟨i, hi, rfl⟩, ?_⟩, ?_⟩
  · intro hz
    rw [hPi i hi', hA.preset i hi' hz]
  · intro hz
    exact config_of_gives hnc hc hi (.bind i hz)
  · rcases hp (.required (envVar (h i).key) (h i).key) with ⟨-, h2⟩ | ⟨j, hj, h1, h2⟩
    · exact absurd rfl (h2 i hi)
    · have := hnc _ hj _ hi _ _ rfl rfl (Value.required.inj h1).1
      simp only [Arg.bind.injEq] at this
      subst this
      exact h2
  · rw [hPi i hi']; exact (hA.bits i hi').1

/-- C49: the servers of a container.  Each listens on a port of its own. -/
theorem C49_servers {ops : List Op} {w : Workspace} {h : Heap} {o1 o2 : List (Str × List Arg)}
    {file : File} (g : Generated ops w h o1 o2 file) (n : Str) (args : List Arg)
    (hm : (n, args) ∈ w.args) (hnc : NoClash h args) :
    ∃ P : Nat → Nat, (∀ i, .bind i ∈ args → Serves file h n i (P i) ∧ P i < 65536) ∧
      ∀ i j, .bind i ∈ args → .bind j ∈ args → P i = P j → i = j := by
  obtain ⟨-, P, addresses, hP, -, -, hcon⟩ := g.container
  obtain ⟨i0, c, -, hf, hc, he, hp⟩ := hcon n args hm
  have hnd : (bindIds args).Nodup := nodup_of_flatMap (g := fun a => bindIds a.2) g.objects hm
  refine ⟨P, fun i hi => serves_of hnc g.bits hnd (hP _ hm) hf hc he hp hi, fun i j hi hj hij => ?_⟩
  obtain ⟨h1, asg, ha, hPi⟩ := hP _ hm
  have hA := assignPorts_spec _ _ _ _ hnd g.bits ha
  have hi' := (mem_bindIds _ _).2 hi
  have hj' := (mem_bindIds _ _).2 hj
  exact hA.distinct i hi' j hj' (by rw [← hPi i hi', ← hPi j hj', hij])

/-- C49: a dial address whose server is bound in the same deployment is set to the host name
of a container that binds it and the port that server listens on. -/
theorem C49_local_dial {ops : List Op} {w : Workspace} {h : Heap} {o1 o2 : List (Str × List Arg)}
    {file : File} (g : Generated ops w h o1 o2 file) (hnc : ∀ a ∈ w.args, NoClash h a.2)
    (n : Str) (args : List Arg) (hm : (n, args) ∈ w.args) (key addr : Str)
    (hd : .dial key addr ∈ args)
    (hlocal : ∃ a ∈ w.args, ∃ i, .bind i ∈ a.2 ∧ (h i).addr = addr) :
    ∃ c m margs i p, file (cleanName n) = some c ∧ (m, margs) ∈ w.args ∧ .bind i ∈ margs ∧
      (h i).addr = addr ∧ Serves file h m i p ∧
      c.config (envVar key) = some (.addr (cleanName m) p) := by
  obtain ⟨-, P, addresses, hP, had, -, hcon⟩ := g.container
  obtain ⟨i0, c, -, hf, hc, he, hp⟩ := hcon n args hm
  have hv := config_of_gives (hnc _ hm) hc hd (.dial key addr)
  rcases had addr with ⟨-, h2⟩ | ⟨a, ha, i, hi, hia, h2⟩
  · obtain ⟨a, ha, i, hi, hia⟩ := hlocal
    exact absurd hia (h2 a ha i hi)
  · obtain ⟨j0, cj, -, hfj, hcj, hej, hpj⟩ := hcon a.1 a.2 ha
    refine ⟨c, a.1, a.2, i, P i, hf, ha, hi, hia, ?_, by rw [hv]; simp [dialValue, h2]⟩
    exact (serves_of (hnc _ ha) g.bits (nodup_of_flatMap (g := fun a => bindIds a.2) g.objects ha)
      (hP _ ha) hfj hcj hej hpj hi).1

/-- C49: any other dial address, and any configuration without a value, is passed through
from the environment under the same variable name; dials and configuration that is not
optional are required to be set. -/
theorem C49_passed_through {ops : List Op} {w : Workspace} {h : Heap}
    {o1 o2 : List (Str × List Arg)} {file : File} (g : Generated ops w h o1 o2 file) (n : Str)
    (args : List Arg) (hm : (n, args) ∈ w.args) (hnc : NoClash h args) :
    ∃ c, file (cleanName n) = some c ∧
      (∀ key addr, .dial key addr ∈ args →
        (∀ a ∈ w.args, ∀ i, .bind i ∈ a.2 → (h i).addr ≠ addr) →
        c.config (envVar key) = some (.required (envVar key) key)) ∧
      (∀ name, .config name false false ∈ args →
        c.config (envVar name) = some (.required (envVar name) name)) ∧
      (∀ name, .config name true false ∈ args →
        c.config (envVar name) = some (.optional (envVar name))) := by
  obtain ⟨-, P, addresses, hP, had, -, hcon⟩ := g.container
  obtain ⟨i0, c, -, hf, hc, he, hp⟩ := hcon n args hm
  refine ⟨c, hf, ?_, ?_, ?_⟩
  · intro key addr hd hno
    have hv := config_of_gives hnc hc hd (.dial key addr)
    rcases had addr with ⟨h1, -⟩ | ⟨a, ha, i, hi, hia, -⟩
    · rw [hv]; simp [dialValue, h1, passValue]
    · exact absurd hia (hno a ha i hi)
  · intro name hd
    exact config_of_gives hnc hc hd (.config name false)
  · intro name hd
    exact config_of_gives hnc hc hd (.config name true)

/-- C49: nothing else is in the file.  A variable that is set in a container was set by a
plugin for that container, or it belongs to one of the container's arguments, and then that
argument is not a configuration with a value, nor a bind config with a fixed port; an
exposed port is one a server listens on; containers are the declared ones. -/
theorem C49_nothing_else {ops : List Op} {w : Workspace} {h : Heap}
    {o1 o2 : List (Str × List Arg)} {file : File} (g : Generated ops w h o1 o2 file) :
    (∀ c, file c ≠ none ↔ ∃ n args, .declare n args ∈ ops ∧ cleanName n = c) ∧
    ∀ n args c, (n, args) ∈ w.args → file (cleanName n) = some c →
      (∀ x v, c.config x = some v →
        (∃ m k t, .setEnv m k t ∈ ops ∧ cleanName m = cleanName n ∧ envVar k = x ∧ v = .lit t) ∨
        ∃ a ∈ args, ∃ k, argKey h a = some k ∧ envVar k = x ∧
          (∀ o, a ≠ .config k o true) ∧ ∀ i, a = .bind i → (h i).port = 0) ∧
      (NoClash h args → ∀ p, c.expose p = true → ∃ i, .bind i ∈ args ∧ Serves file h n i p) ∧
      (∀ e p, c.ports e = some p → c.expose p = true) := by
  obtain ⟨-, P, addresses, hP, had, hdom, hcon⟩ := g.container
  have hD := declared _ _ g.run
  refine ⟨fun c => ?_, ?_⟩
  · rw [ne_eq, hdom, hD.file, Classical.not_not, List.mem_map]
    constructor
    · rintro ⟨a, ha, rfl⟩
      exact ⟨a.1, a.2, (hD.args _ _).1 ha, rfl⟩
    · rintro ⟨n, args, hm, rfl⟩
      exact ⟨(n, args), (hD.args _ _).2 hm, rfl⟩
  · intro n args c hm hf
    obtain ⟨i0, c', h0, hf', hc, he, hp⟩ := hcon n args hm
    rw [hf] at hf'
    cases hf'
    refine ⟨?_, ?_, ?_⟩
    · intro x v hv
      rcases hc x with ⟨h1, -⟩ | ⟨a, ha, k, v', hg, h1, h2⟩
      · rw [h1] at hv
        obtain ⟨m, k, t, r⟩ := (hD.plain _ _ h0).2.2 x v hv
        exact .inl ⟨m, k, t, r⟩
      · refine .inr ⟨a, ha, k, hg.key, h1, ?_, ?_⟩
        · intro o hao
          subst hao
          cases hg
        · intro i hai
          subst hai
          cases hg
          assumption
    · intro hnc p hpe
      obtain ⟨i, hi, rfl⟩ := (he p).1 hpe
      exact ⟨i, hi, (serves_of hnc g.bits (nodup_of_flatMap (g := fun a => bindIds a.2) g.objects hm)
        (hP _ hm) hf hc he hp hi).1⟩
    · intro e p hep
      rcases hp e with ⟨h1, -⟩ | ⟨i, hi, -, h2⟩
      · rw [h1] at hep; simp at hep
      · rw [h2] at hep
        simp only [Option.some.injEq] at hep
        exact (he p).2 ⟨i, hi, hep⟩

theorem run_append (a b : List Op) (w : Workspace) : w.run (a ++ b) = (w.run a).bind (·.run b) := by
  induction a generalizing w with
  | nil => rfl
  | cons op a ih =>
    simp only [List.cons_append, Workspace.run]
    cases w.step op with
    | none => rfl
    | some w => exact ih w

theorem run_keeps (ops : List Op) (c x : Str) (v : Value)
    (hlast : ∀ n k t, .setEnv n k t ∈ ops → cleanName n = c → envVar k ≠ x) :
    ∀ (w w' : Workspace) (i : Inst), w.file c = some i → i.config x = some v →
      w.run ops = some w' → ∃ i', w'.file c = some i' ∧ i'.config x = some v := by
  induction ops with
  | nil =>
    intro w w' i hi hx hr
    simp only [Workspace.run, Option.some.injEq] at hr
    exact ⟨i, hr ▸ hi, hx⟩
  | cons op ops ih =>
    intro w w' i hi hx hr
    have ih := ih fun n k t h => hlast n k t (List.mem_cons_of_mem _ h)
    rw [Workspace.run] at hr
    cases hs : w.step op with
    | none => simp [hs] at hr
    | some w1 =>
      simp only [hs] at hr
      cases op with
      | declare name args =>
        simp only [Workspace.step] at hs
        cases hf : w.file (cleanName name) with
        | some j => simp [hf] at hs
        | none =>
          simp only [hf, Option.some.injEq] at hs
          have hne : c ≠ cleanName name := by rintro rfl; rw [hi] at hf; cases hf
          refine ih w1 w' i ?_ hx hr
          rw [← hs]
          simpa [hne] using hi
      | setEnv name key val =>
        simp only [Workspace.step] at hs
        cases hf : w.file (cleanName name) with
        | none => simp [hf] at hs
        | some j =>
          simp only [hf, Option.some.injEq] at hs
          by_cases hc : c = cleanName name
          · have hne : x ≠ envVar key := fun e =>
              hlast name key val (by simp) hc.symm e.symm
            refine ih w1 w' { i with config := fun y => if y = envVar key then some (.lit val) else i.config y }
              ?_ (by simpa [hne] using hx) hr
            rw [← hs]
            simp [addEnvVar, modify, ← hc, hi]
          · refine ih w1 w' i ?_ hx hr
            rw [← hs]
            simpa [addEnvVar, modify, hc] using hi

/-- C49: a variable that a plugin sets for a container has the text it was last given, if no
argument of the container is configured by that variable. -/
theorem C49_set_env {pre post : List Op} {n k t : Str} {w : Workspace} {h : Heap}
    {o1 o2 : List (Str × List Arg)} {file : File}
    (g : Generated (pre ++ .setEnv n k t :: post) w h o1 o2 file)
    (hlast : ∀ m l u, .setEnv m l u ∈ post → cleanName m = cleanName n → envVar l ≠ envVar k)
    (hargs : ∀ m args, .declare m args ∈ pre ++ .setEnv n k t :: post → cleanName m = cleanName n →
      ∀ a ∈ args, ∀ l, argKey h a = some l → envVar l ≠ envVar k) :
    ∃ c, file (cleanName n) = some c ∧ c.config (envVar k) = some (.lit t) := by
  obtain ⟨-, P, addresses, hP, had, hdom, hcon⟩ := g.container
  have hD := declared _ _ g.run
  have hr := g.run
  rw [run_append] at hr
  cases h1 : Workspace.empty.run pre with
  | none => simp [h1] at hr
  | some w1 =>
    simp only [h1, Option.bind_some, Workspace.run, Workspace.step] at hr
    cases hf : w1.file (cleanName n) with
    | none => simp [hf] at hr
    | some j =>
      simp only [hf] at hr
      obtain ⟨i', hi', hx'⟩ := run_keeps post (cleanName n) (envVar k) (.lit t) hlast _ w
        { j with config := fun y => if y = envVar k then some (.lit t) else j.config y }
        (by simp [addEnvVar, modify, hf]) (by simp) hr
      have hmem : cleanName n ∈ w.args.map fun a => cleanName a.1 := by
        apply Classical.byContradiction
        intro hno
        rw [(hD.file _).2 hno] at hi'
        cases hi'
      obtain ⟨a, ha, hae⟩ := List.mem_map.1 hmem
      obtain ⟨i0, c, h0, hfc, hc, -, -⟩ := hcon a.1 a.2 ha
      rw [hae] at h0 hfc
      rw [hi'] at h0
      cases h0
      refine ⟨c, hfc, ?_⟩
      rcases hc (envVar k) with ⟨e, -⟩ | ⟨b, hb, l, v, hg, e, -⟩
      · rw [e]; exact hx'
      · exact absurd e (hargs a.1 a.2 ((hD.args _ _).1 ha) hae b hb l hg.key)

/-- C49: a second container whose name becomes the same in the file is an error. -/
theorem C49_redeclared (ops rest : List Op) (n m : Str) (as bs : List Arg)
    (hn : .declare n as ∈ ops) (he : cleanName n = cleanName m) :
    Workspace.empty.run (ops ++ .declare m bs :: rest) = none := by
  rw [run_append]
  cases hr : Workspace.empty.run ops with
  | none => rfl
  | some w =>
    have hD := declared _ _ hr
    have hmem : cleanName m ∈ w.args.map fun a => cleanName a.1 :=
      List.mem_map.2 ⟨(n, as), (hD.args _ _).2 hn, he⟩
    have : w.file (cleanName m) ≠ none := fun h => (hD.file _).1 h hmem
    simp only [Option.bind_some, Workspace.run, Workspace.step]
    cases hf : w.file (cleanName m) with
    | none => exact absurd hf this
    | some i => rfl

/-- C49: the order in which Go iterates over the containers makes no difference, when no two
arguments of a container clash and every address is bound once. -/
theorem C49_any_order {ops : List Op} {w : Workspace} {h : Heap}
    {o1 o2 o1' o2' : List (Str × List Arg)} {file file' : File}
    (g : Generated ops w h o1 o2 file) (g' : Generated ops w h o1' o2' file')
    (hnc : ∀ a ∈ w.args, NoClash h a.2)
    (hone : ∀ a ∈ w.args, ∀ b ∈ w.args, ∀ i j, .bind i ∈ a.2 → .bind j ∈ b.2 →
      (h i).addr = (h j).addr → i = j) : file = file' := by
  obtain ⟨-, P, ad, hP, had, hdom, hcon⟩ := g.container
  obtain ⟨-, P', ad', hP', had', hdom', hcon'⟩ := g'.container
  have hD := declared _ _ g.run
  have hPP : ∀ a ∈ w.args, ∀ i, .bind i ∈ a.2 → P i = P' i := by
    intro a ha i hi
    obtain ⟨h1, asg, e1, p1⟩ := hP a ha
    obtain ⟨h2, asg2, e2, p2⟩ := hP' a ha
    rw [e1] at e2
    cases e2
    rw [p1 i ((mem_bindIds _ _).2 hi), p2 i ((mem_bindIds _ _).2 hi)]
  have hsame : ∀ a ∈ w.args, ∀ b ∈ w.args, ∀ i, .bind i ∈ a.2 → .bind i ∈ b.2 → a = b := by
    intro a ha b hb i hia hib
    have hn := g.objects
    have key : ∀ (l : List (Str × List Arg)), (l.flatMap fun a => bindIds a.2).Nodup →
        a ∈ l → b ∈ l → a = b := by
      intro l
      induction l with
      | nil => intro _ h; simp at h
      | cons x l ih =>
        intro hn ha hb
        simp only [List.flatMap_cons] at hn
        obtain ⟨-, h2, h3⟩ := List.nodup_append.1 hn
        rcases List.mem_cons.1 ha with ha' | ha' <;> rcases List.mem_cons.1 hb with hb' | hb'
        · rw [ha', hb']
        · subst ha'
          exact absurd rfl (h3 i ((mem_bindIds _ _).2 hia) i
            (List.mem_flatMap.2 ⟨b, hb', (mem_bindIds _ _).2 hib⟩))
        · subst hb'
          exact absurd rfl (h3 i ((mem_bindIds _ _).2 hib) i
            (List.mem_flatMap.2 ⟨a, ha', (mem_bindIds _ _).2 hia⟩))
        · exact ih h2 ha' hb'
    exact key _ hn ha hb
  have hadd : ad = ad' := by
    funext x
    rcases had x with ⟨h1, h2⟩ | ⟨a, ha, i, hi, hx, h1⟩
    · rcases had' x with ⟨h1', -⟩ | ⟨a, ha, i, hi, hx, -⟩
      · rw [h1, h1']
      · exact absurd hx (h2 a ha i hi)
    · rcases had' x with ⟨-, h2⟩ | ⟨b, hb, j, hj, hx', h1'⟩
      · exact absurd hx (h2 a ha i hi)
      · have := hone a ha b hb i j hi hj (hx.trans hx'.symm)
        subst this
        have := hsame a ha b hb i hi hj
        subst this
        rw [h1, h1', hPP a ha i hi]
  subst hadd
  have hG : ∀ args n, (n, args) ∈ w.args → ∀ a ∈ args, ∀ k v, Gives h P ad a k v ↔ Gives h P' ad a k v := by
    intro args n hm a ha k v
    constructor
    · intro hg
      cases hg with
      | config => exact .config _ _
      | bind i hz => rw [hPP _ hm i ha]; exact .bind i hz
      | dial => exact .dial _ _
    · intro hg
      cases hg with
      | config => exact .config _ _
      | bind i hz => rw [← hPP _ hm i ha]; exact .bind i hz
      | dial => exact .dial _ _
  funext c
  cases hc : w.file c with
  | none => rw [(hdom c).2 hc, (hdom' c).2 hc]
  | some i0 =>
    have hin : c ∈ w.args.map fun a => cleanName a.1 := by
      refine Classical.byContradiction fun hni => ?_
      have := (hD.file c).2 hni
      rw [hc] at this
      simp at this
    obtain ⟨⟨n, args⟩, hm, rfl⟩ := List.mem_map.1 hin
    obtain ⟨i1, c1, e1, f1, hc1, he1, hp1⟩ := hcon n args hm
    obtain ⟨i2, c2, e2, f2, hc2, he2, hp2⟩ := hcon' n args hm
    rw [e1] at e2
    cases e2
    simp only at f1 f2 ⊢
    rw [f1, f2]
    have q1 : c1.config = c2.config := by
      funext x
      rcases hc1 x with ⟨a1, b1⟩ | ⟨a, ha, k, v, hg, hx, hv⟩
      · rcases hc2 x with ⟨a2, -⟩ | ⟨a, ha, k, v, hg, hx, -⟩
        · rw [a1, a2]
        · exact absurd hx (b1 a ha k v ((hG args n hm a ha k v).2 hg))
      · subst hx
        rw [hv, config_of_gives (hnc _ hm) hc2 ha ((hG args n hm a ha k v).1 hg)]
    have q2 : c1.expose = c2.expose := by
      funext p
      rw [Bool.eq_iff_iff, he1, he2]
      constructor
      · rintro ⟨i, hi, h⟩
        exact ⟨i, hi, by rw [← hPP _ hm i hi]; exact h⟩
      · rintro ⟨i, hi, h⟩
        exact ⟨i, hi, by rw [hPP _ hm i hi]; exact h⟩
    have q3 : c1.ports = c2.ports := by
      funext e
      rcases hp1 e with ⟨a1, b1⟩ | ⟨i, hi, hx, hv⟩
      · rcases hp2 e with ⟨a2, -⟩ | ⟨i, hi, hx, -⟩
        · rw [a1, a2]
        · exact absurd hx (b1 i hi)
      · rcases hp2 e with ⟨-, b2⟩ | ⟨j, hj, hx', hv'⟩
        · exact absurd hx (b2 i hi)
        · have := hnc _ hm _ hi _ hj _ _ rfl rfl (by
            have := hx.trans hx'.symm
            simpa using (Value.required.inj this).1)
          simp only [Arg.bind.injEq] at this
          subst this
          rw [hv, hv', hPP _ hm i hi]
    cases c1; cases c2
    simp only at q1 q2 q3
    subst q1; subst q2; subst q3
    rfl

/-! ### Concrete cases -/

/-- Three bind configs: a service without a port, a database with a fixed port, and a second
service without a port. -/
def exHeap : Heap
  | 0 => ⟨"user.grpc.bind_addr".toList, "user.grpc.addr".toList, 0, 0⟩
  | 1 => ⟨"db.bind_addr".toList, "db.addr".toList, 27017, 0⟩
  | _ => ⟨"user.http.bind_addr".toList, "user.http.addr".toList, 0, 0⟩

def exServer : Str × List Arg := ("user_ctr".toList,
  [.bind 0, .bind 2, .dial "db.dial_addr".toList "db.addr".toList, .config "jaeger".toList true false])
def exDb : Str × List Arg := ("db_ctr".toList, [.bind 1])
def exFront : Str × List Arg := ("front".toList,
  [.dial "user.grpc.dial_addr".toList "user.grpc.addr".toList,
   .dial "mail.dial_addr".toList "mail.addr".toList])

def exOps : List Op := [.declare exServer.1 exServer.2, .declare exDb.1 exDb.2,
  .setEnv "db_ctr".toList "user".toList "root".toList, .declare exFront.1 exFront.2]

/-- The file, if one is generated. -/
def fileOf (ops : List Op) (h : Heap) (o1 o2 : List (Str × List Arg)) : Option (File) :=
  match Workspace.empty.run ops with
  | none => none
  | some w => match finish w h o1 o2 with
    | .ok (f, _) => some f
    | _ => none

theorem generated_of {ops : List Op} {w : Workspace} {h : Heap} {o1 o2 : List (Str × List Arg)}
    {file : File} (hr : Workspace.empty.run ops = some w) (h1 : o1.Perm w.args)
    (h2 : o2.Perm w.args) (ho : (w.args.flatMap fun a => bindIds a.2).Nodup) (hb : Ports16 h)
    (hf : fileOf ops h o1 o2 = some file) : Generated ops w h o1 o2 file := by
  refine ⟨hr, h1, h2, ho, hb, ?_⟩
  simp only [fileOf, hr] at hf
  cases hw : finish w h o1 o2 with
  | ok r =>
    obtain ⟨f, h'⟩ := r
    simp only [hw, Option.some.injEq] at hf
    exact ⟨h', by rw [← hf]⟩
  | error => simp [hw] at hf
  | diverges => simp [hw] at hf

theorem exHeap_bits : Ports16 exHeap := by
  intro i
  match i with
  | 0 => exact ⟨(by omega : 0 < 65536), (by omega : 0 < 65536)⟩
  | 1 => exact ⟨(by omega : 27017 < 65536), (by omega : 0 < 65536)⟩
  | (n + 2) => exact ⟨(by omega : 0 < 65536), (by omega : 0 < 65536)⟩

/-- One variable of one container in the generated file. -/
def envOf (f : Option (File)) (c x : Str) : Option Value :=
  (f.bind (· c)).bind (·.config x)

/-- The file of the example, as the theorems above say it should be. -/
theorem exFile : ∃ w file, Generated exOps w exHeap [exDb, exFront, exServer] [exServer, exDb, exFront] file ∧
    (∀ a ∈ w.args, NoClash exHeap a.2) ∧
    envOf (some file) "front".toList "USER_GRPC_DIAL_ADDR".toList = some (.addr "user_ctr".toList 2000) ∧
    envOf (some file) "front".toList "MAIL_DIAL_ADDR".toList =
      some (.required "MAIL_DIAL_ADDR".toList "mail.dial_addr".toList) ∧
    envOf (some file) "user_ctr".toList "DB_DIAL_ADDR".toList = some (.addr "db_ctr".toList 27017) ∧
    envOf (some file) "user_ctr".toList "USER_HTTP_BIND_ADDR".toList = some (.listen 2001) ∧
    envOf (some file) "user_ctr".toList "JAEGER".toList = some (.optional "JAEGER".toList) ∧
    envOf (some file) "db_ctr".toList "DB_BIND_ADDR".toList = none ∧
    envOf (some file) "db_ctr".toList "USER".toList = some (.lit "root".toList) := by
  cases hf : fileOf exOps exHeap [exDb, exFront, exServer] [exServer, exDb, exFront] with
  | none =>
    have : (fileOf exOps exHeap [exDb, exFront, exServer] [exServer, exDb, exFront]).isSome = true := by
      decide +kernel
    rw [hf] at this
    simp at this
  | some file =>
    refine ⟨_, file, generated_of rfl (by decide) (by decide) (by decide) exHeap_bits hf, ?_, ?_⟩
    · show ∀ a ∈ [exServer, exDb, exFront], NoClash exHeap a.2
      have hk : ∀ a ∈ [exServer, exDb, exFront], ∀ x ∈ a.2, ∀ y ∈ a.2,
          (argKey exHeap x).map envVar = (argKey exHeap y).map envVar → x = y := by decide +kernel
      intro a ha x hx y hy k l hxk hyl he
      exact hk a ha x hx y hy (by rw [hxk, hyl]; simp [he])
    · rw [← hf]
      decide +kernel

/-- C49 needs different variable names: of two dial addresses whose names become the same
variable name, only the last is set, even if the first one's server is in the deployment. -/
theorem C49_clash_refuted : ∃ ops w h o1 o2 file n args key addr,
    Generated ops w h o1 o2 file ∧ (n, args) ∈ w.args ∧ .dial key addr ∈ args ∧
    (∃ a ∈ w.args, ∃ i, .bind i ∈ a.2 ∧ (h i).addr = addr) ∧
    envOf (some file) (cleanName n) (envVar key) = some (.required (envVar key) "db_dial_addr".toList) := by
  let front : Str × List Arg := ("front".toList,
    [.dial "db.dial_addr".toList "db.addr".toList, .dial "db_dial_addr".toList "db_addr".toList])
  let ops : List Op := [.declare exDb.1 exDb.2, .declare front.1 front.2]
  cases hf : fileOf ops exHeap [exDb, front] [exDb, front] with
  | none =>
    have : (fileOf ops exHeap [exDb, front] [exDb, front]).isSome = true := by decide +kernel
    rw [hf] at this
    simp at this
  | some file =>
    refine ⟨ops, _, exHeap, _, _, file, front.1, front.2, "db.dial_addr".toList, "db.addr".toList,
      generated_of rfl (by decide) (by decide) (by decide) exHeap_bits hf,
      (by decide : front ∈ [exDb, front]), by decide, ⟨exDb, (by decide : exDb ∈ [exDb, front]), 1,
        by decide, rfl⟩, ?_⟩
    rw [← hf]
    decide +kernel

/-- C49 needs every address to be bound once: if two containers bind it, the order in which
Go iterates over the containers decides which of them is dialled. -/
theorem C49_two_servers_refuted : ∃ ops w h o1 o2 o1' file file' n key,
    Generated ops w h o1 o2 file ∧ Generated ops w h o1' o2 file' ∧ (∀ a ∈ w.args, NoClash h a.2) ∧
    envOf (some file) n key ≠ envOf (some file') n key := by
  let heap : Heap := fun i =>
    if i = 0 then ⟨"db.bind_addr".toList, "db.addr".toList, 1000, 0⟩
    else ⟨"db.bind_addr".toList, "db.addr".toList, 2000, 0⟩
  let a : Str × List Arg := ("a".toList, [.bind 0])
  let b : Str × List Arg := ("b".toList, [.bind 1])
  let c : Str × List Arg := ("c".toList, [.dial "db.dial_addr".toList "db.addr".toList])
  let ops : List Op := [.declare a.1 a.2, .declare b.1 b.2, .declare c.1 c.2]
  have hb : Ports16 heap := by
    intro i
    simp only [heap]
    split <;> simp
  have hs1 : (fileOf ops heap [a, b, c] [a, b, c]).isSome = true := by decide +kernel
  have hs2 : (fileOf ops heap [b, a, c] [a, b, c]).isSome = true := by decide +kernel
  obtain ⟨f1, h1⟩ := Option.isSome_iff_exists.1 hs1
  obtain ⟨f2, h2⟩ := Option.isSome_iff_exists.1 hs2
  refine ⟨ops, _, heap, _, _, _, f1, f2, "c".toList, "DB_DIAL_ADDR".toList,
    generated_of rfl (by decide) (by decide) (by decide) hb h1,
    generated_of rfl (by decide) (by decide) (by decide) hb h2, ?_, ?_⟩
  · show ∀ x ∈ [a, b, c], NoClash heap x.2
    have hk : ∀ x ∈ [a, b, c], ∀ y ∈ x.2, ∀ z ∈ x.2,
        (argKey heap y).map envVar = (argKey heap z).map envVar → y = z := by decide +kernel
    intro x hx y hy z hz k l hyk hzl he
    exact hk x hx y hy z hz (by rw [hyk, hzl]; simp [he])
  · rw [← h1, ← h2]
    decide +kernel

end Verif.Deploy.Compose
