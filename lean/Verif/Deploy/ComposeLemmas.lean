import Verif.Deploy.ComposeModel

namespace Verif.Deploy.Compose
open Verif.Deploy Verif.Strings

/-- One change of the file. -/
inductive Write where
  | env (name key : Str) (v : Value)
  | expose (name : Str) (port : Nat)
  | map (name key : Str) (port : Nat)

def Write.apply (f : File) : Write → File
  | .env name key v => addEnvVar f name key v
  | .expose name port => exposePort f name port
  | .map name key port => mapPort f name port key

/-- The effect of a list of changes on one instance. -/
structure Effect (c : Str) (i i' : Inst) (ws : List Write) : Prop where
  config : ∀ x, (i'.config x = i.config x ∧
      ∀ name key v, .env name key v ∈ ws → cleanName name = c → envVar key ≠ x) ∨
    ∃ name key v, .env name key v ∈ ws ∧ cleanName name = c ∧ envVar key = x ∧ i'.config x = some v
  expose : ∀ p, i'.expose p = true ↔
    i.expose p = true ∨ ∃ name, .expose name p ∈ ws ∧ cleanName name = c
  ports : ∀ e, (i'.ports e = i.ports e ∧
      ∀ name key p, .map name key p ∈ ws → cleanName name = c → .required (envVar key) key ≠ e) ∨
    ∃ name key p, .map name key p ∈ ws ∧ cleanName name = c ∧ .required (envVar key) key = e ∧
      i'.ports e = some p

theorem Effect.nil (c : Str) (i : Inst) : Effect c i i [] := by
  refine ⟨fun x => .inl ⟨rfl, by simp⟩, by simp, fun x => .inl ⟨rfl, by simp⟩⟩

theorem Effect.trans {c : Str} {i1 i2 i3 : Inst} {a b : List Write} (h1 : Effect c i1 i2 a)
    (h2 : Effect c i2 i3 b) : Effect c i1 i3 (a ++ b) := by
  refine ⟨fun x => ?_, fun p => ?_, fun e => ?_⟩
  · rcases h2.config x with ⟨e2, n2⟩ | ⟨n, k, v, hm, r⟩
    · rcases h1.config x with ⟨e1, n1⟩ | ⟨n, k, v, hm, h3, h4, h5⟩
      · refine .inl ⟨e2.trans e1, fun n k v hm => ?_⟩
        rcases List.mem_append.1 hm with hm | hm
        · exact n1 n k v hm
        · exact n2 n k v hm
      · exact .inr ⟨n, k, v, List.mem_append_left _ hm, h3, h4, e2.trans h5⟩
    · exact .inr ⟨n, k, v, List.mem_append_right _ hm, r⟩
  · rw [h2.expose, h1.expose]
    simp only [List.mem_append]
    constructor
    · rintro ((h | ⟨n, h⟩) | ⟨n, h⟩)
      · exact .inl h
      · exact .inr ⟨n, .inl h.1, h.2⟩
      · exact .inr ⟨n, .inr h.1, h.2⟩
    · rintro (h | ⟨n, h | h, h'⟩)
      · exact .inl (.inl h)
      · exact .inl (.inr ⟨n, h, h'⟩)
      · exact .inr ⟨n, h, h'⟩
  · rcases h2.ports e with ⟨e2, n2⟩ | ⟨n, k, v, hm, r⟩
    · rcases h1.ports e with ⟨e1, n1⟩ | ⟨n, k, v, hm, h3, h4, h5⟩
      · refine .inl ⟨e2.trans e1, fun n k v hm => ?_⟩
        rcases List.mem_append.1 hm with hm | hm
        · exact n1 n k v hm
        · exact n2 n k v hm
      · exact .inr ⟨n, k, v, List.mem_append_left _ hm, h3, h4, e2.trans h5⟩
    · exact .inr ⟨n, k, v, List.mem_append_right _ hm, r⟩

theorem apply_effect (f : File) (w : Write) (c : Str) (i : Inst) (hi : f c = some i) :
    ∃ i', w.apply f c = some i' ∧ Effect c i i' [w] := by
  cases w with
  | env name key v =>
    by_cases hc : c = cleanName name
    · refine ⟨_, by simp only [Write.apply, addEnvVar, modify, if_pos hc, hi, Option.map_some]; rfl,
        ?_, ?_, ?_⟩
      · intro x
        by_cases hx : x = envVar key
        · exact .inr ⟨name, key, v, by simp, hc.symm, hx.symm, by simp [hx]⟩
        · refine .inl ⟨by simp [hx], ?_⟩
          intro n k v' hm _ he
          simp only [List.mem_singleton, Write.env.injEq] at hm
          rw [hm.2.1] at he
          exact hx he.symm
      · simp
      · intro e; exact .inl ⟨rfl, by simp⟩
    · refine ⟨i, by simp only [Write.apply, addEnvVar, modify, if_neg hc, hi], ?_, by simp, ?_⟩
      · intro x
        refine .inl ⟨rfl, ?_⟩
        intro n k v' hm hn
        simp only [List.mem_singleton, Write.env.injEq] at hm
        exact absurd (hm.1 ▸ hn).symm hc
      · intro e; exact .inl ⟨rfl, by simp⟩
  | expose name port =>
    by_cases hc : c = cleanName name
    · refine ⟨_, by simp only [Write.apply, exposePort, modify, if_pos hc, hi, Option.map_some]; rfl,
        ?_, ?_, ?_⟩
      · intro x; exact .inl ⟨rfl, by simp⟩
      · intro p
        simp only [Bool.or_eq_true, beq_iff_eq, List.mem_singleton, Write.expose.injEq]
        constructor
        · rintro (h | h)
          · exact .inr ⟨name, ⟨rfl, h⟩, hc.symm⟩
          · exact .inl h
        · rintro (h | ⟨n, ⟨-, h⟩, -⟩)
          · exact .inr h
          · exact .inl h
      · intro e; exact .inl ⟨rfl, by simp⟩
    · refine ⟨i, by simp only [Write.apply, exposePort, modify, if_neg hc, hi], ?_, ?_, ?_⟩
      · intro x; exact .inl ⟨rfl, by simp⟩
      · intro p
        constructor
        · exact .inl
        · rintro (h | ⟨n, h1, h2⟩)
          · exact h
          · simp only [List.mem_singleton, Write.expose.injEq] at h1
            exact absurd (h1.1 ▸ h2).symm hc
      · intro e; exact .inl ⟨rfl, by simp⟩
  | map name key port =>
    by_cases hc : c = cleanName name
    · refine ⟨_, by simp only [Write.apply, mapPort, modify, if_pos hc, hi, Option.map_some]; rfl,
        ?_, ?_, ?_⟩
      · intro x; exact .inl ⟨rfl, by simp⟩
      · simp
      · intro e
        by_cases hx : e = .required (envVar key) key
        · exact .inr ⟨name, key, port, by simp, hc.symm, hx.symm, by simp [hx]⟩
        · refine .inl ⟨by simp only [hx, if_false], ?_⟩
          intro n k v' hm _ he
          simp only [List.mem_singleton, Write.map.injEq] at hm
          rw [hm.2.1] at he
          exact hx he.symm
    · refine ⟨i, by simp only [Write.apply, mapPort, modify, if_neg hc, hi], ?_, by simp, ?_⟩
      · intro x; exact .inl ⟨rfl, by simp⟩
      · intro e
        refine .inl ⟨rfl, ?_⟩
        intro n k v' hm hn
        simp only [List.mem_singleton, Write.map.injEq] at hm
        exact absurd (hm.1 ▸ hn).symm hc

theorem applyAll_effect (ws : List Write) (f : File) (c : Str) (i : Inst) (hi : f c = some i) :
    ∃ i', ws.foldl Write.apply f c = some i' ∧ Effect c i i' ws := by
  induction ws generalizing f i with
  | nil => exact ⟨i, hi, .nil c i⟩
  | cons w ws ih =>
    obtain ⟨i1, h1, e1⟩ := apply_effect f w c i hi
    obtain ⟨i2, h2, e2⟩ := ih _ _ h1
    exact ⟨i2, h2, e1.trans e2⟩

theorem modify_none (f : File) (name : Str) (g : Inst → Inst) (c : Str) (h : f c = none) :
    modify f name g c = none := by
  simp only [modify, h]
  split <;> rfl

theorem applyAll_none (ws : List Write) (f : File) (c : Str) (hi : f c = none) :
    ws.foldl Write.apply f c = none := by
  induction ws generalizing f with
  | nil => exact hi
  | cons w ws ih =>
    refine ih _ ?_
    cases w <;> exact modify_none _ _ _ _ hi

/-! ### The changes that processArgNodes makes -/

/-- The changes for one instance in the first loop; `P` are the ports. -/
inductive First (h : Heap) (P : Nat → Nat) (name : Str) (args : List Arg) : Write → Prop where
  | config (n : Str) (optional : Bool) : .config n optional false ∈ args →
      First h P name args (.env name n (passValue n optional))
  | assigned (i : Nat) : .bind i ∈ args → (h i).port = 0 →
      First h P name args (.env name (h i).key (.listen (P i)))
  | expose (i : Nat) : .bind i ∈ args → First h P name args (.expose name (P i))
  | map (i : Nat) : .bind i ∈ args → First h P name args (.map name (h i).key (P i))

/-- The value of a dial. -/
def dialValue (addresses : Str → Option (Str × Nat)) (key addr : Str) : Value :=
  match addresses addr with
  | some (host, port) => .addr host port
  | none => passValue key false

theorem passConfigs_writes (name : Str) (args : List Arg) (f f' : File)
    (h : passConfigs f name args = .ok f') :
    .other ∉ args ∧ ∃ ws : List Write, f' = ws.foldl Write.apply f ∧
      ∀ w, w ∈ ws ↔ ∃ n optional, .config n optional false ∈ args ∧
        w = .env name n (passValue n optional) := by
  induction args generalizing f with
  | nil =>
    simp only [passConfigs, Outcome.ok.injEq] at h
    exact ⟨by simp, [], h.symm, by simp⟩
  | cons a args ih =>
    cases a with
    | bind i =>
      obtain ⟨h1, ws, h2, h3⟩ := ih f h
      exact ⟨by simpa using h1, ws, h2, by simpa using h3⟩
    | dial k d =>
      obtain ⟨h1, ws, h2, h3⟩ := ih f h
      exact ⟨by simpa using h1, ws, h2, by simpa using h3⟩
    | other => simp [passConfigs] at h
    | config n o v =>
      rw [passConfigs] at h
      obtain ⟨h1, ws, h2, h3⟩ := ih _ h
      refine ⟨by simpa using h1, ?_⟩
      cases v with
      | true => exact ⟨ws, h2, by simpa using h3⟩
      | false =>
        refine ⟨.env name n (passValue n o) :: ws, h2, fun w => ?_⟩
        simp only [List.mem_cons, h3]
        constructor
        · rintro (rfl | ⟨n', o', hm, rfl⟩)
          · exact ⟨n, o, .inl rfl, rfl⟩
          · exact ⟨n', o', .inr hm, rfl⟩
        · rintro ⟨n', o', hm | hm, rfl⟩
          · simp only [Arg.config.injEq, and_true] at hm
            obtain ⟨rfl, rfl⟩ := hm
            exact .inl rfl
          · exact .inr ⟨n', o', hm, rfl⟩

theorem setAssigned_eq (h : Heap) (name : Str) (ids : List Nat) (f : File) :
    setAssigned h name f ids =
      (ids.map fun i => Write.env name (h i).key (.listen (h i).port)).foldl Write.apply f := by
  induction ids generalizing f with
  | nil => rfl
  | cons i ids ih => exact ih _

theorem exposeAll_eq (h : Heap) (name : Str) (ids : List Nat) (f : File) :
    exposeAll h name f ids = (ids.map fun i => Write.expose name (h i).port).foldl Write.apply f := by
  induction ids generalizing f with
  | nil => rfl
  | cons i ids ih => exact ih _

theorem mapAll_eq (h : Heap) (name : Str) (ids : List Nat) (f : File) :
    mapAll h name f ids =
      (ids.map fun i => Write.map name (h i).key (h i).port).foldl Write.apply f := by
  induction ids generalizing f with
  | nil => rfl
  | cons i ids ih => exact ih _

theorem noteAddresses_spec (h : Heap) (name : Str) (ids : List Nat) (a : Str → Option (Str × Nat))
    (x : Str) :
    (noteAddresses h name a ids x = a x ∧ ∀ i ∈ ids, (h i).addr ≠ x) ∨
    ∃ i ∈ ids, (h i).addr = x ∧ noteAddresses h name a ids x = some (cleanName name, (h i).port) := by
  induction ids generalizing a with
  | nil => exact .inl ⟨rfl, by simp⟩
  | cons i ids ih =>
    rw [noteAddresses]
    rcases ih (fun y => if y = (h i).addr then some (cleanName name, (h i).port) else a y) with
      ⟨h1, h2⟩ | ⟨j, h1, h2, h3⟩
    · by_cases hx : x = (h i).addr
      · exact .inr ⟨i, by simp, hx.symm, by rw [h1, if_pos hx]⟩
      · refine .inl ⟨by rw [h1, if_neg hx], fun j hj => ?_⟩
        rcases List.mem_cons.1 hj with rfl | hj
        · exact fun h => hx h.symm
        · exact h2 j hj
    · exact .inr ⟨j, List.mem_cons_of_mem _ h1, h2, h3⟩

/-- The ports that the assignment chooses for one instance. -/
def PortsOf (h : Heap) (P : Nat → Nat) (ids : List Nat) : Prop :=
  ∃ h' asg, assignPorts h ids = .ok (h', asg) ∧ ∀ i ∈ ids, P i = (h' i).port

theorem processInstance_spec (s s' : St) (name : Str) (args : List Arg) (hn : (bindIds args).Nodup)
    (h16 : Ports16 s.heap) (h : processInstance s name args = .ok s') :
    .other ∉ args ∧ ∃ h1 asg, assignPorts s.heap (bindIds args) = .ok (h1, asg) ∧
      (∃ ws : List Write, s'.file = ws.foldl Write.apply s.file ∧
        ∀ w, w ∈ ws ↔ First s.heap (fun i => (h1 i).port) name args w) ∧
      s'.heap = clearPorts h1 (bindIds args) ∧
      s'.addresses = noteAddresses h1 name s.addresses (bindIds args) := by
  simp only [processInstance] at h
  cases hp : passConfigs s.file name args with
  | error => simp [hp] at h
  | diverges => simp [hp] at h
  | ok f =>
    simp only [hp] at h
    cases ha : assignPorts s.heap (bindIds args) with
    | error => simp [ha] at h
    | diverges => simp [ha] at h
    | ok r =>
      obtain ⟨h1, asg⟩ := r
      simp only [ha, Outcome.ok.injEq] at h
      obtain ⟨ho, ws, hf, hw⟩ := passConfigs_writes _ _ _ _ hp
      have hA := assignPorts_spec _ _ _ _ hn h16 ha
      refine ⟨ho, h1, asg, rfl, ?_, by rw [← h], by rw [← h]⟩
      refine ⟨ws ++ (asg.map fun i => Write.env name (h1 i).key (.listen (h1 i).port)) ++
        ((bindIds args).map fun i => Write.expose name (h1 i).port) ++
        ((bindIds args).map fun i => Write.map name (h1 i).key (h1 i).port), ?_, ?_⟩
      · rw [← h]
        simp only [List.foldl_append, setAssigned_eq, exposeAll_eq, mapAll_eq, hf]
      · intro w
        simp only [List.mem_append, List.mem_map, hw, hA.asg, mem_bindIds]
        constructor
        · rintro (((⟨n, o, h1, rfl⟩ | ⟨i, ⟨h1, h2⟩, rfl⟩) | ⟨i, h1, rfl⟩) | ⟨i, h1, rfl⟩)
          · exact .config n o h1
          · rw [(hA.same i).1]; exact .assigned i h1 h2
          · exact .expose i h1
          · rw [(hA.same i).1]; exact .map i h1
        · rintro (⟨n, o, h1⟩ | ⟨i, h1, h2⟩ | ⟨i, h1⟩ | ⟨i, h1⟩)
          · exact .inl (.inl (.inl ⟨n, o, h1, rfl⟩))
          · exact .inl (.inl (.inr ⟨i, ⟨h1, h2⟩, by rw [(hA.same i).1]⟩))
          · exact .inl (.inr ⟨i, h1, rfl⟩)
          · exact .inr ⟨i, h1, by rw [(hA.same i).1]⟩

/-- Port assignment looks only at the objects it is given. -/
theorem assignPorts_congr (g h h1 : Heap) (ids asg : List Nat) (hn : ids.Nodup)
    (hgh : ∀ i ∈ ids, g i = h i) (ha : assignPorts g ids = .ok (h1, asg)) :
    ∃ h2, assignPorts h ids = .ok (h2, asg) ∧ ∀ i ∈ ids, h2 i = h1 i := by
  have hl : (ids.map fun i => (⟨"", (g i).port, (g i).preferred⟩ : Address.Bind)) =
      ids.map fun i => ⟨"", (h i).port, (h i).preferred⟩ :=
    List.map_congr_left fun i hi => by rw [hgh i hi]
  simp only [assignPorts] at ha ⊢
  rw [hl] at ha
  cases hp : Address.assignPorts (ids.map fun i => ⟨"", (h i).port, (h i).preferred⟩) with
  | conflict _ => simp [hp] at ha
  | diverges => simp [hp] at ha
  | ok out pre asg0 =>
    simp only [hp, Outcome.ok.injEq, Prod.mk.injEq] at ha ⊢
    obtain ⟨rfl, rfl⟩ := ha
    refine ⟨_, ⟨rfl, rfl⟩, fun i hi => ?_⟩
    obtain ⟨n, hlt, rfl⟩ := List.mem_iff_getElem.1 hi
    by_cases hlen : n < out.length
    · have h1 : ids[n]? = some ids[n] := List.getElem?_eq_getElem hlt
      have h2 : out[n]? = some out[n] := List.getElem?_eq_getElem hlen
      rw [writePorts_at ids out h hn n _ _ h1 h2, writePorts_at ids out g hn n _ _ h1 h2, hgh _ hi]
    · have : ∀ (ids : List Nat) (out : List Address.Bind) (h : Heap) (n : Nat) (hlt : n < ids.length),
          ids.Nodup → out.length ≤ n → writePorts h ids out ids[n] = h ids[n] := by
        intro ids
        induction ids with
        | nil => intro out h n hlt; simp at hlt
        | cons k ids ih =>
          intro out h n hlt hn ho
          cases out with
          | nil => rfl
          | cons o out =>
            cases n with
            | zero => simp at ho
            | succ n =>
              simp only [List.nodup_cons] at hn
              simp only [List.getElem_cons_succ, writePorts]
              rw [ih _ _ n (by simpa using hlt) hn.2 (by simpa using ho)]
              have : ids[n]'(by simpa using hlt) ≠ k := fun e => hn.1 (e ▸ List.getElem_mem _)
              simp [this]
      rw [this _ _ _ _ hlt hn (by omega), this _ _ _ _ hlt hn (by omega), hgh _ hi]

theorem nodup_of_flatMap {α : Type} {o : List α} {g : α → List Nat} (hn : (o.flatMap g).Nodup)
    {a : α} (ha : a ∈ o) : (g a).Nodup := by
  induction o with
  | nil => simp at ha
  | cons b o ih =>
    simp only [List.flatMap_cons] at hn
    obtain ⟨h1, h2, -⟩ := List.nodup_append.1 hn
    rcases List.mem_cons.1 ha with rfl | ha
    · exact h1
    · exact ih h2 ha

theorem firstLoop_spec (o : List (Str × List Arg)) : ∀ (s s' : St),
    (o.flatMap fun a => bindIds a.2).Nodup → Ports16 s.heap → firstLoop s o = .ok s' →
    (∀ a ∈ o, .other ∉ a.2) ∧ ∃ P : Nat → Nat,
      (∀ a ∈ o, PortsOf s.heap P (bindIds a.2)) ∧
      (∃ ws : List Write, s'.file = ws.foldl Write.apply s.file ∧
        ∀ w, w ∈ ws ↔ ∃ a ∈ o, First s.heap P a.1 a.2 w) ∧
      (∀ x, (s'.addresses x = s.addresses x ∧
          ∀ a ∈ o, ∀ i, .bind i ∈ a.2 → (s.heap i).addr ≠ x) ∨
        ∃ a ∈ o, ∃ i, .bind i ∈ a.2 ∧ (s.heap i).addr = x ∧
          s'.addresses x = some (cleanName a.1, P i)) := by
  induction o with
  | nil =>
    intro s s' _ _ h
    simp only [firstLoop, Outcome.ok.injEq] at h
    subst h
    exact ⟨by simp, fun _ => 0, by simp, ⟨[], rfl, by simp⟩, fun x => .inl ⟨rfl, by simp⟩⟩
  | cons a rest ih =>
    obtain ⟨name, args⟩ := a
    intro s s' hn h16 h
    simp only [List.flatMap_cons] at hn
    obtain ⟨hn1, hn2, hdis⟩ := List.nodup_append.1 hn
    rw [firstLoop] at h
    cases hp : processInstance s name args with
    | error => simp [hp] at h
    | diverges => simp [hp] at h
    | ok s1 =>
      simp only [hp] at h
      obtain ⟨ho, h1, asg, hasg, ⟨ws, hws, hww⟩, hheap, haddr⟩ := processInstance_spec _ _ _ _ hn1 h16 hp
      have hA := assignPorts_spec _ _ _ _ hn1 h16 hasg
      have h16' : Ports16 s1.heap := by
        intro i
        rw [hheap]
        by_cases hi : i ∈ bindIds args
        · have := hA.bits i hi
          simp only [clearPorts, hi, if_true]
          omega
        · simp only [clearPorts, hi, if_false, hA.others i hi]
          exact h16 i
      have hout : ∀ i, i ∉ bindIds args → s1.heap i = s.heap i := by
        intro i hi
        rw [hheap]
        simp only [clearPorts, hi, if_false, hA.others i hi]
      have hrest : ∀ a ∈ rest, ∀ i ∈ bindIds a.2, i ∉ bindIds args := by
        intro a ha i hi hc
        exact hdis i hc i (List.mem_flatMap.2 ⟨a, ha, hi⟩) rfl
      obtain ⟨ho2, P', hP, ⟨ws2, hws2, hww2⟩, had⟩ := ih s1 s' hn2 h16' h
      refine ⟨?_, fun i => if i ∈ bindIds args then (h1 i).port else P' i, ?_, ?_, ?_⟩
      · intro b hb
        rcases List.mem_cons.1 hb with rfl | hb
        · exact ho
        · exact ho2 b hb
      · intro b hb
        rcases List.mem_cons.1 hb with rfl | hb
        · exact ⟨h1, asg, hasg, fun i hi => by simp only [hi, if_true]⟩
        · obtain ⟨g, as, hg, hpg⟩ := hP b hb
          have hnb : (bindIds b.2).Nodup := by
            exact nodup_of_flatMap hn2 hb
          obtain ⟨g2, hg2, hsame⟩ := assignPorts_congr _ s.heap _ _ _ hnb
            (fun i hi => hout i (hrest b hb i hi)) hg
          refine ⟨g2, as, hg2, fun i hi => ?_⟩
          simp only [hrest b hb i hi, if_false, hpg i hi, hsame i hi]
      · refine ⟨ws ++ ws2, by rw [hws2, hws, List.foldl_append], fun w => ?_⟩
        rw [List.mem_append, hww, hww2]
        have e1 : First s.heap (fun i => (h1 i).port) name args w ↔
            First s.heap (fun i => if i ∈ bindIds args then (h1 i).port else P' i) name args w := by
          constructor
          · rintro (⟨n, o, hm⟩ | ⟨i, hm, hz⟩ | ⟨i, hm⟩ | ⟨i, hm⟩)
            · exact .config n o hm
            all_goals
              have := First.assigned (h := s.heap) (name := name)
                (P := fun i => if i ∈ bindIds args then (h1 i).port else P' i) i hm
              have := First.expose (h := s.heap) (name := name)
                (P := fun i => if i ∈ bindIds args then (h1 i).port else P' i) i hm
              have := First.map (h := s.heap) (name := name)
                (P := fun i => if i ∈ bindIds args then (h1 i).port else P' i) i hm
              simp_all only [(mem_bindIds args i).2 hm, if_true, forall_const]
          · intro hw
            cases hw with
            | config n o hm => exact .config n o hm
            | assigned i hm hz =>
              simp only [(mem_bindIds args i).2 hm, if_true]; exact .assigned i hm hz
            | expose i hm =>
              simp only [(mem_bindIds args i).2 hm, if_true]; exact .expose i hm
            | map i hm =>
              simp only [(mem_bindIds args i).2 hm, if_true]; exact .map i hm
        have e2 : ∀ a ∈ rest, (First s1.heap P' a.1 a.2 w ↔
            First s.heap (fun i => if i ∈ bindIds args then (h1 i).port else P' i) a.1 a.2 w) := by
          intro a ha
          have hni : ∀ i, .bind i ∈ a.2 → i ∉ bindIds args := fun i hi =>
            hrest a ha i ((mem_bindIds _ _).2 hi)
          constructor
          · intro hw
            cases hw with
            | config n o hm => exact .config n o hm
            | assigned i hm hz =>
              have := First.assigned (h := s.heap) (name := a.1)
                (P := fun i => if i ∈ bindIds args then (h1 i).port else P' i) i hm
                (by rw [← hout i (hni i hm)]; exact hz)
              simpa only [hout i (hni i hm), hni i hm, if_false] using this
            | expose i hm =>
              have := First.expose (h := s.heap) (name := a.1)
                (P := fun i => if i ∈ bindIds args then (h1 i).port else P' i) i hm
              simpa only [hni i hm, if_false] using this
            | map i hm =>
              have := First.map (h := s.heap) (name := a.1)
                (P := fun i => if i ∈ bindIds args then (h1 i).port else P' i) i hm
              simpa only [hout i (hni i hm), hni i hm, if_false] using this
          · intro hw
            cases hw with
            | config n o hm => exact .config n o hm
            | assigned i hm hz =>
              simp only [hni i hm, if_false, ← hout i (hni i hm)]
              exact .assigned i hm (by rw [hout i (hni i hm)]; exact hz)
            | expose i hm => simp only [hni i hm, if_false]; exact .expose i hm
            | map i hm =>
              simp only [hni i hm, if_false, ← hout i (hni i hm)]; exact .map i hm
        constructor
        · rintro (hw | ⟨a, ha, hw⟩)
          · exact ⟨_, List.mem_cons_self, e1.1 hw⟩
          · exact ⟨a, List.mem_cons_of_mem _ ha, (e2 a ha).1 hw⟩
        · rintro ⟨a, ha, hw⟩
          rcases List.mem_cons.1 ha with rfl | ha
          · exact .inl (e1.2 hw)
          · exact .inr ⟨a, ha, (e2 a ha).2 hw⟩
      · intro x
        rcases had x with ⟨hx1, hx2⟩ | ⟨a, ha, i, hi, hx, he⟩
        · rw [haddr] at hx1
          rcases noteAddresses_spec h1 name (bindIds args) s.addresses x with ⟨hy1, hy2⟩ | ⟨i, hi, hy1, hy2⟩
          · refine .inl ⟨hx1.trans hy1, fun a ha i hi => ?_⟩
            rcases List.mem_cons.1 ha with rfl | ha
            · rw [← (hA.same i).2]; exact hy2 i ((mem_bindIds _ _).2 hi)
            · rw [← hout i (hrest a ha i ((mem_bindIds _ _).2 hi))]
              exact hx2 a ha i hi
          · refine .inr ⟨_, List.mem_cons_self, i, (mem_bindIds _ _).1 hi, ?_, ?_⟩
            · rw [← (hA.same i).2]; exact hy1
            · rw [hx1, hy2]; simp only [hi, if_true]
        · have hni := hrest a ha i ((mem_bindIds _ _).2 hi)
          exact .inr ⟨a, List.mem_cons_of_mem _ ha, i, hi, by rw [← hout i hni]; exact hx,
            by rw [he]; simp only [hni, if_false]⟩

theorem setDials_writes (addresses : Str → Option (Str × Nat)) (name : Str) (args : List Arg)
    (f : File) : ∃ ws : List Write, setDials addresses name f args = ws.foldl Write.apply f ∧
      ∀ w, w ∈ ws ↔ ∃ key addr, .dial key addr ∈ args ∧
        w = .env name key (dialValue addresses key addr) := by
  induction args generalizing f with
  | nil => exact ⟨[], rfl, by simp⟩
  | cons a args ih =>
    cases a with
    | dial k d =>
      have e : setDials addresses name f (.dial k d :: args) =
          setDials addresses name (Write.apply f (.env name k (dialValue addresses k d))) args := by
        rw [setDials]
        unfold dialValue
        cases addresses d <;> rfl
      obtain ⟨ws, h1, h2⟩ := ih (Write.apply f (.env name k (dialValue addresses k d)))
      refine ⟨.env name k (dialValue addresses k d) :: ws, by rw [e, h1]; rfl, fun w => ?_⟩
      simp only [List.mem_cons, h2]
      constructor
      · rintro (rfl | ⟨k', d', hm, rfl⟩)
        · exact ⟨k, d, .inl rfl, rfl⟩
        · exact ⟨k', d', .inr hm, rfl⟩
      · rintro ⟨k', d', hm | hm, rfl⟩
        · simp only [Arg.dial.injEq] at hm
          obtain ⟨rfl, rfl⟩ := hm
          exact .inl rfl
        · exact .inr ⟨k', d', hm, rfl⟩
    | bind i =>
      obtain ⟨ws, h1, h2⟩ := ih f
      exact ⟨ws, h1, by simpa using h2⟩
    | config n o v =>
      obtain ⟨ws, h1, h2⟩ := ih f
      exact ⟨ws, h1, by simpa using h2⟩
    | other =>
      obtain ⟨ws, h1, h2⟩ := ih f
      exact ⟨ws, h1, by simpa using h2⟩

theorem secondLoop_writes (addresses : Str → Option (Str × Nat)) (o : List (Str × List Arg))
    (f : File) : ∃ ws : List Write, secondLoop addresses f o = ws.foldl Write.apply f ∧
      ∀ w, w ∈ ws ↔ ∃ a ∈ o, ∃ key addr, .dial key addr ∈ a.2 ∧
        w = .env a.1 key (dialValue addresses key addr) := by
  induction o generalizing f with
  | nil => exact ⟨[], rfl, by simp⟩
  | cons a o ih =>
    obtain ⟨name, args⟩ := a
    obtain ⟨ws, h1, h2⟩ := setDials_writes addresses name args f
    obtain ⟨ws2, h3, h4⟩ := ih (setDials addresses name f args)
    refine ⟨ws ++ ws2, by rw [secondLoop, h3, h1, List.foldl_append], fun w => ?_⟩
    rw [List.mem_append, h2, h4]
    simp only [List.mem_cons, exists_eq_or_imp]

/-- All changes that processArgNodes makes. -/
theorem finish_spec (w : Workspace) (h h' : Heap) (o1 o2 : List (Str × List Arg)) (file : File)
    (hn : (o1.flatMap fun a => bindIds a.2).Nodup) (h16 : Ports16 h)
    (hf : finish w h o1 o2 = .ok (file, h')) :
    (∀ a ∈ o1, .other ∉ a.2) ∧ ∃ (P : Nat → Nat) (addresses : Str → Option (Str × Nat)),
      (∀ a ∈ o1, PortsOf h P (bindIds a.2)) ∧
      (∃ ws : List Write, file = ws.foldl Write.apply w.file ∧
        ∀ x, x ∈ ws ↔ (∃ a ∈ o1, First h P a.1 a.2 x) ∨
          ∃ a ∈ o2, ∃ key addr, .dial key addr ∈ a.2 ∧
            x = .env a.1 key (dialValue addresses key addr)) ∧
      (∀ x, (addresses x = none ∧ ∀ a ∈ o1, ∀ i, .bind i ∈ a.2 → (h i).addr ≠ x) ∨
        ∃ a ∈ o1, ∃ i, .bind i ∈ a.2 ∧ (h i).addr = x ∧
          addresses x = some (cleanName a.1, P i)) := by
  rw [finish] at hf
  cases h1 : firstLoop ⟨w.file, h, fun _ => none⟩ o1 with
  | error => simp [h1] at hf
  | diverges => simp [h1] at hf
  | ok s =>
    simp only [h1, Outcome.ok.injEq, Prod.mk.injEq] at hf
    obtain ⟨ho, P, hP, ⟨ws, hws, hw⟩, had⟩ := firstLoop_spec o1 _ _ hn h16 h1
    obtain ⟨ws2, hws2, hw2⟩ := secondLoop_writes s.addresses o2 s.file
    refine ⟨ho, P, s.addresses, hP, ⟨ws ++ ws2, ?_, fun x => ?_⟩, had⟩
    · rw [← hf.1, hws2, hws, List.foldl_append]
    · rw [List.mem_append, hw, hw2]

end Verif.Deploy.Compose
