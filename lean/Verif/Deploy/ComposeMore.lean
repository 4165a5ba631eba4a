import Verif.Deploy.ComposeProps

/-
C49: when a docker-compose file is generated, and that ports are usable.
-/
namespace Verif.Deploy.Compose
open Verif.Deploy Verif.Strings

theorem passConfigs_total (name : Str) : ∀ (args : List Arg) (f : File), .other ∉ args → ∃ f', passConfigs f name args = .ok f'
  | [], f, _ => ⟨f, rfl⟩
  | a :: args, f, h => by
    have h' : .other ∉ args := fun hm => h (by simp [hm])
    cases a with
    | bind i => exact passConfigs_total name args f h'
    | dial k d => exact passConfigs_total name args f h'
    | config n o v => exact passConfigs_total name args _ h'
    | other => simp at h

/-- The ports that are fixed in advance are different. -/
def PresetDistinct (h : Heap) (ids : List Nat) : Prop := ((ids.map fun i => (h i).port).filter (· ≠ 0)).Nodup

theorem assignPorts_total {h : Heap} {ids : List Nat} (h16 : Ports16 h) (hp : PresetDistinct h ids) (hl : ids.length ≤ 65536) :
    ∃ h' asg, assignPorts h ids = .ok (h', asg) := by
  unfold assignPorts
  cases hr : Address.assignPorts (ids.map fun i => ⟨"", (h i).port, (h i).preferred⟩) with
  | conflict after =>
    have := (Address.C21_fails_iff_conflict (ids.map fun i => ⟨"", (h i).port, (h i).preferred⟩)).1.1 ⟨after, hr⟩
    refine absurd ?_ this
    rw [List.map_map]
    exact hp
  | diverges =>
    refine absurd hr (Address.C21_terminates _ ?_ (by simpa using hl))
    intro b hb
    obtain ⟨i, -, rfl⟩ := List.mem_map.1 hb
    exact h16 i
  | ok out pre asg => exact ⟨_, _, rfl⟩

theorem assignPorts_same {g h : Heap} {ids : List Nat} (e : ∀ i ∈ ids, g i = h i) :
    (∃ x, assignPorts g ids = .ok x) ↔ ∃ x, assignPorts h ids = .ok x := by
  have : (ids.map fun i => (⟨"", (g i).port, (g i).preferred⟩ : Address.Bind)) = ids.map fun i => ⟨"", (h i).port, (h i).preferred⟩ :=
    List.map_congr_left fun i hi => by rw [e i hi]
  unfold assignPorts
  rw [this]
  cases Address.assignPorts (ids.map fun i => ⟨"", (h i).port, (h i).preferred⟩) <;> simp

theorem firstLoop_total {h : Heap} (h16 : Ports16 h) : ∀ (o : List (Str × List Arg)) (s : St),
    (o.flatMap fun a => bindIds a.2).Nodup → (∀ a ∈ o, .other ∉ a.2 ∧ PresetDistinct h (bindIds a.2) ∧ (bindIds a.2).length ≤ 65536) →
    (∀ a ∈ o, ∀ i ∈ bindIds a.2, s.heap i = h i) → ∃ s', firstLoop s o = .ok s'
  | [], s, _, _, _ => ⟨s, rfl⟩
  | a :: o, s, hn, ho, hs => by
    rw [List.flatMap_cons, List.nodup_append] at hn
    obtain ⟨h1, h2, h3⟩ := ho a (by simp)
    obtain ⟨f, hf⟩ := passConfigs_total a.1 a.2 s.file h1
    obtain ⟨⟨h', asg⟩, ha⟩ := (assignPorts_same (g := s.heap) (h := h) (hs a (by simp))).2
      (let ⟨h', asg, e⟩ := assignPorts_total h16 h2 h3; ⟨(h', asg), e⟩)
    have hother : ∀ i, i ∉ bindIds a.2 → h' i = s.heap i := by
      intro i hi
      simp only [assignPorts] at ha
      split at ha
      · cases ha
      · cases ha
      · simp only [Outcome.ok.injEq, Prod.mk.injEq] at ha
        rw [← ha.1]
        exact writePorts_other _ _ _ _ hi
    simp only [firstLoop, processInstance, hf, ha]
    refine firstLoop_total h16 o _ hn.2.1 (fun b hb => ho b (by simp [hb])) ?_
    intro b hb i hi
    have hni : i ∉ bindIds a.2 := fun hm => hn.2.2 i hm i (List.mem_flatMap.2 ⟨b, hb, hi⟩) rfl
    simp only [clearPorts, if_neg hni, hother i hni]
    exact hs b (by simp [hb]) i hi

/-- C49: a file is generated, in whatever order Go sees the containers, if their arguments are all configuration, no container has two
servers with the same fixed port, and none has more than 65536 servers. -/
theorem C49_generates {ops : List Op} {w : Workspace} {h : Heap} {o1 o2 : List (Str × List Arg)} (hr : Workspace.empty.run ops = some w)
    (p1 : o1.Perm w.args) (p2 : o2.Perm w.args) (hn : (w.args.flatMap fun a => bindIds a.2).Nodup) (h16 : Ports16 h)
    (ha : ∀ a ∈ w.args, .other ∉ a.2 ∧ PresetDistinct h (bindIds a.2) ∧ (bindIds a.2).length ≤ 65536) :
    ∃ file, Generated ops w h o1 o2 file := by
  obtain ⟨s', hs⟩ := firstLoop_total h16 o1 ⟨w.file, h, fun _ => none⟩ (((p1.flatMap_right _).nodup_iff).2 hn)
    (fun a hm => ha a (p1.mem_iff.1 hm)) (fun _ _ _ _ => rfl)
  refine ⟨secondLoop s'.addresses s'.file o2, ⟨hr, p1, p2, hn, h16, s'.heap, ?_⟩⟩
  simp only [finish, hs]

/-- C49, in part: each server of a container gets a port of its own that is not 0, if every preferred port leaves room above it for all
servers.  Missing: preferred ports at the top of the range, see C21_port_zero_refuted. -/
theorem C49_servers_reachable_partial {ops : List Op} {w : Workspace} {h : Heap} {o1 o2 : List (Str × List Arg)} {file : File}
    (g : Generated ops w h o1 o2 file) (n : Str) (args : List Arg) (hm : (n, args) ∈ w.args) (hnc : NoClash h args)
    (hroom : ∀ i, .bind i ∈ args → (h i).preferred + (bindIds args).length ≤ 65536) (hlen : 2000 + (bindIds args).length ≤ 65536) :
    ∃ P : Nat → Nat, (∀ i, .bind i ∈ args → Serves file h n i (P i) ∧ P i ≠ 0 ∧ P i < 65536) ∧
      ∀ i j, .bind i ∈ args → .bind j ∈ args → P i = P j → i = j := by
  obtain ⟨-, P, addresses, hP, -, -, hcon⟩ := g.container
  obtain ⟨i0, c, -, hf, hc, he, hp⟩ := hcon n args hm
  have hnd : (bindIds args).Nodup := nodup_of_flatMap (g := fun a => bindIds a.2) g.objects hm
  obtain ⟨h1, asg, ha, hPi⟩ := hP _ hm
  have hA := assignPorts_spec _ _ _ _ hnd g.bits ha
  refine ⟨P, fun i hi => ?_, fun i j hi hj hij => ?_⟩
  · obtain ⟨hs, hb⟩ := serves_of hnc g.bits hnd (hP _ hm) hf hc he hp hi
    refine ⟨hs, ?_, hb⟩
    have hi' := (mem_bindIds _ _).2 hi
    rw [hPi i hi']
    simp only [assignPorts] at ha
    cases hr : Address.assignPorts ((bindIds args).map fun i => ⟨"", (h i).port, (h i).preferred⟩) with
    | conflict _ => simp [hr] at ha
    | diverges => simp [hr] at ha
    | ok out pre asg0 =>
      simp only [hr, Outcome.ok.injEq, Prod.mk.injEq] at ha
      have hz := Address.C21_no_zero_port_partial _ _ _ _ (by
        intro b hb
        obtain ⟨j, hj, rfl⟩ := List.mem_map.1 hb
        simpa using hroom j ((mem_bindIds _ _).1 hj)) (by simpa using hlen) hr
      have hl : out.length = (bindIds args).length := by
        have := (Address.C21_distinct_ports _ _ _ _ (by
          intro b hb
          obtain ⟨j, -, rfl⟩ := List.mem_map.1 hb
          exact g.bits j) hr).2.1
        simpa using congrArg List.length this
      obtain ⟨k, hk, rfl⟩ := List.mem_iff_getElem.1 hi'
      have hk' : k < out.length := by omega
      rw [← ha.1, writePorts_at _ _ _ hnd k _ _ (List.getElem?_eq_getElem hk) (List.getElem?_eq_getElem hk')]
      exact hz _ (List.getElem_mem hk')
  · have hi' := (mem_bindIds _ _).2 hi
    have hj' := (mem_bindIds _ _).2 hj
    exact hA.distinct i hi' j hj' (by rw [← hPi i hi', ← hPi j hj', hij])

end Verif.Deploy.Compose
