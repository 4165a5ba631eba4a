import Verif.Live.Wire
/-
The docker-compose file of a compiled application.
-/
namespace Verif.Live
open Verif.Wiring (Name)
open Verif.Compile
open Verif.Strings (cleanName envVar funcName)
open Verif.Deploy (bindIds)
open Verif.Deploy.Compose (Workspace Generated Serves NoClash argKey PresetDistinct)

/-- The prebuilt container with this name. -/
def findCtr (s : St) (rest : Space) (c : Name) : Option Name := (s.nodes rest).findSome? fun
  | .container c' a => if c' = c then some a else none
  | _ => none

/-- What a container gets from outside. -/
def gets (s : St) (rest : Space) (c : Name) : List Tree :=
  match findCtr s rest c with
  | some a => [.bind (bindName a)]
  | none => s.edges (c :: rest)

/-- The arguments of a container. -/
def containerArgs (s : St) (rest : Space) (c : Name) : List Deploy.Arg := (gets s rest c).map (configArg (allConfigs s))

/-- The environment variables that a container sets. -/
def setEnvs (s : St) (rest : Space) (image : Name → Image) (c : Name) : List (List Char × List Char) :=
  match findCtr s rest c with
  | some _ => (image c).env
  | none => []

/-- The containers of a deployment, apart from prebuilt ones. -/
def ctrs (s : St) (rest : Space) : List Name := (s.nodes rest).filterMap fun
  | .space c => some c
  | _ => none

/-- The containers of a deployment. -/
def inst : Tree → Option Name
  | .space c => some c
  | .container c _ => some c
  | _ => none

def insts (s : St) (rest : Space) : List Name := (s.nodes rest).filterMap inst

theorem findCtr_some {s : St} {rest : Space} {c a : Name} (h : findCtr s rest c = some a) : .container c a ∈ s.nodes rest := by
  unfold findCtr at h
  obtain ⟨t, ht, e⟩ := List.exists_of_findSome?_eq_some h
  cases t with
  | container c' a' =>
    simp only at e
    split at e
    · rename_i hc; cases e; exact hc ▸ ht
    · cases e
  | _ => cases e

theorem findCtr_none {s : St} {rest : Space} {c : Name} (h : findCtr s rest c = none) (a : Name) : .container c a ∉ s.nodes rest := by
  unfold findCtr at h
  rw [List.findSome?_eq_none_iff] at h
  intro hm
  have := h _ hm
  simp at this

theorem name_inj : ∀ {l : List Tree}, (l.map Tree.name).Nodup → ∀ t ∈ l, ∀ u ∈ l, t.name = u.name → t = u
  | [], _, t, ht, _, _, _ => by simp at ht
  | x :: l, h, t, ht, u, hu, e => by
    rw [List.map_cons, List.nodup_cons] at h
    rw [List.mem_cons] at ht hu
    rcases ht with rfl | ht <;> rcases hu with rfl | hu
    · rfl
    · exact absurd (List.mem_map.2 ⟨_, hu, e.symm⟩) h.1
    · exact absurd (List.mem_map.2 ⟨_, ht, e⟩) h.1
    · exact name_inj h.2 t ht u hu e

theorem findCtr_container {s : St} {rest : Space} (h : ((s.nodes rest).map Tree.name).Nodup) {c a : Name}
    (hm : .container c a ∈ s.nodes rest) : findCtr s rest c = some a := by
  cases hf : findCtr s rest c with
  | none => exact absurd hm (findCtr_none hf a)
  | some a' =>
    have := name_inj h _ hm _ (findCtr_some hf) rfl
    injection this with _ e
    rw [e]

theorem findCtr_space {s : St} {rest : Space} (h : ((s.nodes rest).map Tree.name).Nodup) {c : Name}
    (hm : .space c ∈ s.nodes rest) : findCtr s rest c = none := by
  cases hf : findCtr s rest c with
  | none => rfl
  | some a' => cases name_inj h _ hm _ (findCtr_some hf) rfl

/-- What a container asks of the deployment. -/
def askOps (a : List Char × List Deploy.Arg × List (List Char × List Char)) : List Deploy.Compose.Op :=
  .declare a.1 a.2.1 :: a.2.2.map fun e => .setEnv a.1 e.1 e.2

theorem flatMap_insts (f : Tree → List Deploy.Compose.Op) (g : Name → List Deploy.Compose.Op) : ∀ l : List Tree,
    (∀ t ∈ l, f t = match inst t with | some c => g c | none => []) → l.flatMap f = (l.filterMap inst).flatMap g
  | [], _ => rfl
  | t :: l, h => by
    have ih := flatMap_insts f g l fun u hu => h u (by simp [hu])
    rw [List.flatMap_cons, List.filterMap_cons, h t (by simp), ih]
    cases inst t <;> simp

theorem composeOps_eq {s : St} {rest : Space} (h : ((s.nodes rest).map Tree.name).Nodup) (image : Name → Image) :
    composeOps s rest image = ((insts s rest).map fun c => (c.toList, containerArgs s rest c, setEnvs s rest image c)).flatMap askOps := by
  unfold composeOps insts
  rw [List.flatMap_map]
  refine flatMap_insts _ _ _ ?_
  intro t ht
  cases t <;> simp only [inst]
  · rename_i c
    simp only [askOps, containerArgs, gets, setEnvs, findCtr_space h ht, List.map_nil]
  · rename_i c a
    simp only [askOps, containerArgs, gets, setEnvs, findCtr_container h ht, List.map_cons, List.map_nil, configArg]

theorem mem_containers {s : St} {rest : Space} {c : Name} : c ∈ ctrs s rest ↔ .space c ∈ s.nodes rest := by
  unfold ctrs
  rw [List.mem_filterMap]
  constructor
  · rintro ⟨t, ht, e⟩
    cases t <;> simp at e
    subst e; exact ht
  · intro h
    exact ⟨_, h, rfl⟩

theorem containers_nodup {s : St} {rest : Space} (h : ((s.nodes rest).map Tree.name).Nodup) : (ctrs s rest).Nodup := by
  unfold ctrs
  generalize s.nodes rest = l at h ⊢
  induction l with
  | nil => simp
  | cons t l ih =>
    rw [List.map_cons, List.nodup_cons] at h
    have := ih h.2
    cases t <;> simp only [List.filterMap_cons] <;> try exact this
    rename_i c
    rw [List.nodup_cons]
    refine ⟨fun hm => h.1 ?_, this⟩
    rw [List.mem_filterMap] at hm
    obtain ⟨t, ht, e⟩ := hm
    cases t <;> simp at e
    subst e
    exact List.mem_map.2 ⟨_, ht, rfl⟩

theorem mem_insts {s : St} {rest : Space} {c : Name} : c ∈ insts s rest ↔ .space c ∈ s.nodes rest ∨ ∃ a, .container c a ∈ s.nodes rest := by
  unfold insts
  rw [List.mem_filterMap]
  constructor
  · rintro ⟨t, ht, e⟩
    cases t <;> simp [inst] at e
    · subst e; exact .inl ht
    · subst e; exact .inr ⟨_, ht⟩
  · rintro (h | ⟨a, h⟩)
    · exact ⟨_, h, rfl⟩
    · exact ⟨_, h, rfl⟩

theorem inst_name {t : Tree} {c : Name} (h : inst t = some c) : t.name = c := by
  cases t <;> simp [inst] at h <;> exact h

theorem insts_nodup {s : St} {rest : Space} (h : ((s.nodes rest).map Tree.name).Nodup) : (insts s rest).Nodup := by
  unfold insts
  generalize s.nodes rest = l at h ⊢
  induction l with
  | nil => simp
  | cons t l ih =>
    rw [List.map_cons, List.nodup_cons] at h
    have := ih h.2
    rw [List.filterMap_cons]
    cases hi : inst t with
    | none => exact this
    | some c =>
      simp only
      rw [List.nodup_cons]
      refine ⟨fun hm => h.1 ?_, this⟩
      rw [List.mem_filterMap] at hm
      obtain ⟨u, hu, e⟩ := hm
      exact List.mem_map.2 ⟨u, hu, by rw [inst_name hi, inst_name e]⟩

theorem run_append' : ∀ (a b : List Deploy.Compose.Op) (w w' : Workspace), w.run a = some w' → w.run (a ++ b) = w'.run b
  | [], b, w, w', h => by cases h; rfl
  | op :: a, b, w, w', h => by
    simp only [List.cons_append, Workspace.run] at h ⊢
    cases hs : w.step op with
    | none => rw [hs] at h; cases h
    | some w1 =>
      rw [hs] at h
      exact run_append' a b w1 w' h

theorem run_sets (n : List Char) : ∀ (l : List (List Char × List Char)) (w : Workspace), w.file (cleanName n) ≠ none →
    ∃ w', w.run (l.map fun e => .setEnv n e.1 e.2) = some w' ∧ w'.args = w.args ∧ ∀ x, w'.file x = none ↔ w.file x = none
  | [], w, _ => ⟨w, rfl, rfl, fun _ => Iff.rfl⟩
  | e :: l, w, h => by
    obtain ⟨i, hi⟩ : ∃ i, w.file (cleanName n) = some i := by
      cases hw : w.file (cleanName n) with
      | none => exact absurd hw h
      | some i => exact ⟨i, rfl⟩
    have hf : ∀ x, Deploy.Compose.addEnvVar w.file n e.1 (.lit e.2) x = none ↔ w.file x = none := by
      intro x
      simp only [Deploy.Compose.addEnvVar, Deploy.Compose.modify]
      split <;> simp
    obtain ⟨w', h1, h2, h3⟩ := run_sets n l { w with file := Deploy.Compose.addEnvVar w.file n e.1 (.lit e.2) } (by
      intro hn
      exact h ((hf _).1 hn))
    refine ⟨w', ?_, h2, fun x => (h3 x).trans (hf x)⟩
    simp only [List.map_cons, Workspace.run, Workspace.step, hi]
    exact h1

theorem run_asks : ∀ (l : List (List Char × List Deploy.Arg × List (List Char × List Char))) (w : Workspace),
    (∀ a ∈ l, w.file (cleanName a.1) = none) → (l.map fun a => cleanName a.1).Nodup →
    ∃ w', w.run (l.flatMap askOps) = some w' ∧ w'.args = w.args ++ l.map fun a => (a.1, a.2.1)
  | [], w, _, _ => ⟨w, rfl, by simp⟩
  | a :: l, w, hf, hn => by
    rw [List.map_cons, List.nodup_cons] at hn
    obtain ⟨w1, e1, a1, f1⟩ := run_sets a.1 a.2.2 ⟨w.args ++ [(a.1, a.2.1)], fun c => if c = cleanName a.1 then some .empty else w.file c⟩
      (by simp)
    obtain ⟨w', h1, h2⟩ := run_asks l w1
      (by
        intro b hb
        have hne : cleanName b.1 ≠ cleanName a.1 := fun e => hn.1 (e ▸ List.mem_map.2 ⟨b, hb, rfl⟩)
        rw [f1]
        simp only [if_neg hne]
        exact hf b (by simp [hb]))
      hn.2
    refine ⟨w', ?_, by rw [h2, a1]; simp⟩
    rw [List.flatMap_cons, run_append' _ _ w w1, h1]
    simp only [askOps, Workspace.run, Workspace.step, hf a (by simp)]
    exact e1

theorem mem_bind {s : St} {rest : Space} {c : Name} {i : Nat} :
    .bind i ∈ containerArgs s rest c ↔ ∃ n, .bind n ∈ gets s rest c ∧ i = bindId (allConfigs s) n := by
  unfold containerArgs
  rw [List.mem_map]
  constructor
  · rintro ⟨t, ht, e⟩
    cases t <;> simp [configArg] at e
    exact ⟨_, ht, e.symm⟩
  · rintro ⟨n, hn, rfl⟩
    exact ⟨_, hn, rfl⟩

theorem mem_dial {s : St} {rest : Space} {c : Name} {k a : List Char} :
    .dial k a ∈ containerArgs s rest c ↔ ∃ n, .dial n ∈ gets s rest c ∧ k = n.toList ∧ a = addrOf n := by
  unfold containerArgs
  rw [List.mem_map]
  constructor
  · rintro ⟨t, ht, e⟩
    cases t <;> simp [configArg] at e
    exact ⟨_, ht, e.1.symm, e.2.symm⟩
  · rintro ⟨n, hn, rfl, rfl⟩
    exact ⟨_, hn, rfl⟩

section
variable {A : App} {rank : Name → Nat} {nodes : List Name} {rest : Space} {image : Name → Image} {H : Svc → Tree} {s : St}

/-- What a container gets from outside. -/
theorem Built.got (B : Built A rank nodes rest image H s) {c : Name} {t : Tree} (h : t ∈ gets s rest c) :
    (∃ S, A.Active nodes S ∧ S.rpc = true ∧ container S = c ∧ t = .bind (bindName S.addrN)) ∨
    ∃ U, A.Active nodes U ∧ U.rpc = true ∧ t = .dial (dialName U.addrN) := by
  unfold gets at h
  split at h
  · rename_i a ha
    obtain ⟨S, hS, hk, rfl, rfl⟩ := (B.prebuilt _ _).1 (findCtr_some ha)
    exact .inl ⟨S, hS, (B.fit.backs S (active_mem hS) hk).1, by simp [container, hk], List.mem_singleton.1 h⟩
  · rcases B.container_edges h with ⟨S, hS, hr, _, hc, e⟩ | h
    · exact .inl ⟨S, hS, hr, hc, e⟩
    · exact .inr h

theorem Built.gets_outer (B : Built A rank nodes rest image H s) {c : Name} {t : Tree} (h : t ∈ gets s rest c) : Outer A t.name := by
  rcases B.got h with ⟨S, hS, hr, _, rfl⟩ | ⟨U, hU, hr, rfl⟩
  · exact .inr ⟨S, active_mem hS, hr, .inl rfl⟩
  · exact .inr ⟨U, active_mem hU, hr, .inr (.inl rfl)⟩

theorem Built.gets_nodup (B : Built A rank nodes rest image H s) (c : Name) : ((gets s rest c).map Tree.name).Nodup := by
  unfold gets
  split
  · simp
  · exact B.edges_nodup _

theorem Built.gets_space (B : Built A rank nodes rest image H s) {c : Name} (h : .space c ∈ s.nodes rest) :
    gets s rest c = s.edges (c :: rest) := by
  unfold gets
  rw [findCtr_space (B.nodes_nodup rest) h]

theorem Built.inst_outer (B : Built A rank nodes rest image H s) {c : Name} (hc : c ∈ insts s rest) : Outer A c := by
  rcases mem_insts.1 hc with h | ⟨a, h⟩
  · obtain ⟨S, p, hS, hk, e⟩ := (B.containers c).1 h
    exact .inl ⟨_, B.fit.homes S (active_mem hS) [p] c rest e⟩
  · obtain ⟨S, hS, hk, rfl, rfl⟩ := (B.prebuilt _ _).1 h
    exact .inr ⟨S, active_mem hS, (B.fit.backs S (active_mem hS) hk).1, .inr (.inr ⟨hk, rfl⟩)⟩

theorem Built.clean_inj (B : Built A rank nodes rest image H s) {c c' : Name} (hc : c ∈ insts s rest) (hc' : c' ∈ insts s rest)
    (e : cleanName c.toList = cleanName c'.toList) : c = c' := by
  refine B.dep.vars _ _ (B.inst_outer hc) (B.inst_outer hc') ?_
  unfold envVar
  rw [e]

/-- The deployment is declared. -/
theorem Built.workspace (B : Built A rank nodes rest image H s) :
    ∃ w, Workspace.empty.run (composeOps s rest image) = some w ∧ w.args = (insts s rest).map fun c => (c.toList, containerArgs s rest c) := by
  rw [composeOps_eq (B.nodes_nodup rest)]
  obtain ⟨w, h1, h2⟩ := run_asks ((insts s rest).map fun c => (c.toList, containerArgs s rest c, setEnvs s rest image c)) .empty
    (fun _ _ => rfl) (by
      rw [List.map_map]
      have hn := insts_nodup (B.nodes_nodup rest)
      have hi := fun c c' hc hc' e => B.clean_inj (c := c) (c' := c') hc hc' e
      generalize insts s rest = l at hn hi
      induction l with
      | nil => simp
      | cons c l ih =>
        rw [List.nodup_cons] at hn
        rw [List.map_cons, List.nodup_cons]
        refine ⟨?_, ih hn.2 fun a b ha hb => hi a b (by simp [ha]) (by simp [hb])⟩
        intro hm
        obtain ⟨c', hc', e⟩ := List.mem_map.1 hm
        exact hn.1 (hi c' c (by simp [hc']) (by simp) e ▸ hc'))
  exact ⟨w, h1, by rw [h2, List.map_map]; rfl⟩

theorem Built.bind_edge (B : Built A rank nodes rest image H s) {c n : Name} (h : .bind n ∈ gets s rest c) :
    ∃ S, A.Active nodes S ∧ S.rpc = true ∧ container S = c ∧ n = bindName S.addrN := by
  rcases B.got h with ⟨S, hS, hr, hc, e⟩ | ⟨U, hU, hr, e⟩
  · injection e with e
    exact ⟨S, hS, hr, hc, e⟩
  · cases e

theorem Built.dial_edge (B : Built A rank nodes rest image H s) {c n : Name} (h : .dial n ∈ gets s rest c) :
    ∃ U, A.Active nodes U ∧ U.rpc = true ∧ n = dialName U.addrN := by
  rcases B.got h with ⟨S, hS, hr, hc, e⟩ | ⟨U, hU, hr, e⟩
  · cases e
  · injection e with e
    exact ⟨U, hU, hr, e⟩

/-- The number of a service's bind config. -/
def bindOf (s : St) (S : Svc) : Nat := bindId (allConfigs s) (bindName S.addrN)

theorem Built.bindOf_inj (B : Built A rank nodes rest image H s) {S U : Svc} (hS : A.Active nodes S) (hrS : S.rpc = true)
    (hU : A.Active nodes U) (hrU : U.rpc = true) (e : bindOf s S = bindOf s U) : S = U :=
  bind_inj B.fit (active_mem hS) (active_mem hU) hrS hrU (bindId_inj (B.bind_known hS hrS) (B.bind_known hU hrU) e)

theorem Built.mem_args (B : Built A rank nodes rest image H s) {c : Name} {i : Nat} (h : .bind i ∈ containerArgs s rest c) :
    ∃ S, A.Active nodes S ∧ S.rpc = true ∧ container S = c ∧ i = bindOf s S := by
  obtain ⟨n, hn, e⟩ := mem_bind.1 h
  obtain ⟨S, hS, hr, hc, rfl⟩ := B.bind_edge hn
  exact ⟨S, hS, hr, hc, e⟩

theorem Built.home (B : Built A rank nodes rest image H s) {S : Svc} (hS : S ∈ A.svcs) (hk : S.back = false) :
    ∃ p, S.home = p :: container S :: rest := by
  obtain ⟨p, c, e⟩ := B.dep.places S hS hk
  exact ⟨p, by simp [container, hk, e]⟩

theorem Built.binds (B : Built A rank nodes rest image H s) {S : Svc} (hS : A.Active nodes S) (hr : S.rpc = true) :
    container S ∈ insts s rest ∧ .bind (bindOf s S) ∈ containerArgs s rest (container S) := by
  cases hk : S.back with
  | false =>
    obtain ⟨p, e⟩ := B.home (active_mem hS) hk
    have hm := (B.containers _).2 ⟨S, p, hS, hk, e⟩
    refine ⟨mem_insts.2 (.inl hm), mem_bind.2 ⟨_, ?_, rfl⟩⟩
    rw [B.gets_space hm]
    exact (B.he _ _).2 (.bind (a := [p]) hS hr e)
  | true =>
    have hc : container S = S.serverN := by simp [container, hk]
    have hm := (B.prebuilt _ _).2 ⟨S, hS, hk, rfl, rfl⟩
    rw [hc]
    refine ⟨mem_insts.2 (.inr ⟨_, hm⟩), mem_bind.2 ⟨_, ?_, rfl⟩⟩
    unfold gets
    rw [findCtr_container (B.nodes_nodup rest) hm]
    simp

theorem Built.ids_nodup (B : Built A rank nodes rest image H s) (c : Name) : (bindIds (containerArgs s rest c)).Nodup := by
  have hn := B.gets_nodup c
  have hk : ∀ n, .bind n ∈ gets s rest c → n ∈ allConfigs s := by
    intro n h
    obtain ⟨S, hS, hr, _, rfl⟩ := B.bind_edge h
    exact B.bind_known hS hr
  unfold containerArgs
  generalize gets s rest c = l at hn hk
  induction l with
  | nil => simp [bindIds]
  | cons t l ih =>
    rw [List.map_cons, List.nodup_cons] at hn
    have ih := ih hn.2 fun n h => hk n (by simp [h])
    cases t
    case bind n =>
      simp only [List.map_cons, configArg, bindIds, List.filterMap_cons] at ih ⊢
      rw [List.nodup_cons]
      refine ⟨?_, ih⟩
      intro hm
      rw [List.mem_filterMap] at hm
      obtain ⟨a, ha, e⟩ := hm
      rw [List.mem_map] at ha
      obtain ⟨t, ht, rfl⟩ := ha
      cases t <;> simp [configArg] at e
      rename_i m
      have := bindId_inj (hk m (by simp [ht])) (hk n (by simp)) e
      subst this
      exact hn.1 (List.mem_map.2 ⟨_, ht, rfl⟩)
    all_goals simpa [configArg, bindIds, List.filterMap_cons] using ih

theorem Built.ids_length (B : Built A rank nodes rest image H s) (c : Name) : (bindIds (containerArgs s rest c)).length ≤ 53191 := by
  refine Nat.le_trans ?_ B.dep.size
  have := (B.ids_nodup c).length_le_of_subset (l₂ := A.svcs.map (bindOf s)) (by
    intro i hi
    unfold bindIds at hi
    rw [List.mem_filterMap] at hi
    obtain ⟨a, ha, e⟩ := hi
    cases a <;> simp at e
    subst e
    obtain ⟨S, hS, _, _, rfl⟩ := B.mem_args ha
    exact List.mem_map.2 ⟨S, active_mem hS, rfl⟩)
  simpa using this

theorem Built.objects (B : Built A rank nodes rest image H s) :
    (((insts s rest).map fun c => (c.toList, containerArgs s rest c)).flatMap fun a => bindIds a.2).Nodup := by
  rw [List.nodup_iff_pairwise_ne, List.pairwise_flatMap]
  constructor
  · intro a ha
    obtain ⟨c, hc, rfl⟩ := List.mem_map.1 ha
    exact B.ids_nodup c
  · rw [List.pairwise_map]
    refine (insts_nodup (B.nodes_nodup rest)).imp ?_
    intro c c' hne i hi j hj e
    subst e
    have h1 : ∀ c, i ∈ bindIds (containerArgs s rest c) → ∃ S, A.Active nodes S ∧ S.rpc = true ∧ container S = c ∧ i = bindOf s S := by
      intro c hi
      unfold bindIds at hi
      rw [List.mem_filterMap] at hi
      obtain ⟨a, ha, e⟩ := hi
      cases a <;> simp at e
      subst e
      exact B.mem_args ha
    obtain ⟨S, hS, hr, e1, e2⟩ := h1 c hi
    obtain ⟨U, hU, hr', e1', e2'⟩ := h1 c' hj
    have := B.bindOf_inj hS hr hU hr' (e2.symm.trans e2')
    subst this
    exact hne (e1.symm.trans e1')

theorem Built.noClash (B : Built A rank nodes rest image H s) (c : Name) : NoClash (heap s rest image) (containerArgs s rest c) := by
  have key : ∀ a ∈ containerArgs s rest c, ∀ k, argKey (heap s rest image) a = some k →
      ∃ t ∈ gets s rest c, a = configArg (allConfigs s) t ∧ k = t.name.toList := by
    intro a ha k hk
    obtain ⟨t, ht, rfl⟩ := List.mem_map.1 ha
    refine ⟨t, ht, rfl, ?_⟩
    cases t <;> simp [configArg, argKey] at hk
    case bind n =>
      obtain ⟨S, hS, hr, _, rfl⟩ := B.bind_edge ht
      rw [B.heap_bind hS hr] at hk
      exact hk.symm
    case dial n => exact hk.symm
  intro a ha b hb k l hk hl e
  obtain ⟨t, ht, rfl, rfl⟩ := key a ha k hk
  obtain ⟨u, hu, rfl, rfl⟩ := key b hb l hl
  have := B.dep.vars _ _ (B.gets_outer ht) (B.gets_outer hu) e
  rw [name_inj (B.gets_nodup c) t ht u hu this]

/-- No two servers of a container have the same fixed port. -/
theorem Built.preset (B : Built A rank nodes rest image H s) (c : Name) :
    PresetDistinct (heap s rest image) (bindIds (containerArgs s rest c)) := by
  unfold PresetDistinct
  cases hf : findCtr s rest c with
  | some a =>
    simp only [containerArgs, gets, hf, List.map_cons, List.map_nil, configArg, bindIds, List.filterMap_cons, List.filterMap_nil]
    simp only [List.filter_cons, List.filter_nil]
    split <;> simp
  | none =>
    rw [List.filter_eq_nil_iff.2]
    · simp
    · intro x hx
      obtain ⟨i, hi, rfl⟩ := List.mem_map.1 hx
      have hi : .bind i ∈ containerArgs s rest c := by
        unfold bindIds at hi
        rw [List.mem_filterMap] at hi
        obtain ⟨a, ha, e⟩ := hi
        cases a <;> simp at e
        subst e
        exact ha
      obtain ⟨n, hn, rfl⟩ := mem_bind.1 hi
      unfold gets at hn
      rw [hf] at hn
      rcases B.container_edges hn with ⟨S, hS, hr, hk, _, e⟩ | ⟨U, _, _, e⟩
      · injection e with e
        subst e
        rw [B.heap_bind hS hr]
        simp [hk]
      · cases e

/-- What the docker-compose file says. -/
structure Composed (A : App) (nodes : List Name) (rest : Space) (image : Name → Image) (s : St) (file : List Char → Option Deploy.Compose.Inst)
    (port : Svc → Nat) : Prop where
  ports : ∀ S, A.Active nodes S → S.rpc = true → port S ≠ 0 ∧ port S < 65536
  own : ∀ S U, A.Active nodes S → S.rpc = true → A.Active nodes U → U.rpc = true → container S = container U → port S = port U → S = U
  fixed : ∀ S, A.Active nodes S → S.back = true → port S = (image S.serverN).port
  inst : ∀ c ∈ insts s rest, ∃ i, file (cleanName c.toList) = some i ∧
    (∀ n, .bind n ∈ gets s rest c → ∃ S, A.Active nodes S ∧ S.rpc = true ∧ n = bindName S.addrN ∧ container S = c ∧
      (S.back = false → i.config (envVar n.toList) = some (.listen (port S)))) ∧
    (∀ n, .dial n ∈ gets s rest c → ∃ U, A.Active nodes U ∧ U.rpc = true ∧ n = dialName U.addrN ∧
      i.config (envVar n.toList) = some (.addr (cleanName (container U).toList) (port U))) ∧
    (∀ S, A.Active nodes S → S.rpc = true → container S = c → i.expose (port S) = true)

theorem Built.composed (B : Built A rank nodes rest image H s) {w : Workspace} (hr : Workspace.empty.run (composeOps s rest image) = some w)
    (hw : w.args = (insts s rest).map fun c => (c.toList, containerArgs s rest c)) {o1 o2 : List (List Char × List Deploy.Arg)}
    (p1 : o1.Perm w.args) (p2 : o2.Perm w.args) :
    ∃ file h', Deploy.Compose.finish w (heap s rest image) o1 o2 = .ok (file, h') ∧ ∃ port, Composed A nodes rest image s file port := by
  obtain ⟨file, g⟩ := Deploy.Compose.C49_generates hr p1 p2 (by rw [hw]; exact B.objects) B.heap_16 (by
    intro a ha
    rw [hw] at ha
    obtain ⟨c, hc, rfl⟩ := List.mem_map.1 ha
    refine ⟨?_, ?_, Nat.le_trans (B.ids_length c) (by omega)⟩
    · intro hm
      obtain ⟨t, ht, e⟩ := List.mem_map.1 hm
      rcases B.got ht with ⟨S, _, _, _, rfl⟩ | ⟨U, _, _, rfl⟩ <;> simp [configArg] at e
    · exact B.preset c)
  have hmem : ∀ c, c ∈ insts s rest → (c.toList, containerArgs s rest c) ∈ w.args := by
    intro c hc
    rw [hw]
    exact List.mem_map.2 ⟨c, hc, rfl⟩
  have hall : ∀ a ∈ w.args, ∃ c ∈ insts s rest, a = (c.toList, containerArgs s rest c) := by
    intro a ha
    rw [hw] at ha
    obtain ⟨c, hc, e⟩ := List.mem_map.1 ha
    exact ⟨c, hc, e.symm⟩
  have hP := fun c hc => Deploy.Compose.C49_servers_reachable_partial g c.toList (containerArgs s rest c) (hmem c hc) (B.noClash c)
    (fun i _ => by have := heap_room s rest image i; have := B.ids_length c; omega) (by have := B.ids_length c; omega)
  have hport : ∀ S, ∃ q, A.Active nodes S → S.rpc = true →
      Serves file (heap s rest image) (container S).toList (bindOf s S) q ∧ q ≠ 0 ∧ q < 65536 := by
    intro S
    by_cases h : A.Active nodes S ∧ S.rpc = true
    · obtain ⟨hc, hm⟩ := B.binds h.1 h.2
      obtain ⟨P, h1, _⟩ := hP _ hc
      exact ⟨_, fun _ _ => h1 _ hm⟩
    · exact ⟨0, fun h1 h2 => absurd ⟨h1, h2⟩ h⟩
  obtain ⟨port, hport⟩ := Classical.skolem.1 hport
  have config : ∀ S q, A.Active nodes S → S.rpc = true → Serves file (heap s rest image) (container S).toList (bindOf s S) q →
      ∃ i, file (cleanName (container S).toList) = some i ∧
        (S.back = false → i.config (envVar (bindName S.addrN).toList) = some (.listen q)) ∧
        (S.back = true → q = (image S.serverN).port) ∧ i.expose q = true := by
    intro S q hS hrS ⟨i, hf, h1, h2, h3, _⟩
    unfold bindOf at h1 h2
    rw [B.heap_bind hS hrS] at h1 h2
    refine ⟨i, hf, fun hk => ?_, fun hk => ?_, h3⟩
    · simpa [hk] using h2
    · have := h1 (by simpa [hk] using (B.dep.images S (active_mem hS) hk).1)
      simpa [hk] using this
  have uniq : ∀ S q, A.Active nodes S → S.rpc = true → Serves file (heap s rest image) (container S).toList (bindOf s S) q →
      q = port S := by
    intro S q hS hrS h
    obtain ⟨i, e1, e2, e2', _⟩ := config S q hS hrS h
    obtain ⟨j, e3, e4, e4', _⟩ := config S _ hS hrS (hport S hS hrS).1
    cases hk : S.back with
    | true => rw [e2' hk, e4' hk]
    | false =>
    have e2 := e2 hk
    have e4 := e4 hk
    rw [e1] at e3
    cases e3
    rw [e2] at e4
    simpa using e4
  obtain ⟨h', hdone⟩ := g.done
  refine ⟨file, h', hdone, port, ⟨fun S hS hr => (hport S hS hr).2, ?_, ?_, ?_⟩⟩
  · intro S U hS hrS hU hrU hc hp
    obtain ⟨hcS, hmS⟩ := B.binds hS hrS
    obtain ⟨-, hmU⟩ := B.binds hU hrU
    obtain ⟨P, h1, h2⟩ := hP _ hcS
    rw [← hc] at hmU
    have e1 := uniq S _ hS hrS (h1 _ hmS).1
    have e2 := uniq U _ hU hrU (hc ▸ (h1 _ hmU).1)
    exact B.bindOf_inj hS hrS hU hrU (h2 _ _ hmS hmU (by rw [e1, e2, hp]))
  · intro S hS hk
    have hrS := (B.fit.backs S (active_mem hS) hk).1
    obtain ⟨_, _, _, h, _⟩ := config S _ hS hrS (hport S hS hrS).1
    exact h hk
  · intro c hc
    have : ∃ i, file (cleanName c.toList) = some i := by
      obtain ⟨-, P, addresses, -, -, -, hcon⟩ := g.container
      obtain ⟨i0, i, -, hf, -⟩ := hcon _ _ (hmem c hc)
      exact ⟨i, hf⟩
    obtain ⟨i, hi⟩ := this
    refine ⟨i, hi, ?_, ?_, ?_⟩
    · intro n hn
      obtain ⟨S, hS, hrS, hcS, rfl⟩ := B.bind_edge hn
      obtain ⟨j, e1, e2, _⟩ := config S _ hS hrS (hport S hS hrS).1
      rw [hcS, hi] at e1
      cases e1
      exact ⟨S, hS, hrS, rfl, hcS, e2⟩
    · intro n hn
      obtain ⟨U, hU, hrU, rfl⟩ := B.dial_edge hn
      refine ⟨U, hU, hrU, rfl, ?_⟩
      obtain ⟨hcU, hmU⟩ := B.binds hU hrU
      have haddr : ∀ V, A.Active nodes V → V.rpc = true → (heap s rest image (bindOf s V)).addr = V.addrN.toList := by
        intro V hV hrV
        unfold bindOf
        rw [B.heap_bind hV hrV]
      obtain ⟨j, m, margs, k, q, hj, hmm, hk, hka, hs, hcfg⟩ := Deploy.Compose.C49_local_dial g (by
          intro a ha
          obtain ⟨c, _, rfl⟩ := hall a ha
          exact B.noClash c) c.toList (containerArgs s rest c) (hmem c hc) (dialName U.addrN).toList U.addrN.toList
        (mem_dial.2 ⟨_, hn, rfl, (addrOf_dial _).symm⟩)
        ⟨_, hmem _ hcU, bindOf s U, hmU, haddr U hU hrU⟩
      rw [hi] at hj
      cases hj
      obtain ⟨c', hc', e⟩ := hall _ hmm
      injection e with e1 e2
      subst e1; subst e2
      obtain ⟨V, hV, hrV, hcV, rfl⟩ := B.mem_args hk
      rw [haddr V hV hrV] at hka
      have := addr_inj B.fit (active_mem hV) (active_mem hU) hrV hrU (String.toList_inj.1 hka)
      subst this
      rw [hcfg, hcV, uniq V q hV hrV (hcV ▸ hs)]
    · intro S hS hrS hcS
      obtain ⟨j, e1, _, _, e3⟩ := config S _ hS hrS (hport S hS hrS).1
      rw [hcS, hi] at e1
      cases e1
      exact e3

end

end Verif.Live
