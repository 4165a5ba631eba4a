import Verif.Deploy.KubeSpec

namespace Verif.Deploy.Kube
open Verif.Deploy Verif.Strings

/-! ### Maps -/

section maps
variable {α : Type}

theorem get_put (k x : Str) (v : α) (m : List (Str × α)) :
    get x (put k v m) = if x = k then some v else get x m := by
  induction m with
  | nil =>
    simp only [put, get]
    by_cases hx : k = x
    · simp [hx]
    · rw [if_neg hx, if_neg fun h => hx h.symm]
  | cons e m ih =>
    rw [put]
    by_cases he : e.1 = k
    · rw [if_pos he, get, get]
      by_cases hx : x = k
      · simp [hx]
      · have : ¬ k = x := fun h => hx h.symm
        rw [if_neg this, if_neg hx, if_neg (by rw [he]; exact this)]
    · rw [if_neg he, get, ih, get]
      by_cases hx : e.1 = x
      · rw [if_pos hx, if_pos hx, if_neg (by rw [← hx]; exact he)]
      · rw [if_neg hx, if_neg hx]

theorem put_ne_nil (k : Str) (v : α) (m : List (Str × α)) : put k v m ≠ [] := by
  cases m with
  | nil => simp [put]
  | cons e m => rw [put]; split <;> simp

theorem put_keys (k : Str) (v : α) (m : List (Str × α)) :
    (put k v m).map (·.1) = if k ∈ m.map (·.1) then m.map (·.1) else m.map (·.1) ++ [k] := by
  induction m with
  | nil => rfl
  | cons e m ih =>
    rw [put]
    by_cases he : e.1 = k
    · simp [he]
    · rw [if_neg he]
      have hne : (k = e.1) = False := eq_false fun h => he h.symm
      simp only [List.map_cons, ih, List.mem_cons, hne, false_or]
      split <;> simp

theorem get_none (x : Str) (m : List (Str × α)) : get x m = none ↔ x ∉ m.map (·.1) := by
  induction m with
  | nil => simp [get]
  | cons e m ih =>
    rw [get]
    by_cases he : e.1 = x
    · simp [he]
    · rw [if_neg he, ih]
      simp [Ne.symm he]

theorem get_mem {x : Str} {v : α} {m : List (Str × α)} (h : get x m = some v) : (x, v) ∈ m := by
  induction m with
  | nil => simp [get] at h
  | cons e m ih =>
    rw [get] at h
    by_cases he : e.1 = x
    · rw [if_pos he] at h
      cases h
      rw [← he]; simp
    · rw [if_neg he] at h
      exact List.mem_cons_of_mem _ (ih h)

/-- Several entries, one after the other. -/
def putAll (ws : List (Str × α)) (m : List (Str × α)) : List (Str × α) :=
  ws.foldl (fun m e => put e.1 e.2 m) m

theorem putAll_append (a b m : List (Str × α)) : putAll (a ++ b) m = putAll b (putAll a m) := by
  simp [putAll]

theorem get_putAll (ws : List (Str × α)) (x : Str) : ∀ m : List (Str × α),
    (get x (putAll ws m) = get x m ∧ x ∉ ws.map (·.1)) ∨
    ∃ v, (x, v) ∈ ws ∧ get x (putAll ws m) = some v := by
  induction ws with
  | nil => intro m; exact .inl ⟨rfl, by simp⟩
  | cons e ws ih =>
    intro m
    have e' : putAll (e :: ws) m = putAll ws (put e.1 e.2 m) := rfl
    rw [e']
    rcases ih (put e.1 e.2 m) with ⟨h1, h2⟩ | ⟨v, h1, h2⟩
    · rw [h1, get_put]
      by_cases hx : x = e.1
      · rw [if_pos hx]
        exact .inr ⟨e.2, by rw [hx]; exact List.mem_cons_self, rfl⟩
      · rw [if_neg hx]
        exact .inl ⟨rfl, by simp only [List.map_cons, List.mem_cons, not_or]; exact ⟨hx, h2⟩⟩
    · exact .inr ⟨v, List.mem_cons_of_mem _ h1, h2⟩

theorem get_putAll_of_mem {ws m : List (Str × α)} {x : Str} {v : α} (h : (x, v) ∈ ws)
    (hu : ∀ u, (x, u) ∈ ws → u = v) : get x (putAll ws m) = some v := by
  rcases get_putAll ws x m with ⟨-, h2⟩ | ⟨u, h1, h2⟩
  · exact absurd (List.mem_map.2 ⟨_, h, rfl⟩) h2
  · rw [h2, hu u h1]

theorem putAll_ne_nil {ws m : List (Str × α)} (h : ws ≠ [] ∨ m ≠ []) : putAll ws m ≠ [] := by
  induction ws generalizing m with
  | nil => simpa [putAll] using h
  | cons e ws ih => exact ih (.inr (put_ne_nil _ _ _))

theorem put_nodup {k : Str} {v : α} {m : List (Str × α)} (h : (m.map (·.1)).Nodup) :
    ((put k v m).map (·.1)).Nodup := by
  rw [put_keys]
  split
  · exact h
  · rename_i hn
    rw [List.nodup_append]
    refine ⟨h, by simp, fun a ha b hb e => ?_⟩
    simp only [List.mem_singleton] at hb
    exact hn (hb ▸ e ▸ ha)

theorem putAll_nodup {ws m : List (Str × α)} (h : (m.map (·.1)).Nodup) :
    ((putAll ws m).map (·.1)).Nodup := by
  induction ws generalizing m with
  | nil => exact h
  | cons e ws ih => exact ih (put_nodup h)

theorem get_map_snd {β : Type} (x : Str) (g : Str → α → β) (m : List (Str × α)) :
    get x (m.map fun e => (e.1, g e.1 e.2)) = (get x m).map (g x) := by
  induction m with
  | nil => rfl
  | cons e m ih =>
    rw [List.map_cons, get, get]
    by_cases he : e.1 = x
    · rw [if_pos he, if_pos he, ← he]; rfl
    · rw [if_neg he, if_neg he, ih]

theorem get_append (x : Str) (a b : List (Str × α)) :
    get x (a ++ b) = (get x a).or (get x b) := by
  induction a with
  | nil => simp [get]
  | cons e a ih =>
    rw [List.cons_append, get, get]
    split
    · rfl
    · exact ih

theorem get_of_mem {x : Str} {v : α} {m : List (Str × α)} (hn : (m.map (·.1)).Nodup)
    (h : (x, v) ∈ m) : get x m = some v := by
  induction m with
  | nil => simp at h
  | cons e m ih =>
    simp only [List.map_cons, List.nodup_cons] at hn
    rw [get]
    rcases List.mem_cons.1 h with h | h
    · subst h; simp
    · have : ¬ e.1 = x := fun he => hn.1 (List.mem_map.2 ⟨_, h, he.symm⟩)
      rw [if_neg this, ih hn.2 h]

theorem get_reverse {x : Str} {m : List (Str × α)} (hn : (m.map (·.1)).Nodup) :
    get x m.reverse = get x m := by
  cases hg : get x m with
  | some v =>
    refine get_of_mem ?_ (List.mem_reverse.2 (get_mem hg))
    rw [List.map_reverse]
    exact (List.reverse_perm _).nodup_iff.2 hn
  | none =>
    rw [get_none] at hg ⊢
    simpa using hg

end maps

/-! ### Changes of one container -/

theorem modify_modify (f : File) (n : Str) (g g' : Inst → Inst) :
    modify (modify f n g) n g' = modify f n (g' ∘ g) := by
  unfold modify
  rw [List.map_map]
  apply List.map_congr_left
  intro e _
  simp only [Function.comp]
  split <;> simp_all

theorem modify_id (f : File) (n : Str) (g : Inst → Inst) (hg : ∀ i, g i = i) : modify f n g = f := by
  unfold modify
  conv => rhs; rw [← List.map_id f]
  apply List.map_congr_left
  intro e _
  simp [hg]

theorem get_modify (f : File) (n c : Str) (g : Inst → Inst) :
    get c (modify f n g) = if c = cleanName n then (get c f).map g else get c f := by
  induction f with
  | nil => simp [modify, get]
  | cons e f ih =>
    have e1 : modify (e :: f) n g =
        (if e.1 = cleanName n then (e.1, g e.2) else e) :: modify f n g := rfl
    rw [e1, get, get, ih]
    by_cases he : e.1 = cleanName n
    · rw [if_pos he]
      by_cases hc : e.1 = c
      · subst hc; simp [he]
      · rw [if_neg hc, if_neg hc]
    · rw [if_neg he]
      by_cases hc : e.1 = c
      · subst hc; simp [he]
      · rw [if_neg hc, if_neg hc]

theorem modify_keys (f : File) (n : Str) (g : Inst → Inst) :
    (modify f n g).map (·.1) = f.map (·.1) := by
  unfold modify
  rw [List.map_map]
  apply List.map_congr_left
  intro e _
  simp only [Function.comp]
  split <;> rfl

/-- The variables of the assigned bind configs. -/
def listenWrites (h : Heap) (asg ids : List Nat) : List (Str × Value) :=
  (ids.filter (· ∈ asg)).map fun i => (envVar (h i).key, .listen (h i).port)

/-- The ports of the bind configs. -/
def portWrites (h : Heap) (ids : List Nat) : List (Str × Nat) :=
  ids.map fun i => ((h i).addr, (h i).port)

/-- The variables of the local dials. -/
def localWrites (loc : List (Str × Nat)) : List Arg → List (Str × Value)
  | [] => []
  | .dial key addr :: rest =>
    match get addr loc with
    | some port => (envVar key, .localhost port) :: localWrites loc rest
    | none => localWrites loc rest
  | _ :: rest => localWrites loc rest

/-- The variables of the other dials. -/
def mapWrites (loc : List (Str × Nat)) : List Arg → List (Str × Bool)
  | [] => []
  | .dial key addr :: rest =>
    match get addr loc with
    | some _ => mapWrites loc rest
    | none => (envVar key, true) :: mapWrites loc rest
  | _ :: rest => mapWrites loc rest

theorem setAssigned_eq (h : Heap) (asg : List Nat) (n : Str) (ids : List Nat) : ∀ f : File,
    setAssigned h asg n f ids =
      modify f n fun i => { i with config := putAll (listenWrites h asg ids) i.config } := by
  induction ids with
  | nil => intro f; rw [modify_id]; rfl; intro i; rfl
  | cons i ids ih =>
    intro f
    rw [setAssigned, ih]
    by_cases hi : i ∈ asg
    · rw [if_pos hi, addEnvVar, modify_modify]
      congr 1
      funext j
      simp [listenWrites, hi, putAll]
    · rw [if_neg hi]
      simp [listenWrites, hi]

theorem exposeAll_eq (h : Heap) (n : Str) (ids : List Nat) : ∀ f : File,
    exposeAll h n f ids = modify f n fun i => { i with ports := putAll (portWrites h ids) i.ports } := by
  induction ids with
  | nil => intro f; rw [modify_id]; rfl; intro i; rfl
  | cons i ids ih =>
    intro f
    rw [exposeAll, ih, exposePort, modify_modify]
    rfl

theorem setDials_eq (loc : List (Str × Nat)) (n : Str) (args : List Arg) : ∀ f : File,
    setDials loc n f args = modify f n fun i =>
      { i with config := putAll (localWrites loc args) i.config
               configMap := putAll (mapWrites loc args) i.configMap } := by
  induction args with
  | nil => intro f; rw [modify_id]; rfl; intro i; rfl
  | cons a args ih =>
    intro f
    cases a with
    | dial key addr =>
      rw [setDials, ih]
      cases hg : get addr loc with
      | some port =>
        simp only [addEnvVar, modify_modify, localWrites, mapWrites, hg]
        rfl
      | none =>
        simp only [addConfigMapVar, modify_modify, localWrites, mapWrites, hg]
        rfl
    | bind i => rw [setDials, ih]; rfl; rintro _ _ ⟨⟩
    | config a b c => rw [setDials, ih]; rfl; rintro _ _ ⟨⟩
    | other => rw [setDials, ih]; rfl; rintro _ _ ⟨⟩

/-- What the second loop does to one container. -/
def instStep (h : Heap) (asg : List Nat) (loc : List (Str × Nat)) (args : List Arg) (i : Inst) : Inst :=
  { ports := putAll (portWrites h (bindIds args)) i.ports
    config := putAll (listenWrites h asg (bindIds args) ++ localWrites loc args) i.config
    configMap := putAll (mapWrites loc args) i.configMap }

theorem secondLoop_spec (h : Heap) (asg : List Nat) (loc : List (Str × Nat)) :
    ∀ (o : List (Str × List Arg)) (f f' : File) (ds ds' : List (Str × Str)),
      (o.map fun a => cleanName a.1).Nodup →
      secondLoop h asg loc f ds o = some (f', ds') →
      ds' = ds ++ o.flatMap (fun a => dialsOf a.2) ∧ f'.map (·.1) = f.map (·.1) ∧
      (∀ a ∈ o, checkConfigs a.2 = true) ∧
      (∀ a ∈ o, get (cleanName a.1) f' = (get (cleanName a.1) f).map (instStep h asg loc a.2)) ∧
      ∀ c, c ∉ o.map (fun a => cleanName a.1) → get c f' = get c f := by
  intro o
  induction o with
  | nil =>
    intro f f' ds ds' _ hl
    simp only [secondLoop, Option.some.injEq, Prod.mk.injEq] at hl
    obtain ⟨rfl, rfl⟩ := hl
    simp
  | cons a o ih =>
    intro f f' ds ds' hn hl
    obtain ⟨n, args⟩ := a
    simp only [List.map_cons, List.nodup_cons] at hn
    rw [secondLoop] at hl
    by_cases hc : checkConfigs args = true
    · rw [if_pos hc] at hl
      have hf : setDials loc n (exposeAll h n (setAssigned h asg n f (bindIds args)) (bindIds args)) args =
          modify f n (instStep h asg loc args) := by
        rw [setDials_eq, exposeAll_eq, setAssigned_eq, modify_modify, modify_modify]
        congr 1
        funext i
        simp [instStep, putAll_append]
      simp only [hf] at hl
      obtain ⟨h1, h2, h3, h4, h5⟩ := ih _ _ _ _ hn.2 hl
      refine ⟨by simp [h1], by rw [h2, modify_keys], ?_, ?_, ?_⟩
      · intro a ha
        rcases List.mem_cons.1 ha with rfl | ha
        · exact hc
        · exact h3 a ha
      · intro a ha
        rcases List.mem_cons.1 ha with rfl | ha
        · show get (cleanName n) f' = _
          rw [h5 _ hn.1, get_modify, if_pos rfl]
        · rw [h4 a ha, get_modify, if_neg]
          intro e
          exact hn.1 (List.mem_map.2 ⟨a, ha, e⟩)
      · intro c hcn
        simp only [List.map_cons, List.mem_cons, not_or] at hcn
        rw [h5 c hcn.2, get_modify, if_neg hcn.1]
    · rw [if_neg hc] at hl
      cases hl

theorem localAddresses_eq (h : Heap) (ids : List Nat) : ∀ m : List (Str × Nat),
    localAddresses h m ids = putAll (portWrites h ids) m := by
  induction ids with
  | nil => intro m; rfl
  | cons i ids ih => intro m; rw [localAddresses, ih]; rfl

theorem noteBinds_eq (h : Heap) (pod : Str) (ids : List Nat) : ∀ m : List (Str × (Str × Nat)),
    noteBinds h pod m ids = putAll (ids.map fun i => ((h i).addr, (kubernetesName pod, i))) m := by
  induction ids with
  | nil => intro m; rfl
  | cons i ids ih => intro m; rw [noteBinds, ih]; rfl

theorem configData_spec (addrs : List (Str × (Str × Nat))) (h : Heap) (ds : List (Str × Str)) :
    ∀ (m data : List (Str × (Str × Nat))), configData addrs h m ds = some data →
      (∀ d ∈ ds, ∃ pod i, get d.2 addrs = some (pod, i)) ∧
      (∀ d ∈ ds, get (envVar d.1) data ≠ none) ∧
      ∀ x v, get x data = some v → get x m = some v ∨
        ∃ d ∈ ds, envVar d.1 = x ∧ ∃ pod i, get d.2 addrs = some (pod, i) ∧ v = (pod, (h i).port) := by
  induction ds with
  | nil =>
    intro m data hd
    simp only [configData, Option.some.injEq] at hd
    subst hd
    exact ⟨by simp, by simp, fun x v hx => .inl hx⟩
  | cons d ds ih =>
    intro m data hd
    obtain ⟨key, addr⟩ := d
    rw [configData] at hd
    cases hg : get addr addrs with
    | none => simp [hg] at hd
    | some e =>
      obtain ⟨pod, i⟩ := e
      simp only [hg] at hd
      obtain ⟨h1, h2, h3⟩ := ih _ _ hd
      have keep : ∀ (ds : List (Str × Str)) (m data : List (Str × (Str × Nat))) (x : Str),
          get x m ≠ none → configData addrs h m ds = some data → get x data ≠ none := by
        intro ds
        induction ds with
        | nil =>
          intro m data x hx hd
          simp only [configData, Option.some.injEq] at hd
          exact hd ▸ hx
        | cons d ds ih =>
          intro m data x hx hd
          rw [configData] at hd
          cases hg : get d.2 addrs with
          | none => simp [hg] at hd
          | some e =>
            simp only [hg] at hd
            refine ih _ _ x ?_ hd
            rw [get_put]
            split
            · simp
            · exact hx
      refine ⟨?_, ?_, ?_⟩
      · intro d hd'
        rcases List.mem_cons.1 hd' with rfl | hd'
        · exact ⟨pod, i, hg⟩
        · exact h1 d hd'
      · intro d hd'
        rcases List.mem_cons.1 hd' with rfl | hd'
        · exact keep _ _ _ _ (by rw [get_put, if_pos rfl]; simp) hd
        · exact h2 d hd'
      · intro x v hx
        rcases h3 x v hx with h4 | ⟨d, hd', r⟩
        · rw [get_put] at h4
          by_cases hxe : x = envVar key
          · rw [if_pos hxe] at h4
            cases h4
            exact .inr ⟨(key, addr), by simp, hxe.symm, pod, i, hg, rfl⟩
          · rw [if_neg hxe] at h4
            exact .inl h4
        · exact .inr ⟨d, List.mem_cons_of_mem _ hd', r⟩

end Verif.Deploy.Kube
