import Verif.ModGen.Spec

namespace Verif.ModGen

theorem calledCtor_eq (n : Node) : calledCtor n = definedCtor n.kind n.iface := by
  obtain ⟨a, k, i, p⟩ := n
  cases k <;> rfl

theorem baked_inCode {n : Node} (h : InCode n.kind) : baked n = n.param := by
  obtain ⟨a, k, i, p⟩ := n
  cases k <;> first | rfl | (simp [InCode] at h)

theorem baked_not {n : Node} (h : ¬ InCode n.kind) : baked n = [] := by
  obtain ⟨a, k, i, p⟩ := n
  cases k <;> first | rfl | (simp [InCode] at h)

theorem passed_inCall {n : Node} (h : InCall n.kind) : passed n = [n.param] := by
  obtain ⟨a, k, i, p⟩ := n
  cases k <;> first | rfl | (simp [InCall] at h)

/-- Lists that end differently differ. -/
theorem tail_ne {a b s t : Str} (k : Nat) (hs : k ≤ s.length) (ht : k ≤ t.length)
    (h : s.reverse.take k ≠ t.reverse.take k) : a ++ s ≠ b ++ t := by
  intro e
  apply h
  have := congrArg (fun l => l.reverse.take k) e
  simpa [List.reverse_append, List.take_append, hs, ht, Nat.sub_eq_zero_of_le] using this

theorem fileName_same {k : Kind} {i j : Iface} (h : fileName k i = fileName k j) :
    i.base = j.base ∨ i.name = j.name := by
  cases k <;> simp only [fileName, List.append_cancel_right_eq] at h <;> simp [h]

set_option maxRecDepth 4000 in
theorem path_eq {m n : Node} (h : path m = path n) :
    m.kind = n.kind ∧ (m.iface.base = n.iface.base ∨ m.iface.name = n.iface.name) := by
  obtain ⟨a, k, i, p⟩ := m
  obtain ⟨b, l, j, q⟩ := n
  have h1 : pkg k = pkg l := congrArg Prod.fst h
  have h2 : fileName k i = fileName l j := congrArg Prod.snd h
  have hk : k = l := by
    cases k <;> cases l <;>
    first
    | rfl
    | exact absurd h1 (by decide)
    | exact absurd h2 (tail_ne 10 (by decide) (by decide) (by decide))
    | exact absurd h2 (tail_ne 22 (by decide) (by decide) (by decide))
  subst hk
  exact ⟨rfl, fileName_same h2⟩

set_option maxRecDepth 4000 in
set_option maxHeartbeats 2000000 in
theorem key_eq {m n : Node} {x : Str} (h1 : key m = some x) (h2 : key n = some x) :
    m.name = n.name ∨
      (m.iface.base = n.iface.base ∨ m.iface.name = n.iface.name) ∧ (m.kind = n.kind ∨ KeyMates m.kind n.kind) := by
  obtain ⟨a, k, i, p⟩ := m
  obtain ⟨b, l, j, q⟩ := n
  have h : key ⟨a, k, i, p⟩ = key ⟨b, l, j, q⟩ := h1.trans h2.symm
  cases k <;> first | (cases h1; done) | skip
  all_goals
    cases l <;>
    first
    | (cases h2; done)
    | exact .inl (List.append_cancel_right (Option.some.inj h))
    | exact absurd (Option.some.inj h) (tail_ne 11 (by decide) (by decide) (by decide))
    | (refine .inr ⟨?_, .inl rfl⟩
       have := Option.some.inj h
       simp only [List.append_cancel_right_eq] at this
       simp [this])
    | (refine .inr ⟨?_, .inr (by simp [KeyMates])⟩
       have := Option.some.inj h
       simp only [List.append_cancel_right_eq] at this
       simp [this])

set_option maxRecDepth 4000 in
theorem key_ne_ifaceKey {m n : Node} {x : Str} (h1 : ifaceKey m = some x) : key n ≠ some x := by
  intro h2
  obtain ⟨a, k, i, p⟩ := m
  obtain ⟨b, l, j, q⟩ := n
  have h : ifaceKey ⟨a, k, i, p⟩ = key ⟨b, l, j, q⟩ := h1.trans h2.symm
  cases k <;> first | (cases h1; done) | skip
  cases l <;>
    first
    | (cases h2; done)
    | exact absurd (Option.some.inj h) (tail_ne 11 (by decide) (by decide) (by decide))

/-! ### Running the generation -/

/-- The text `n` writes. -/
def text (T : Templates) (n : Node) : Str := T.code n.kind n.iface (definedCtor n.kind n.iface) (baked n)

theorem overwrite_eq {old : Option Str} {t : Str} (h : ∀ o, old = some o → o.length ≤ t.length) : overwrite old t = t := by
  unfold overwrite
  cases old with
  | none => simp
  | some o => simp [List.drop_eq_nil_of_le (h o rfl)]

/-- Apart nodes with the same path or key have the same text and path. -/
theorem apart_same {T : Templates} {m n : Node} (h : Apart m n)
    (e : path m = path n ∨ ∃ x, key m = some x ∧ key n = some x) : path m = path n ∧ text T m = text T n ∧
      m.kind = n.kind ∧ m.iface = n.iface := by
  rcases h with ⟨_, rfl⟩ | ⟨hn, h⟩
  · exact ⟨rfl, rfl, rfl, rfl⟩
  have e' : (m.iface.base = n.iface.base ∨ m.iface.name = n.iface.name) ∧ (m.kind = n.kind ∨ KeyMates m.kind n.kind) := by
    rcases e with e | ⟨x, e1, e2⟩
    · exact ⟨(path_eq e).2, .inl (path_eq e).1⟩
    · rcases key_eq e1 e2 with e | e
      · exact absurd e hn
      · exact e
  rcases h with h | h | ⟨h1, h2, h3⟩
  · rcases e'.1 with e | e
    · exact absurd e h.1
    · exact absurd e h.2
  · rcases e'.2 with e | e
    · exact absurd e h.1
    · exact absurd e h.2
  · refine ⟨by simp [path, h1, h2], ?_, h1, h2⟩
    have : baked m = baked n := by
      by_cases hc : InCode n.kind
      · rw [baked_inCode hc, baked_inCode (h1 ▸ hc), h3 hc]
      · rw [baked_not hc, baked_not (h1 ▸ hc)]
    simp [text, h1, h2, this]

structure IfaceInv (T : Templates) (n : Node) (s : Module) : Prop where
  short : ∀ o, s.files (path n) = some o → o = T.iface n.kind n.iface
  fresh : ∀ x ∈ s.visited, key n ≠ some x

theorem iface_step {T : Templates} {n m : Node} {s : Module} (hap : Apart m n) (h : IfaceInv T n s) :
    IfaceInv T n (step T s (.addInterfaces m)) := by
  have hw : ∀ v : List Str, (∀ x ∈ v, key n ≠ some x) →
      IfaceInv T n (write { s with visited := v } (path m) (T.iface m.kind m.iface)) := by
    intro v hv
    refine ⟨?_, hv⟩
    intro o ho
    simp only [write] at ho
    split at ho
    · rename_i e
      obtain ⟨h1, _, h3, h4⟩ := apart_same (T := T) hap (.inl e.symm)
      rw [h1] at ho
      rw [overwrite_eq (fun o ho => by rw [h.short o ho, h3, h4]; exact Nat.le_refl _)] at ho
      rw [← Option.some.inj ho, h3, h4]
    · exact h.short o ho
  simp only [step]
  split
  · unfold once
    cases hk : ifaceKey m with
    | none => exact hw s.visited h.fresh
    | some k =>
      simp only
      split
      · exact h
      · refine hw (k :: s.visited) ?_
        intro x hx
        rcases List.mem_cons.1 hx with rfl | hx
        · exact key_ne_ifaceKey hk
        · exact h.fresh x hx
  · exact h

theorem iface_run {T : Templates} {n : Node} (ms : List Node) : ∀ {s : Module}, (∀ m ∈ ms, Apart m n) → IfaceInv T n s →
    IfaceInv T n (run T s (ms.map .addInterfaces)) := by
  induction ms with
  | nil => intro s _ h; exact h
  | cons m ms ih =>
    intro s hap h
    exact ih (fun x hx => hap x (by simp [hx])) (iface_step (hap m (by simp)) h)

structure FuncInv (T : Templates) (n : Node) (s : Module) : Prop where
  short : ∀ o, s.files (path n) = some o → o.length ≤ (text T n).length
  done : ∀ x ∈ s.visited, key n = some x → s.files (path n) = some (text T n)

theorem func_step {T : Templates} {n m : Node} {s : Module} (hap : Apart m n) (h : FuncInv T n s) :
    FuncInv T n (step T s (.generateFuncs m)) ∧
    (s.files (path n) = some (text T n) → (step T s (.generateFuncs m)).files (path n) = some (text T n)) ∧
    (m = n → (step T s (.generateFuncs m)).files (path n) = some (text T n)) := by
  have same : path m = path n → ∀ v : List Str, (write { s with visited := v } (path m) (text T m)).files (path n) = some (text T n) := by
    intro e v
    obtain ⟨h1, h2, _⟩ := apart_same (T := T) hap (.inl e)
    simp only [write, h1, h2, if_true]
    rw [overwrite_eq h.short]
  have diff : path m ≠ path n → ∀ v : List Str, (write { s with visited := v } (path m) (text T m)).files (path n) = s.files (path n) := by
    intro e v
    simp only [write]
    rw [if_neg (fun e' => e e'.symm)]
  have shortW : ∀ v : List Str, ∀ o, (write { s with visited := v } (path m) (text T m)).files (path n) = some o →
      o.length ≤ (text T n).length := by
    intro v o ho
    by_cases e : path m = path n
    · rw [same e v] at ho; rw [← Option.some.inj ho]; exact Nat.le_refl _
    · rw [diff e v] at ho; exact h.short o ho
  have stepEq : step T s (.generateFuncs m) = once s (key m) fun s => write s (path m) (text T m) := rfl
  rw [stepEq]
  unfold once
  cases hk : key m with
  | none =>
    simp only
    refine ⟨⟨shortW s.visited, ?_⟩, ?_, ?_⟩
    · intro x hx hkn
      by_cases e : path m = path n
      · exact same e s.visited
      · exact (diff e s.visited).trans (h.done x hx hkn)
    · intro hd
      by_cases e : path m = path n
      · exact same e s.visited
      · exact (diff e s.visited).trans hd
    · rintro rfl; exact same rfl s.visited
  | some k =>
    simp only
    split
    · rename_i hin
      refine ⟨h, id, ?_⟩
      rintro rfl
      exact h.done k hin hk
    · refine ⟨⟨shortW _, ?_⟩, ?_, ?_⟩
      · intro x hx hkn
        rcases List.mem_cons.1 hx with rfl | hx
        · exact same (apart_same (T := T) hap (.inr ⟨_, hk, hkn⟩)).1 _
        · by_cases e : path m = path n
          · exact same e _
          · exact (diff e _).trans (h.done x hx hkn)
      · intro hd
        by_cases e : path m = path n
        · exact same e _
        · exact (diff e _).trans hd
      · rintro rfl; exact same rfl _

theorem func_run {T : Templates} {n : Node} (ms : List Node) : ∀ {s : Module}, (∀ m ∈ ms, Apart m n) → FuncInv T n s →
    (n ∈ ms ∨ s.files (path n) = some (text T n)) →
    (run T s (ms.map .generateFuncs)).files (path n) = some (text T n) := by
  induction ms with
  | nil =>
    intro s _ h hn
    rcases hn with hn | hn
    · cases hn
    · exact hn
  | cons m ms ih =>
    intro s hap h hn
    have hs := func_step (hap m (by simp)) h
    refine ih (fun x hx => hap x (by simp [hx])) hs.1 ?_
    rcases hn with hn | hn
    · rcases List.mem_cons.1 hn with rfl | hn
      · exact .inr (hs.2.2 rfl)
      · exact .inl hn
    · exact .inr (hs.2.1 hn)

/-! ### General facts about runs -/

theorem step_visited {T : Templates} {s : Module} {m : Node} {x : Str} (h : x ∈ (step T s (.generateFuncs m)).visited) :
    x ∈ s.visited ∨ key m = some x := by
  simp only [step, once] at h
  cases hk : key m with
  | none => simp only [hk, write] at h; exact .inl h
  | some k =>
    simp only [hk] at h
    split at h
    · exact .inl h
    · simp only [write] at h
      rcases List.mem_cons.1 h with rfl | h
      · exact .inr rfl
      · exact .inl h

theorem run_visited {T : Templates} (ms : List Node) : ∀ {s : Module} {x : Str},
    x ∈ (run T s (ms.map .generateFuncs)).visited → x ∈ s.visited ∨ ∃ m ∈ ms, key m = some x := by
  induction ms with
  | nil => intro s x h; exact .inl h
  | cons m ms ih =>
    intro s x h
    rcases ih h with h | ⟨m', hm, h⟩
    · rcases step_visited h with h | h
      · exact .inl h
      · exact .inr ⟨m, by simp, h⟩
    · exact .inr ⟨m', by simp [hm], h⟩

theorem step_other {T : Templates} {s : Module} {m : Node} {p : Path} (h : path m ≠ p) :
    (step T s (.generateFuncs m)).files p = s.files p := by
  have hw : ∀ v : List Str, (write { s with visited := v } (path m) (text T m)).files p = s.files p := by
    intro v; simp only [write]; rw [if_neg (fun e => h e.symm)]
  have stepEq : step T s (.generateFuncs m) = once s (key m) fun s => write s (path m) (text T m) := rfl
  rw [stepEq]
  unfold once
  split
  · exact hw s.visited
  · split
    · rfl
    · exact hw _

theorem run_other {T : Templates} (ms : List Node) : ∀ {s : Module} {p : Path}, (∀ m ∈ ms, path m ≠ p) →
    (run T s (ms.map .generateFuncs)).files p = s.files p := by
  induction ms with
  | nil => intro s p _; rfl
  | cons m ms ih =>
    intro s p h
    exact (ih fun x hx => h x (by simp [hx])).trans (step_other (h m (by simp)))

theorem step_keeps {T : Templates} {s : Module} {m : Node} {p : Path} (h : s.files p ≠ none) :
    (step T s (.generateFuncs m)).files p ≠ none := by
  by_cases e : path m = p
  · subst e
    have stepEq : step T s (.generateFuncs m) = once s (key m) fun s => write s (path m) (text T m) := rfl
    rw [stepEq]
    unfold once
    split
    · simp [write]
    · split
      · exact h
      · simp [write]
  · rw [step_other e]; exact h

theorem run_keeps {T : Templates} (ms : List Node) : ∀ {s : Module} {p : Path}, s.files p ≠ none →
    (run T s (ms.map .generateFuncs)).files p ≠ none := by
  induction ms with
  | nil => intro s p h; exact h
  | cons m ms ih => intro s p h; exact ih (step_keeps h)

theorem run_append {T : Templates} (s : Module) (a b : List Op) : run T s (a ++ b) = run T (run T s a) b := by
  simp [run]

theorem ifaces_visited {T : Templates} (ms : List Node) : ∀ {s : Module},
    (∀ x ∈ s.visited, ∃ m, ifaceKey m = some x) →
    ∀ x ∈ (run T s (ms.map .addInterfaces)).visited, ∃ m, ifaceKey m = some x := by
  induction ms with
  | nil => intro s h; exact h
  | cons m ms ih =>
    intro s h
    refine ih ?_
    intro x hx
    simp only [step] at hx
    split at hx
    · unfold once at hx
      cases hk : ifaceKey m with
      | none => simp only [hk, write] at hx; exact h x hx
      | some k =>
        simp only [hk] at hx
        split at hx
        · exact h x hx
        · rcases List.mem_cons.1 hx with rfl | hx
          · exact ⟨m, hk⟩
          · exact h x hx
    · exact h x hx

/-- The length of what is in a file never shrinks below the texts written, and stays within their maximum. -/
theorem step_length {T : Templates} {s : Module} {m : Node} {p : Path} {L : Nat}
    (hs : ∀ o, s.files p = some o → o.length ≤ L) (hm : path m = p → (text T m).length ≤ L) :
    ∀ o, (step T s (.generateFuncs m)).files p = some o → o.length ≤ L := by
  intro o ho
  by_cases e : path m = p
  · subst e
    have stepEq : step T s (.generateFuncs m) = once s (key m) fun s => write s (path m) (text T m) := rfl
    rw [stepEq] at ho
    have hw : ∀ v : List Str, (write { s with visited := v } (path m) (text T m)).files (path m) = some o → o.length ≤ L := by
      intro v ho
      simp only [write, if_true, Option.some.injEq] at ho
      subst ho
      have := hm rfl
      cases hf : s.files (path m) with
      | none => simp [overwrite]; exact this
      | some q =>
        have := hs q hf
        simp [overwrite]; omega
    unfold once at ho
    split at ho
    · exact hw s.visited ho
    · split at ho
      · exact hs o ho
      · exact hw _ ho
  · rw [step_other e] at ho; exact hs o ho

theorem run_length {T : Templates} {p : Path} {L : Nat} (ms : List Node) : ∀ {s : Module},
    (∀ o, s.files p = some o → o.length ≤ L) → (∀ m ∈ ms, path m = p → (text T m).length ≤ L) →
    ∀ o, (run T s (ms.map .generateFuncs)).files p = some o → o.length ≤ L := by
  induction ms with
  | nil => intro s h _; exact h
  | cons m ms ih =>
    intro s hs hm
    exact ih (step_length hs (hm m (by simp))) fun x hx => hm x (by simp [hx])

set_option maxRecDepth 4000 in
set_option maxHeartbeats 2000000 in
theorem ctor_eq {m n : Node} (hp : pkg m.kind = pkg n.kind) (h : definedCtor m.kind m.iface = definedCtor n.kind n.iface) :
    m.kind = n.kind ∧ m.iface.base = n.iface.base := by
  obtain ⟨a, k, i, p⟩ := m
  obtain ⟨b, l, j, q⟩ := n
  replace hp : pkg k = pkg l := hp
  replace h : definedCtor k i = definedCtor l j := h
  have hk : k = l := by
    cases k <;> cases l <;>
    first
    | rfl
    | exact absurd hp (by decide)
    | exact absurd h (tail_ne 10 (by decide) (by decide) (by decide))
    | exact absurd h (tail_ne 13 (by decide) (by decide) (by decide))
  subst hk
  refine ⟨rfl, ?_⟩
  have h' : ∀ s : Str, "New_".toList ++ i.base ++ s = "New_".toList ++ j.base ++ s → i.base = j.base := by
    intro s e
    exact List.append_cancel_left (List.append_cancel_right e)
  cases k <;> exact h' _ h

theorem two_fresh (T : Templates) (a b : Node) (ka kb : Str) (h1 : key a = some ka) (h2 : key b = some kb) (hne : kb ≠ ka)
    (hp : path a = path b) :
    (generate T [] [a, b]).files (path b) = some (overwrite (some (text T a)) (text T b)) := by
  simp only [generate, run, List.map_nil, List.map_cons, List.foldl_nil, List.foldl_cons, step, once, h1, h2, empty,
    List.not_mem_nil, if_false, write, List.mem_singleton, if_neg hne, if_true, hp]
  simp [overwrite, text]

theorem two_same (T : Templates) (a b : Node) (k : Str) (h1 : key a = some k) (h2 : key b = some k) (q : Path) :
    (generate T [] [a, b]).files q = if q = path a then some (text T a) else none := by
  simp only [generate, run, List.map_nil, List.map_cons, List.foldl_nil, List.foldl_cons, step, once, h1, h2, empty,
    List.not_mem_nil, if_false, write, List.mem_singleton, if_true]
  simp [overwrite, text]

theorem text_inCode (T : Templates) {n : Node} (h : InCode n.kind) :
    text T n = T.code n.kind n.iface (calledCtor n) n.param := by rw [text, baked_inCode h, calledCtor_eq]

/-! ### Modules copied and required -/

theorem addToWorkspace_mono (ms : List GoModule) : ∀ (w : Workspace) {x : Str},
    (x ∈ w.copied → x ∈ (addToWorkspace w ms).copied) ∧ (x ∈ w.visited → x ∈ (addToWorkspace w ms).visited) := by
  induction ms with
  | nil => intro w x; exact ⟨id, id⟩
  | cons m ms ih =>
    intro w x
    simp only [addToWorkspace]
    split
    · split
      · exact ih w
      · exact ⟨fun h => by simp [h], fun h => by simp [h]⟩
    · exact ih w

end Verif.ModGen
