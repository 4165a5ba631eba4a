import Verif.Compile.Model
import Verif.Wiring.PtrProps
import Verif.Address.Props
/-
What a wiring spec holds, name by name, and that what it holds about a service depends only on the declarations about that service.
-/
namespace Verif.Compile
open Verif.Wiring (Name Spec Op Ptr Payload createPointer GoMap Def)

/-- An entry of a wiring spec. -/
inductive Ent where
  | alias (to : Name)
  | node (ty : Ty) (k : Option Kind)

def tab (s : WSpec) (n : Name) : Option Ent :=
  match s.aliases.get n with
  | some p => some (.alias p)
  | none => (s.defs.get n).map fun d => .node (d.nodeType.getD .app) d.build

/-- No name is both an alias and a definition (C14). -/
def Disj (s : WSpec) : Prop := ∀ n, s.aliases.get n ≠ none → s.defs.get n = none

theorem disj_update {s : WSpec} (h : Disj s) (m : Name) (f : Def Ty Kind Prop' → Def Ty Kind Prop') : Disj (s.update m f) := by
  intro n hn
  rw [Wiring.update_aliases] at hn
  rw [Wiring.update_defs]
  by_cases e : n = m
  · subst e
    by_cases e' : s.defs.get n = none
    · simp [e'] at hn
    · rw [if_neg (by simp [e'])] at hn
      exact absurd (h n hn) e'
  · rw [if_neg (by simp [e])] at hn
    rw [if_neg e]
    exact h n hn

theorem disj_step {s : WSpec} (h : Disj s) (op : Op Ty Kind Prop') : Disj (s.step op) := by
  cases op with
  | define n t k st => exact disj_update h n _
  | setProperty n k v => exact disj_update h n _
  | addProperty n k v => exact disj_update h n _
  | alias a p =>
    intro n hn
    simp only [Spec.step, GoMap.get_set, GoMap.get_del] at hn ⊢
    split
    · rfl
    · next e => rw [if_neg e] at hn; exact h n hn

theorem tab_other (s : WSpec) (op : Op Ty Kind Prop') {m : Name} (h : op.name ≠ m) : tab (s.step op) m = tab s m := by
  have h' : ¬ m = op.name := fun e => h e.symm
  unfold tab
  cases op with
  | define n t k st =>
    simp only [Spec.step, Wiring.update_aliases, Wiring.update_defs]
    rw [if_neg (fun e => h' e.1), if_neg (by exact h')]
  | setProperty n k v =>
    simp only [Spec.step, Wiring.update_aliases, Wiring.update_defs]
    rw [if_neg (fun e => h' e.1), if_neg (by exact h')]
  | addProperty n k v =>
    simp only [Spec.step, Wiring.update_aliases, Wiring.update_defs]
    rw [if_neg (fun e => h' e.1), if_neg (by exact h')]
  | alias a p =>
    simp only [Spec.step, GoMap.get_set, GoMap.get_del]
    rw [if_neg (by exact h'), if_neg (by exact h')]

theorem tab_define {s : WSpec} (h : Disj s) (n : Name) (ty : Ty) (k : Kind) (st : Prop') (m : Name) :
    tab (s.step (.define n ty k st)) m = if m = n then some (.node ty (some k)) else tab s m := by
  by_cases e : m = n
  · subst e
    rw [if_pos rfl]
    unfold tab
    simp only [Spec.step, Wiring.update_aliases, Wiring.update_defs]
    cases hd : s.defs.get m with
    | none => simp
    | some d =>
      have : s.aliases.get m = none := by
        cases ha : s.aliases.get m with
        | none => rfl
        | some p => rw [h m (by simp [ha])] at hd; cases hd
      simp [this]
  · rw [if_neg e]
    exact tab_other s _ (by exact fun e' => e e'.symm)

theorem tab_alias (s : WSpec) (a p m : Name) : tab (s.step (.alias a p)) m = if m = a then some (.alias p) else tab s m := by
  by_cases e : m = a
  · subst e
    simp [tab, Spec.step, GoMap.get_set]
  · rw [if_neg e]
    exact tab_other s _ (by exact fun e' => e e'.symm)

theorem tab_setProperty {s : WSpec} {n key : Name} {v : Prop'} {ty : Ty} {k : Option Kind} (hn : tab s n = some (.node ty k)) (m : Name) :
    tab (s.step (.setProperty n key v)) m = tab s m := by
  by_cases e : m = n
  · subst e
    unfold tab at hn ⊢
    simp only [Spec.step, Wiring.update_aliases, Wiring.update_defs]
    cases ha : s.aliases.get m with
    | some p => rw [ha] at hn; cases hn
    | none =>
      rw [ha] at hn
      cases hd : s.defs.get m with
      | none => rw [hd] at hn; cases hn
      | some d => simp
  · exact tab_other s _ (by exact fun e' => e e'.symm)

theorem tab_addProperty {s : WSpec} {n key : Name} {v : Prop'} {ty : Ty} {k : Option Kind} (hn : tab s n = some (.node ty k)) (m : Name) :
    tab (s.step (.addProperty n key v)) m = tab s m := by
  by_cases e : m = n
  · subst e
    unfold tab at hn ⊢
    simp only [Spec.step, Wiring.update_aliases, Wiring.update_defs]
    cases ha : s.aliases.get m with
    | some p => rw [ha] at hn; cases hn
    | none =>
      rw [ha] at hn
      cases hd : s.defs.get m with
      | none => rw [hd] at hn; cases hn
      | some d => simp
  · exact tab_other s _ (by exact fun e' => e e'.symm)

theorem getProperty_other (s : WSpec) (op : Op Ty Kind Prop') {n key : Name} (h : op.name ≠ n) :
    (s.step op).getProperty n key = s.getProperty n key := by
  have h' : ¬ n = op.name := fun e => h e.symm
  unfold Spec.getProperty
  cases op with
  | define m t k st => simp only [Spec.step, Wiring.update_defs]; rw [if_neg (by exact h')]
  | setProperty m k v => simp only [Spec.step, Wiring.update_defs]; rw [if_neg (by exact h')]
  | addProperty m k v => simp only [Spec.step, Wiring.update_defs]; rw [if_neg (by exact h')]
  | alias a p => simp only [Spec.step, GoMap.get_del]; rw [if_neg (by exact h')]

theorem getProperty_set (s : WSpec) (n key : Name) (v : Prop') : (s.step (.setProperty n key v)).getProperty n key = .value v := by
  unfold Spec.getProperty
  simp [Spec.step, Wiring.update_defs]

theorem getProperty_define {s : WSpec} {n key : Name} {v : Prop'} (h : s.getProperty n key = .value v) (hk : key ≠ Wiring.callsite) (m : Name)
    (ty : Ty) (k : Kind) (st : Prop') : (s.step (.define m ty k st)).getProperty n key = .value v := by
  by_cases e : m = n
  · subst e
    unfold Spec.getProperty at h ⊢
    simp only [Spec.step, Wiring.update_defs, if_true]
    cases hd : s.defs.get m with
    | none => rw [hd] at h; cases h
    | some d => rw [hd] at h; simpa [hk] using h
  · rw [getProperty_other _ _ (by exact e)]
    exact h

/-- An address that was just defined knows its destination. -/
theorem pointsTo_new (s : WSpec) (ptrs : GoMap Ptr) (a b c d : Name) : Wired.pointsTo ⟨(((s.step (.setProperty a "addr" (.addr d))).step
    (.define a .app .addr .stack)).step (.define b .app .bind .stack)).step (.define c .app .dial .stack), ptrs⟩ a = d := by
  have hk : "addr" ≠ Wiring.callsite := by decide
  unfold Wired.pointsTo
  rw [getProperty_define (getProperty_define (getProperty_define (getProperty_set s a "addr" (.addr d)) hk a _ _ _) hk b _ _ _) hk c _ _ _]

/-! ### Looking up -/

theorem resolve_of_get_none {s : WSpec} {n : Name} (h : s.aliases.get n = none) (f : Nat) : s.resolveAlias (f + 1) n = some n := by
  rw [Spec.resolveAlias, h]

theorem length_of_get {α : Type} {m : GoMap α} {a : Name} (h : m.get a ≠ none) : 0 < m.length := by
  cases m with
  | nil => exact absurd rfl h
  | cons e m => simp

theorem length_of_get2 {α : Type} {m : GoMap α} {a b : Name} (h : m.get a ≠ none) (h' : m.get b ≠ none) (hab : a ≠ b) : 1 < m.length := by
  cases m with
  | nil => exact absurd rfl h
  | cons e m =>
    cases m with
    | cons e' m => simp
    | nil =>
      exfalso
      unfold GoMap.get at h h'
      by_cases ea : e.1 = a
      · by_cases eb : e.1 = b
        · exact hab (ea.symm.trans eb)
        · simp [eb] at h'
      · simp [ea] at h

variable {w : Wired}

theorem tab_node {s : WSpec} {n : Name} {ty : Ty} {k : Option Kind} (h : tab s n = some (.node ty k)) :
    s.aliases.get n = none ∧ ∃ d, s.defs.get n = some d ∧ d.nodeType.getD .app = ty ∧ d.build = k := by
  unfold tab at h
  cases ha : s.aliases.get n with
  | some p => rw [ha] at h; cases h
  | none =>
    rw [ha] at h
    cases hd : s.defs.get n with
    | none => rw [hd] at h; cases h
    | some d =>
      rw [hd] at h
      simp only [Option.map_some] at h
      cases h
      exact ⟨rfl, d, rfl, rfl, rfl⟩

theorem tab_alias_get {s : WSpec} {n m : Name} (h : tab s n = some (.alias m)) : s.aliases.get n = some m := by
  unfold tab at h
  cases ha : s.aliases.get n with
  | some p => rw [ha] at h; cases h; rfl
  | none =>
    rw [ha] at h
    cases hd : s.defs.get n with
    | none => rw [hd] at h; cases h
    | some d => rw [hd] at h; cases h

theorem look_node {n : Name} {ty : Ty} {k : Option Kind} (h : tab w.spec n = some (.node ty k)) : w.env.look n = some (n, ty, k) := by
  obtain ⟨ha, d, hd, e1, e2⟩ := tab_node h
  simp [Wired.env, resolve_of_get_none ha, hd, e1, e2]

theorem look_none {n : Name} (h : tab w.spec n = none) : w.env.look n = none := by
  unfold tab at h
  cases ha : w.spec.aliases.get n with
  | some p => rw [ha] at h; cases h
  | none =>
    rw [ha] at h
    cases hd : w.spec.defs.get n with
    | some d => rw [hd] at h; cases h
    | none => simp [Wired.env, resolve_of_get_none ha, hd]

theorem look_alias {n m : Name} {ty : Ty} {k : Option Kind} (h : tab w.spec n = some (.alias m)) (h' : tab w.spec m = some (.node ty k)) :
    w.env.look n = some (m, ty, k) := by
  have hg := tab_alias_get h
  obtain ⟨ha, d, hd, e1, e2⟩ := tab_node h'
  have hl := length_of_get (m := w.spec.aliases) (a := n) (by simp [hg])
  obtain ⟨f, hf⟩ : ∃ f, w.spec.aliases.length = f + 1 := ⟨w.spec.aliases.length - 1, by omega⟩
  have : w.spec.resolveAlias (w.spec.aliases.length + 1) n = some m := by
    rw [hf, Spec.resolveAlias, hg]
    exact resolve_of_get_none ha f
  simp [Wired.env, this, hd, e1, e2]

theorem look_alias2 {n m j : Name} {ty : Ty} {k : Option Kind} (h : tab w.spec n = some (.alias m)) (h' : tab w.spec m = some (.alias j))
    (h'' : tab w.spec j = some (.node ty k)) : w.env.look n = some (j, ty, k) := by
  have hg := tab_alias_get h
  have hg' := tab_alias_get h'
  obtain ⟨ha, d, hd, e1, e2⟩ := tab_node h''
  have hne : n ≠ m := by
    intro e
    subst e
    rw [h] at h'
    cases h'
    rw [h] at h''
    cases h''
  have hl := length_of_get2 (m := w.spec.aliases) (a := n) (b := m) (by simp [hg]) (by simp [hg']) hne
  obtain ⟨f, hf⟩ : ∃ f, w.spec.aliases.length = f + 2 := ⟨w.spec.aliases.length - 2, by omega⟩
  have : w.spec.resolveAlias (w.spec.aliases.length + 1) n = some j := by
    rw [hf, Spec.resolveAlias, hg]
    simp only
    rw [Spec.resolveAlias, hg']
    exact resolve_of_get_none ha f
  simp [Wired.env, this, hd, e1, e2]

/-! ### Children -/

def kids (s : WSpec) (x : Name) : List Name :=
  ((s.getProperties x "Children").getD []).filterMap fun
    | .child c => some c
    | _ => none

theorem kids_other (s : WSpec) (op : Op Ty Kind Prop') {x : Name} (h : op.name ≠ x) : kids (s.step op) x = kids s x := by
  have h' : ¬ x = op.name := fun e => h e.symm
  unfold kids Spec.getProperties
  cases op with
  | define m t k st => simp only [Spec.step, Wiring.update_defs]; rw [if_neg (by exact h')]
  | setProperty m k v => simp only [Spec.step, Wiring.update_defs]; rw [if_neg (by exact h')]
  | addProperty m k v => simp only [Spec.step, Wiring.update_defs]; rw [if_neg (by exact h')]
  | alias a p => simp only [Spec.step, GoMap.get_del]; rw [if_neg (by exact h')]

theorem kids_define (s : WSpec) (n : Name) (ty : Ty) (k : Kind) (st : Prop') (x : Name) : kids (s.step (.define n ty k st)) x = kids s x := by
  by_cases e : n = x
  · subst e
    unfold kids Spec.getProperties
    simp only [Spec.step, Wiring.update_defs]
    cases s.defs.get n with
    | none => simp [Wiring.callsite]
    | some d => simp [Wiring.callsite]
  · exact kids_other s _ (by exact e)

theorem kids_add (s : WSpec) (x c : Name) : kids (s.step (.addProperty x "Children" (.child c))) x = kids s x ++ [c] := by
  unfold kids Spec.getProperties
  simp only [Spec.step, Wiring.update_defs]
  cases s.defs.get x with
  | none => simp
  | some d => simp

/-! ### Families of names -/

/-- The part of a name before the first dot. -/
def fam (n : Name) : List Char := n.toList.takeWhile (· != '.')

/-- A name without dots. -/
def Dotless (n : Name) : Prop := '.' ∉ n.toList

theorem fam_self {n : Name} (h : Dotless n) : fam n = n.toList := by
  unfold fam
  have := List.takeWhile_append_of_pos (p := (· != '.')) (l₁ := n.toList) (l₂ := []) (by
    intro c hc
    simp only [bne_iff_ne, ne_eq]
    intro e
    subst e
    exact h hc)
  simpa using this

theorem fam_dot {n : Name} (h : Dotless n) (s : Name) (hs : s.toList.head? = some '.') : fam (n ++ s) = n.toList := by
  unfold fam
  rw [String.toList_append, List.takeWhile_append_of_pos]
  · cases e : s.toList with
    | nil => simp
    | cons c r =>
      rw [e] at hs
      cases hs
      simp
  · intro c hc
    simp only [bne_iff_ne, ne_eq]
    intro e
    subst e
    exact h hc

theorem fam_sub {n : Name} (h : Dotless n) (s : Name) : fam (n ++ "." ++ s) = n.toList := by
  rw [String.append_assoc]
  refine fam_dot h _ ?_
  rw [String.toList_append]
  rfl

theorem fam_append {n : Name} {s : Name} (h : '.' ∈ n.toList) : fam (n ++ s) = fam n := by
  unfold fam
  rw [String.toList_append]
  generalize n.toList = l at h
  induction l with
  | nil => cases h
  | cons c l ih =>
    simp only [List.cons_append, List.takeWhile_cons]
    by_cases e : c = '.'
    · simp [e]
    · simp only [bne_iff_ne, ne_eq, e, not_false_eq_true, if_true]
      rw [ih ((List.mem_cons.1 h).resolve_left (fun e' => e e'.symm))]

end Verif.Compile
