import Verif.Address.Props
import Verif.Strings.Model

/-
What the deployers in /repo/plugins/dockercompose and /repo/plugins/kubernetes share: the
arguments of container instances and the assignment of ports to them.
-/
namespace Verif.Deploy

/-- Names, keys and texts. -/
scoped notation "Str" => List Char

open Verif.Strings (cleanName envVar)

/-- A `BindConfig` object (blueprint/pkg/coreplugins/address/ir.go:49-61).  `hostname` is
left out: the deployers never read it. -/
structure Bind where
  key : Str
  addr : Str
  port : Nat
  preferred : Nat
deriving DecidableEq, Repr

/-- The bind config objects of the application, by identity. -/
scoped notation "Heap" => Nat → Bind

/-- An argument node of a container instance. -/
inductive Arg where
  /-- `*address.BindConfig`, by identity -/
  | bind (id : Nat)
  /-- `*address.DialConfig` with its Key and AddressName -/
  | dial (key addr : Str)
  /-- any other `ir.IRConfig` with Name(), Optional() and HasValue() -/
  | config (name : Str) (optional hasValue : Bool)
  /-- a node that is not an `ir.IRConfig` -/
  | other
deriving DecidableEq, Repr

/-- The bind configs among the arguments, in order
(blueprint/pkg/coreplugins/address/portassignment.go:10-22, Split; also
`ir.Filter[*address.BindConfig]`). -/
def bindIds (args : List Arg) : List Nat :=
  args.filterMap fun | .bind i => some i | _ => none

/-- How a call ends. -/
inductive Outcome (α : Type) where
  | ok (a : α)
  | error
  /-- it never returns -/
  | diverges
deriving Repr, DecidableEq

/-- Set the ports that port assignment chose. -/
def writePorts (h : Heap) : List Nat → List Address.Bind → Heap
  | i :: ids, o :: out =>
    writePorts (fun j => if j = i then { h i with port := o.port, preferred := o.preferred } else h j) ids out
  | _, _ => h

/-- blueprint/pkg/coreplugins/address/portassignment.go:49-87 (AssignPorts) on objects:
the objects afterwards and the list `assigned`. -/
def assignPorts (h : Heap) (ids : List Nat) : Outcome ((Heap) × List Nat) :=
  match Address.assignPorts (ids.map fun i => ⟨"", (h i).port, (h i).preferred⟩) with
  | .conflict _ => .error
  | .diverges => .diverges
  | .ok out _ asg => .ok (writePorts h ids out, asg.filterMap fun n => ids[n]?)

/-- blueprint/pkg/coreplugins/address/portassignment.go:32-37 (Clear). -/
def clearPorts (h : Heap) (ids : List Nat) : Heap :=
  fun j => if j ∈ ids then { h j with port := 0 } else h j

/-- All ports are 16-bit numbers. -/
def Ports16 (h : Heap) : Prop := ∀ i, (h i).port < 65536 ∧ (h i).preferred < 65536

theorem writePorts_other (ids : List Nat) (out : List Address.Bind) (h : Heap) (j : Nat)
    (hj : j ∉ ids) : writePorts h ids out j = h j := by
  induction ids generalizing h out with
  | nil => rfl
  | cons i ids ih =>
    cases out with
    | nil => rfl
    | cons o out =>
      simp only [List.mem_cons, not_or] at hj
      rw [writePorts, ih _ _ hj.2]
      simp [hj.1]

theorem writePorts_at (ids : List Nat) (out : List Address.Bind) (h : Heap) (hn : ids.Nodup)
    (n i : Nat) (o : Address.Bind) (hi : ids[n]? = some i) (ho : out[n]? = some o) :
    writePorts h ids out i = { h i with port := o.port, preferred := o.preferred } := by
  induction ids generalizing h out n with
  | nil => simp at hi
  | cons k ids ih =>
    cases out with
    | nil => simp at ho
    | cons p out =>
      simp only [List.nodup_cons] at hn
      cases n with
      | zero =>
        simp only [List.getElem?_cons_zero, Option.some.injEq] at hi ho
        subst hi; subst ho
        rw [writePorts, writePorts_other _ _ _ _ hn.1]
        simp
      | succ n =>
        simp only [List.getElem?_cons_succ] at hi ho
        have hne : i ≠ k := fun h => hn.1 (h ▸ List.mem_of_getElem? hi)
        rw [writePorts, ih _ _ hn.2 n hi ho]
        simp [hne]

/-- What port assignment does to the objects it is given. -/
structure Assigned (h h' : Heap) (ids asg : List Nat) : Prop where
  others : ∀ i, i ∉ ids → h' i = h i
  same : ∀ i, (h' i).key = (h i).key ∧ (h' i).addr = (h i).addr
  preset : ∀ i, i ∈ ids → (h i).port ≠ 0 → (h' i).port = (h i).port
  asg : ∀ i, i ∈ asg ↔ i ∈ ids ∧ (h i).port = 0
  distinct : ∀ i, i ∈ ids → ∀ j, j ∈ ids → (h' i).port = (h' j).port → i = j
  bits : ∀ i, i ∈ ids → (h' i).port < 65536 ∧ (h' i).preferred = (h' i).port

theorem nodup_get_inj {α : Type} (l : List α) (hn : l.Nodup) (a b : Nat) (x : α)
    (ha : l[a]? = some x) (hb : l[b]? = some x) : a = b := by
  induction l generalizing a b with
  | nil => simp at ha
  | cons y l ih =>
    simp only [List.nodup_cons] at hn
    cases a with
    | zero =>
      cases b with
      | zero => rfl
      | succ b =>
        simp only [List.getElem?_cons_zero, Option.some.injEq, List.getElem?_cons_succ] at ha hb
        exact absurd (List.mem_of_getElem? hb) (ha ▸ hn.1)
    | succ a =>
      cases b with
      | zero =>
        simp only [List.getElem?_cons_zero, Option.some.injEq, List.getElem?_cons_succ] at ha hb
        exact absurd (List.mem_of_getElem? ha) (hb ▸ hn.1)
      | succ b =>
        simp only [List.getElem?_cons_succ] at ha hb
        rw [ih hn.2 a b ha hb]

theorem assignPorts_preferred (binds out : List Address.Bind) (pre asg : List Nat)
    (h : Address.assignPorts binds = .ok out pre asg) : ∀ o ∈ out, o.preferred = o.port := by
  simp only [Address.assignPorts] at h
  split at h
  · simp at h
  · split at h
    · simp at h
    · simp only [Address.Result.ok.injEq] at h
      intro o ho
      rw [← h.1] at ho
      obtain ⟨b, -, rfl⟩ := List.mem_map.1 ho
      rfl

theorem assignPorts_spec (h h' : Heap) (ids asg : List Nat) (hn : ids.Nodup) (h16 : Ports16 h)
    (ha : assignPorts h ids = .ok (h', asg)) : Assigned h h' ids asg := by
  simp only [assignPorts] at ha
  cases hp : Address.assignPorts (ids.map fun i => ⟨"", (h i).port, (h i).preferred⟩) with
  | conflict _ => simp [hp] at ha
  | diverges => simp [hp] at ha
  | ok out pre asg0 =>
    simp only [hp, Outcome.ok.injEq, Prod.mk.injEq] at ha
    obtain ⟨rfl, rfl⟩ := ha
    obtain ⟨hd, hnames, hpre, -, hasg, h16'⟩ := Address.C21_distinct_ports _ _ _ _ (by
      intro b hb
      obtain ⟨i, -, rfl⟩ := List.mem_map.1 hb
      exact h16 i) hp
    have hlen : out.length = ids.length := by
      have := congrArg List.length hnames
      simpa using this
    have hget : ∀ i ∈ ids, ∃ (n : Nat) (o : Address.Bind), ids[n]? = some i ∧ out[n]? = some o ∧
        writePorts h ids out i = { h i with port := o.port, preferred := o.preferred } := by
      intro i hi
      obtain ⟨n, hlt, rfl⟩ := List.mem_iff_getElem.1 hi
      have hlt' : n < out.length := by omega
      have h1 : ids[n]? = some ids[n] := List.getElem?_eq_getElem hlt
      have h2 : out[n]? = some out[n] := List.getElem?_eq_getElem hlt'
      exact ⟨n, _, h1, h2, writePorts_at _ _ _ hn n _ _ h1 h2⟩
    refine ⟨fun i hi => writePorts_other _ _ _ _ hi, ?_, ?_, ?_, ?_, ?_⟩
    · intro i
      by_cases hi : i ∈ ids
      · obtain ⟨n, o, -, -, e⟩ := hget i hi
        rw [e]; exact ⟨rfl, rfl⟩
      · rw [writePorts_other _ _ _ _ hi]; exact ⟨rfl, rfl⟩
    · intro i hi hport
      obtain ⟨n, o, h1, h2, e⟩ := hget i hi
      rw [e]
      exact hpre n ⟨"", (h i).port, (h i).preferred⟩ o (by simp [h1]) h2 hport
    · intro i
      rw [List.mem_filterMap]
      constructor
      · rintro ⟨n, hn1, hn2⟩
        obtain ⟨b, hb1, hb2⟩ := (hasg n).1 hn1
        refine ⟨List.mem_of_getElem? hn2, ?_⟩
        simp only [List.getElem?_map, hn2, Option.map_some, Option.some.injEq] at hb1
        rw [← hb1] at hb2
        exact hb2
      · rintro ⟨hi, hz⟩
        obtain ⟨n, o, h1, -, -⟩ := hget i hi
        exact ⟨n, (hasg n).2 ⟨⟨"", (h i).port, (h i).preferred⟩, by simp [h1], hz⟩, h1⟩
    · intro i hi j hj hij
      obtain ⟨n, o, h1, h2, e⟩ := hget i hi
      obtain ⟨m, q, h3, h4, e'⟩ := hget j hj
      rw [e, e'] at hij
      have : n = m := nodup_get_inj (out.map Address.Bind.port) hd n m o.port (by simp [h2])
        (by simp only [List.getElem?_map, h4, Option.map_some, Option.some.injEq]; exact hij.symm)
      subst this
      rw [h1] at h3
      exact Option.some.inj h3
    · intro i hi
      obtain ⟨n, o, h1, h2, e⟩ := hget i hi
      rw [e]
      exact ⟨h16' o (List.mem_of_getElem? h2), assignPorts_preferred _ _ _ _ hp o (List.mem_of_getElem? h2)⟩

theorem mem_bindIds (args : List Arg) (i : Nat) : i ∈ bindIds args ↔ .bind i ∈ args := by
  unfold bindIds
  rw [List.mem_filterMap]
  constructor
  · rintro ⟨a, ha, h⟩
    cases a <;> simp at h
    subst h; exact ha
  · intro h
    exact ⟨_, h, rfl⟩

end Verif.Deploy
