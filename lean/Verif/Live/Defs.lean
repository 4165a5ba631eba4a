import Verif.Live.Spec
import Verif.RtNs.BuilderProps
/-
What the builder of a process's namespace has for each name.
-/
namespace Verif.Live
open Verif.Wiring (Name)
open Verif.Compile (Tree bindName dialName)
open Verif.RtNs (Op Builder lastDef declared expected)

theorem declared_append : ∀ (a b : List Op), declared (a ++ b) = declared a ++ declared b
  | [], _ => rfl
  | op :: a, b => by cases op <;> simp [declared, declared_append a b]

theorem declared_required : ∀ l : List Tree, declared (l.map fun e => .required e.name) = l.map Tree.name
  | [] => rfl
  | e :: l => by simp [declared, declared_required l]

theorem declared_define : ∀ l : List (Tree × Nat), declared (l.map fun t => .define t.1.name t.2) = []
  | [] => rfl
  | e :: l => by simp [declared, declared_define l]

theorem lastDef_append : ∀ (a b : List Op) (n : Name), lastDef (a ++ b) n = (lastDef b n).or (lastDef a n)
  | [], b, n => by simp [lastDef]
  | op :: a, b, n => by
    simp only [List.cons_append, lastDef, lastDef_append a b n]
    cases lastDef b n <;> simp

theorem lastDef_required : ∀ (l : List Tree) (n : Name), lastDef (l.map fun e => .required e.name) n = none
  | [], _ => rfl
  | e :: l, n => by simp [lastDef, lastDef_required l n]

theorem lastDef_define : ∀ (l : List (Tree × Nat)) (n : Name) (d : RtNs.Src),
    lastDef (l.map fun t => .define t.1.name t.2) n = some d → ∃ t ∈ l, t.1.name = n ∧ d = .defined t.2
  | [], _, _, h => by simp [lastDef] at h
  | e :: l, n, d, h => by
    simp only [List.map_cons, lastDef] at h
    cases hl : lastDef (l.map fun t => Op.define t.1.name t.2) n with
    | some d' =>
      rw [hl] at h
      obtain ⟨t, ht, h1, h2⟩ := lastDef_define l n d' hl
      cases h
      exact ⟨t, by simp [ht], h1, h2⟩
    | none =>
      rw [hl] at h
      by_cases e1 : e.1.name = n
      · simp only [e1, if_true, Option.some.injEq] at h
        exact ⟨e, by simp, e1, h.symm⟩
      · simp [e1] at h

theorem lastDef_define_none : ∀ (l : List (Tree × Nat)) (n : Name),
    lastDef (l.map fun t => .define t.1.name t.2) n = none → ∀ t ∈ l, t.1.name ≠ n
  | [], _, _, _, ht => by cases ht
  | e :: l, n, h, t, ht => by
    simp only [List.map_cons, lastDef] at h
    cases hl : lastDef (l.map fun t => Op.define t.1.name t.2) n with
    | some d' => rw [hl] at h; cases h
    | none =>
      rw [hl] at h
      rcases List.mem_cons.1 ht with rfl | ht
      · intro e1; simp [e1] at h
      · exact lastDef_define_none l n hl t ht

theorem Proc.Closed.build_some {p : Proc} (c : p.Closed) (client : Name → Bool) {t : Tree} (ht : t ∈ p.nodes) :
    (build client t).isSome = true := by
  rcases c.code t ht with ⟨s, as, rfl⟩ | ⟨n, u, rfl⟩ | ⟨n, a, rfl⟩ | ⟨n, u, a, rfl⟩
  · simp [build]
  · simp only [build]; split <;> rfl
  · simp [build]
  · simp [build]

theorem Proc.Closed.ops_eq {p : Proc} (c : p.Closed) (client : Name → Bool) :
    p.ops client = p.edges.map (fun e => .required e.name) ++ p.nodes.zipIdx.map fun t => .define t.1.name t.2 := by
  unfold Proc.ops
  rw [List.filter_eq_self.2]
  intro t ht
  exact c.build_some client (List.fst_mem_of_mem_zipIdx ht)

theorem Proc.Closed.disjoint {p : Proc} (c : p.Closed) {t e : Tree} (ht : t ∈ p.nodes) (he : e ∈ p.edges) : t.name ≠ e.name := by
  have := c.names
  rw [List.map_append, List.nodup_append] at this
  exact this.2.2 _ (List.mem_map_of_mem ht) _ (List.mem_map_of_mem he)

theorem nodup_map_inj {α β : Type} (f : α → β) : ∀ (l : List α), (l.map f).Nodup → ∀ a ∈ l, ∀ b ∈ l, f a = f b → a = b
  | [], _, _, ha, _, _, _ => by cases ha
  | x :: l, h, a, ha, b, hb, e => by
    rw [List.map_cons, List.nodup_cons] at h
    rcases List.mem_cons.1 ha with h1 | h1 <;> rcases List.mem_cons.1 hb with h2 | h2
    · rw [h1, h2]
    · exact absurd (h1 ▸ e ▸ List.mem_map_of_mem h2) h.1
    · exact absurd (h2 ▸ e ▸ List.mem_map_of_mem h1) h.1
    · exact nodup_map_inj f l h.2 a h1 b h2 e

theorem Proc.Closed.inj {p : Proc} (c : p.Closed) {t u : Tree} (ht : t ∈ p.nodes) (hu : u ∈ p.nodes) (e : t.name = u.name) : t = u := by
  have := c.names
  rw [List.map_append, List.nodup_append] at this
  exact nodup_map_inj _ _ this.1 t ht u hu e

/-- What Build finds. -/
structure Finds (p : Proc) (w : RtNs.World) (defs : Name → Option RtNs.Src) : Prop where
  node : ∀ t ∈ p.nodes, ∃ i, defs t.name = some (.defined i) ∧ p.nodes[i]? = some t
  edge : ∀ e ∈ p.edges, defs e.name = some (.value (given w e.name))

theorem Proc.Closed.builds {p : Proc} (c : p.Closed) (client : Name → Bool) (w : RtNs.World) :
    ∃ reg b, Builder.run [] .new (p.ops client) = some (reg, b) ∧
      ((∀ e ∈ p.edges, given w e.name ≠ "") → ∃ defs, (b.build w b.required b.optional b.required).2 = .ok defs ∧ Finds p w defs) ∧
      ((∃ e ∈ p.edges, given w e.name = "") → ∃ names, (b.build w b.required b.optional b.required).2 = .missing names ∧
        ∀ n, n ∈ names ↔ ∃ e ∈ p.edges, e.name = n ∧ given w n = "") := by
  have hops := c.ops_eq client
  have hdecl : declared (p.ops client) = p.edges.map Tree.name := by
    rw [hops, declared_append, declared_required, declared_define, List.append_nil]
  have hreq : ∀ n, .required n ∈ p.ops client ↔ ∃ e ∈ p.edges, e.name = n := by
    intro n
    rw [hops]
    simp
  cases hr : Builder.run [] .new (p.ops client) with
  | none =>
    exfalso
    rcases (RtNs.run_spec _ _ _).2.1 hr with h | ⟨n, _, h⟩
    · apply h
      rw [hdecl]
      have := c.names
      rw [List.map_append, List.nodup_append] at this
      exact this.2.1
    · cases h
  | some x =>
    obtain ⟨reg, b⟩ := x
    have hlast : ∀ e ∈ p.edges, lastDef (p.ops client) e.name = none := by
      intro e he
      rw [hops, lastDef_append, lastDef_required, Option.or_none]
      cases hl : lastDef (p.nodes.zipIdx.map fun t => Op.define t.1.name t.2) e.name with
      | none => rfl
      | some d =>
        obtain ⟨t, ht, h1, _⟩ := lastDef_define _ _ _ hl
        exact absurd h1 (c.disjoint (List.fst_mem_of_mem_zipIdx ht) he)
    have hgiven : ∀ n, given w n = "" ↔ w.flag n = "" ∧ RtNs.envOf w n = "" := by
      intro n
      unfold given
      by_cases h : w.flag n = "" <;> simp [h]
    refine ⟨reg, b, rfl, ?_, ?_⟩
    · intro hg
      have hb := RtNs.C11_build w hr (List.Perm.refl b.required) (List.Perm.refl b.optional) (List.Perm.refl b.required)
      cases hx : (b.build w b.required b.optional b.required).2 with
      | missing names =>
        rw [hx] at hb
        obtain ⟨h1, _, h2⟩ := hb
        obtain ⟨n, ns, rfl⟩ := List.exists_cons_of_ne_nil h1
        obtain ⟨h3, _, h4, h5⟩ := (h2 n).1 (by simp)
        obtain ⟨e, he, rfl⟩ := (hreq n).1 h3
        exact absurd ((hgiven _).2 ⟨h4, h5⟩) (hg e he)
      | ok defs =>
        rw [hx] at hb
        refine ⟨defs, rfl, ?_, ?_⟩
        · intro t ht
          rw [hb.1]
          unfold expected
          rw [hops, lastDef_append]
          cases hl : lastDef (p.nodes.zipIdx.map fun t => Op.define t.1.name t.2) t.name with
          | none =>
            obtain ⟨i, hi, rfl⟩ := List.getElem_of_mem ht
            exact absurd rfl (lastDef_define_none _ _ hl (p.nodes[i], i) (by
              rw [List.mk_mem_zipIdx_iff_getElem?]; simp [hi]))
          | some d =>
            obtain ⟨u, hu, h1, rfl⟩ := lastDef_define _ _ _ hl
            have := c.inj (List.fst_mem_of_mem_zipIdx hu) ht h1
            obtain ⟨u, i⟩ := u
            subst this
            exact ⟨i, rfl, List.mk_mem_zipIdx_iff_getElem?.1 hu⟩
        · intro e he
          rw [hb.1]
          unfold expected
          rw [hlast e he]
          simp only [if_pos ((hreq e.name).2 ⟨e, he, rfl⟩)]
          have := hg e he
          unfold given RtNs.given at *
          by_cases h : w.flag e.name = "" <;> by_cases h' : RtNs.envOf w e.name = "" <;> simp_all
    · rintro ⟨e, he, hg⟩
      have hb := RtNs.C11_build w hr (List.Perm.refl b.required) (List.Perm.refl b.optional) (List.Perm.refl b.required)
      cases hx : (b.build w b.required b.optional b.required).2 with
      | missing names =>
        rw [hx] at hb
        refine ⟨names, rfl, fun n => ?_⟩
        rw [hb.2.2 n, hreq n, hgiven]
        constructor
        · rintro ⟨⟨e, he, rfl⟩, _, h⟩
          exact ⟨e, he, rfl, h⟩
        · rintro ⟨e, he, rfl, h⟩
          exact ⟨⟨e, he, rfl⟩, hlast e he, h⟩
      | ok defs =>
        rw [hx] at hb
        exfalso
        refine hb.2 e.name ((hreq _).2 ⟨e, he, rfl⟩) ?_
        obtain ⟨h1, h2⟩ := (hgiven _).1 hg
        unfold expected RtNs.given
        rw [hlast e he]
        simp [(hreq e.name).2 ⟨e, he, rfl⟩, h1, h2]

end Verif.Live
