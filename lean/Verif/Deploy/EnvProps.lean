import Verif.Deploy.EnvModel

namespace Verif.Deploy.Env
open Verif.Strings

/-! ### Specification -/

/-- The addresses in a list of nodes. -/
def Address (nodes : List Node) (a : Str) : Prop := ∃ key, .bind key a ∈ nodes ∨ .dial key a ∈ nodes

/-- Every address has at most one bind config and one dial config. -/
def Single (nodes : List Node) : Prop :=
  (∀ k l a, .bind k a ∈ nodes → .bind l a ∈ nodes → k = l) ∧
  (∀ k l a, .dial k a ∈ nodes → .dial l a ∈ nodes → k = l)

/-- The name of the variable of a node. -/
def nodeVar : Node → Option Str
  | .bind key _ => some (envVar key)
  | .dial key _ => some (envVar key)
  | .other => none

/-- No two nodes have the same variable. -/
def NoClash (nodes : List Node) : Prop :=
  ∀ m ∈ nodes, ∀ n ∈ nodes, ∀ x, nodeVar m = some x → nodeVar n = some x → m = n

/-! ### Grouping -/

/-- What matchDialsToBinds computes. -/
structure Groups (nodes : List Node) (cs : List Config) : Prop where
  names : (cs.map (·.name)).Nodup
  bind : ∀ c ∈ cs, ∀ k, c.bind = some k → .bind k c.name ∈ nodes
  dial : ∀ c ∈ cs, ∀ k, c.dial = some k → .dial k c.name ∈ nodes
  hasBind : ∀ k a, .bind k a ∈ nodes → ∃ c ∈ cs, c.name = a ∧ c.bind ≠ none
  hasDial : ∀ k a, .dial k a ∈ nodes → ∃ c ∈ cs, c.name = a ∧ c.dial ≠ none
  used : ∀ c ∈ cs, c.bind ≠ none ∨ c.dial ≠ none

theorem setBind_names (k a : Str) (cs : List Config) :
    (setBind k a cs).map (·.name) = if a ∈ cs.map (·.name) then cs.map (·.name) else cs.map (·.name) ++ [a] := by
  induction cs with
  | nil => rfl
  | cons c cs ih =>
    rw [setBind]
    by_cases hc : c.name = a
    · simp [hc]
    · rw [if_neg hc]
      have hne : (a = c.name) = False := eq_false fun h => hc h.symm
      simp only [List.map_cons, ih, List.mem_cons, hne, false_or]
      split <;> simp

theorem setDial_names (k a : Str) (cs : List Config) :
    (setDial k a cs).map (·.name) = if a ∈ cs.map (·.name) then cs.map (·.name) else cs.map (·.name) ++ [a] := by
  induction cs with
  | nil => rfl
  | cons c cs ih =>
    rw [setDial]
    by_cases hc : c.name = a
    · simp [hc]
    · rw [if_neg hc]
      have hne : (a = c.name) = False := eq_false fun h => hc h.symm
      simp only [List.map_cons, ih, List.mem_cons, hne, false_or]
      split <;> simp

theorem mem_setBind (k a : Str) (cs : List Config) (hn : (cs.map (·.name)).Nodup) (d : Config) :
    d ∈ setBind k a cs ↔ (d ∈ cs ∧ d.name ≠ a) ∨ (d.name = a ∧ d.bind = some k ∧
      ((a ∉ cs.map (·.name) ∧ d.dial = none) ∨ ∃ c ∈ cs, c.name = a ∧ d.dial = c.dial)) := by
  induction cs with
  | nil =>
    simp only [setBind, List.mem_singleton, List.not_mem_nil, false_and, List.map_nil,
      not_false_eq_true, true_and, false_or, exists_const, or_false]
    constructor
    · rintro rfl; simp
    · rintro ⟨h1, h2, h3⟩; cases d; simp_all
  | cons c cs ih =>
    simp only [List.map_cons, List.nodup_cons] at hn
    rw [setBind]
    by_cases hc : c.name = a
    · rw [if_pos hc]
      have hna : a ∉ cs.map (·.name) := hc ▸ hn.1
      simp only [List.mem_cons, List.map_cons, hc, true_or, not_true, false_and, false_or]
      constructor
      · rintro (rfl | h)
        · exact .inr ⟨rfl, rfl, c, .inl rfl, hc, rfl⟩
        · exact .inl ⟨.inr h, fun e => hna (List.mem_map.2 ⟨d, h, e⟩)⟩
      · rintro (⟨rfl | h, hne⟩ | ⟨h1, h2, c', rfl | hc', h3, h4⟩)
        · exact absurd hc hne
        · exact .inr h
        · left; cases d; cases c'; simp_all
        · exact absurd (List.mem_map.2 ⟨c', hc', h3⟩) hna
    · rw [if_neg hc]
      have hne : (a = c.name) = False := eq_false fun h => hc h.symm
      simp only [List.mem_cons, ih hn.2, List.map_cons, hne, false_or]
      constructor
      · rintro (rfl | ⟨h, hne⟩ | ⟨h1, h2, h3 | ⟨c', hc', h4⟩⟩)
        · exact .inl ⟨.inl rfl, hc⟩
        · exact .inl ⟨.inr h, hne⟩
        · exact .inr ⟨h1, h2, .inl h3⟩
        · exact .inr ⟨h1, h2, .inr ⟨c', .inr hc', h4⟩⟩
      · rintro (⟨rfl | h, hne⟩ | ⟨h1, h2, h3 | ⟨c', rfl | hc', h4, h5⟩⟩)
        · exact .inl rfl
        · exact .inr (.inl ⟨h, hne⟩)
        · exact .inr (.inr ⟨h1, h2, .inl h3⟩)
        · exact absurd h4 hc
        · exact .inr (.inr ⟨h1, h2, .inr ⟨c', hc', h4, h5⟩⟩)

theorem mem_setDial (k a : Str) (cs : List Config) (hn : (cs.map (·.name)).Nodup) (d : Config) :
    d ∈ setDial k a cs ↔ (d ∈ cs ∧ d.name ≠ a) ∨ (d.name = a ∧ d.dial = some k ∧
      ((a ∉ cs.map (·.name) ∧ d.bind = none) ∨ ∃ c ∈ cs, c.name = a ∧ d.bind = c.bind)) := by
  induction cs with
  | nil =>
    simp only [setDial, List.mem_singleton, List.not_mem_nil, false_and, List.map_nil,
      not_false_eq_true, true_and, false_or, exists_const, or_false]
    constructor
    · rintro rfl; simp
    · rintro ⟨h1, h2, h3⟩; cases d; simp_all
  | cons c cs ih =>
    simp only [List.map_cons, List.nodup_cons] at hn
    rw [setDial]
    by_cases hc : c.name = a
    · rw [if_pos hc]
      have hna : a ∉ cs.map (·.name) := hc ▸ hn.1
      simp only [List.mem_cons, List.map_cons, hc, true_or, not_true, false_and, false_or]
      constructor
      · rintro (rfl | h)
        · exact .inr ⟨rfl, rfl, c, .inl rfl, hc, rfl⟩
        · exact .inl ⟨.inr h, fun e => hna (List.mem_map.2 ⟨d, h, e⟩)⟩
      · rintro (⟨rfl | h, hne⟩ | ⟨h1, h2, c', rfl | hc', h3, h4⟩)
        · exact absurd hc hne
        · exact .inr h
        · left; cases d; cases c'; simp_all
        · exact absurd (List.mem_map.2 ⟨c', hc', h3⟩) hna
    · rw [if_neg hc]
      have hne : (a = c.name) = False := eq_false fun h => hc h.symm
      simp only [List.mem_cons, ih hn.2, List.map_cons, hne, false_or]
      constructor
      · rintro (rfl | ⟨h, hne⟩ | ⟨h1, h2, h3 | ⟨c', hc', h4⟩⟩)
        · exact .inl ⟨.inl rfl, hc⟩
        · exact .inl ⟨.inr h, hne⟩
        · exact .inr ⟨h1, h2, .inl h3⟩
        · exact .inr ⟨h1, h2, .inr ⟨c', .inr hc', h4⟩⟩
      · rintro (⟨rfl | h, hne⟩ | ⟨h1, h2, h3 | ⟨c', rfl | hc', h4, h5⟩⟩)
        · exact .inl rfl
        · exact .inr (.inl ⟨h, hne⟩)
        · exact .inr (.inr ⟨h1, h2, .inl h3⟩)
        · exact absurd h4 hc
        · exact .inr (.inr ⟨h1, h2, .inr ⟨c', hc', h4, h5⟩⟩)

theorem nodup_snoc {l : List Str} {a : Str} (h : l.Nodup) : (if a ∈ l then l else l ++ [a]).Nodup := by
  split
  · exact h
  · rename_i hn
    rw [List.nodup_append]
    refine ⟨h, by simp, ?_⟩
    intro x hx y hy e
    simp only [List.mem_singleton] at hy
    exact hn (hy ▸ e ▸ hx)

theorem Groups.bindStep {nodes : List Node} {cs : List Config} (g : Groups nodes cs) (k a : Str) :
    Groups (nodes ++ [.bind k a]) (setBind k a cs) := by
  have hm := mem_setBind k a cs g.names
  have keep : ∀ c ∈ cs, ∃ d ∈ setBind k a cs, d.name = c.name ∧ d.dial = c.dial ∧
      (c.bind ≠ none ∨ c.name = a → d.bind ≠ none) := by
    intro c hc
    by_cases he : c.name = a
    · exact ⟨⟨a, some k, c.dial⟩, (hm _).2 (.inr ⟨rfl, rfl, .inr ⟨c, hc, he, rfl⟩⟩), he.symm, rfl,
        by simp⟩
    · exact ⟨c, (hm _).2 (.inl ⟨hc, he⟩), rfl, rfl, fun h => h.elim id (fun h => absurd h he)⟩
  refine ⟨?_, ?_, ?_, ?_, ?_, ?_⟩
  · rw [setBind_names]; exact nodup_snoc g.names
  · intro c hc l hl
    rcases (hm c).1 hc with ⟨h, -⟩ | ⟨h1, h2, -⟩
    · exact List.mem_append_left _ (g.bind c h l hl)
    · rw [h2] at hl; cases hl; rw [h1]; simp
  · intro c hc l hl
    rcases (hm c).1 hc with ⟨h, -⟩ | ⟨h1, h2, ⟨-, h3⟩ | ⟨d, hd, hda, h3⟩⟩
    · exact List.mem_append_left _ (g.dial c h l hl)
    · rw [h3] at hl; simp at hl
    · rw [h3] at hl
      have := g.dial d hd l hl
      rw [hda] at this
      rw [h1]; exact List.mem_append_left _ this
  · intro l b hb
    rcases List.mem_append.1 hb with hb | hb
    · obtain ⟨c, hc, h1, h2⟩ := g.hasBind l b hb
      obtain ⟨d, hd, e1, -, e3⟩ := keep c hc
      exact ⟨d, hd, e1.trans h1, e3 (.inl h2)⟩
    · simp only [List.mem_singleton, Node.bind.injEq] at hb
      obtain ⟨rfl, rfl⟩ := hb
      by_cases ha : b ∈ cs.map (·.name)
      · obtain ⟨c, hc, h1⟩ := List.mem_map.1 ha
        obtain ⟨d, hd, e1, -, e3⟩ := keep c hc
        exact ⟨d, hd, e1.trans h1, e3 (.inr h1)⟩
      · exact ⟨⟨b, some l, none⟩, (hm _).2 (.inr ⟨rfl, rfl, .inl ⟨ha, rfl⟩⟩), rfl, by simp⟩
  · intro l b hb
    simp only [List.mem_append, List.mem_singleton, reduceCtorEq, or_false] at hb
    obtain ⟨c, hc, h1, h2⟩ := g.hasDial l b hb
    obtain ⟨d, hd, e1, e2, -⟩ := keep c hc
    exact ⟨d, hd, e1.trans h1, e2 ▸ h2⟩
  · intro c hc
    rcases (hm c).1 hc with ⟨h, -⟩ | ⟨h1, h2, -⟩
    · exact g.used c h
    · exact .inl (by simp [h2])

theorem Groups.dialStep {nodes : List Node} {cs : List Config} (g : Groups nodes cs) (k a : Str) :
    Groups (nodes ++ [.dial k a]) (setDial k a cs) := by
  have hm := mem_setDial k a cs g.names
  have keep : ∀ c ∈ cs, ∃ d ∈ setDial k a cs, d.name = c.name ∧ d.bind = c.bind ∧
      (c.dial ≠ none ∨ c.name = a → d.dial ≠ none) := by
    intro c hc
    by_cases he : c.name = a
    · exact ⟨⟨a, c.bind, some k⟩, (hm _).2 (.inr ⟨rfl, rfl, .inr ⟨c, hc, he, rfl⟩⟩), he.symm, rfl,
        by simp⟩
    · exact ⟨c, (hm _).2 (.inl ⟨hc, he⟩), rfl, rfl, fun h => h.elim id (fun h => absurd h he)⟩
  refine ⟨?_, ?_, ?_, ?_, ?_, ?_⟩
  · rw [setDial_names]; exact nodup_snoc g.names
  · intro c hc l hl
    rcases (hm c).1 hc with ⟨h, -⟩ | ⟨h1, h2, ⟨-, h3⟩ | ⟨d, hd, hda, h3⟩⟩
    · exact List.mem_append_left _ (g.bind c h l hl)
    · rw [h3] at hl; simp at hl
    · rw [h3] at hl
      have := g.bind d hd l hl
      rw [hda] at this
      rw [h1]; exact List.mem_append_left _ this
  · intro c hc l hl
    rcases (hm c).1 hc with ⟨h, -⟩ | ⟨h1, h2, -⟩
    · exact List.mem_append_left _ (g.dial c h l hl)
    · rw [h2] at hl; cases hl; rw [h1]; simp
  · intro l b hb
    simp only [List.mem_append, List.mem_singleton, reduceCtorEq, or_false] at hb
    obtain ⟨c, hc, h1, h2⟩ := g.hasBind l b hb
    obtain ⟨d, hd, e1, e2, -⟩ := keep c hc
    exact ⟨d, hd, e1.trans h1, e2 ▸ h2⟩
  · intro l b hb
    rcases List.mem_append.1 hb with hb | hb
    · obtain ⟨c, hc, h1, h2⟩ := g.hasDial l b hb
      obtain ⟨d, hd, e1, -, e3⟩ := keep c hc
      exact ⟨d, hd, e1.trans h1, e3 (.inl h2)⟩
    · simp only [List.mem_singleton, Node.dial.injEq] at hb
      obtain ⟨rfl, rfl⟩ := hb
      by_cases ha : b ∈ cs.map (·.name)
      · obtain ⟨c, hc, h1⟩ := List.mem_map.1 ha
        obtain ⟨d, hd, e1, -, e3⟩ := keep c hc
        exact ⟨d, hd, e1.trans h1, e3 (.inr h1)⟩
      · exact ⟨⟨b, none, some l⟩, (hm _).2 (.inr ⟨rfl, rfl, .inl ⟨ha, rfl⟩⟩), rfl, by simp⟩
  · intro c hc
    rcases (hm c).1 hc with ⟨h, -⟩ | ⟨h1, h2, -⟩
    · exact g.used c h
    · exact .inr (by simp [h2])

theorem groups (nodes : List Node) : Groups nodes (matchDialsToBinds [] nodes) := by
  suffices ∀ nodes pre cs, Groups pre cs → Groups (pre ++ nodes) (matchDialsToBinds cs nodes) by
    simpa using this nodes [] [] ⟨by simp, by simp, by simp, by simp, by simp, by simp⟩
  intro nodes
  induction nodes with
  | nil => intro pre cs g; simpa [matchDialsToBinds] using g
  | cons n nodes ih =>
    intro pre cs g
    cases n with
    | bind k a =>
      have := ih _ _ (g.bindStep k a)
      simpa [matchDialsToBinds] using this
    | dial k a =>
      have := ih _ _ (g.dialStep k a)
      simpa [matchDialsToBinds] using this
    | other =>
      have g' : Groups (pre ++ [.other]) cs := by
        refine ⟨g.names, ?_, ?_, ?_, ?_, g.used⟩
        · intro c hc k hk; exact List.mem_append_left _ (g.bind c hc k hk)
        · intro c hc k hk; exact List.mem_append_left _ (g.dial c hc k hk)
        · intro k a h; exact g.hasBind k a (by simpa using h)
        · intro k a h; exact g.hasDial k a (by simpa using h)
      have := ih _ _ g'
      simpa [matchDialsToBinds] using this

/-! ### Sorting -/

theorem mem_insert (c d : Config) (cs : List Config) : d ∈ insert c cs ↔ d = c ∨ d ∈ cs := by
  induction cs with
  | nil => simp [insert]
  | cons e cs ih =>
    rw [insert]
    split
    · simp
    · simp only [List.mem_cons, ih]
      constructor
      · rintro (h | h | h) <;> simp [h]
      · rintro (h | h | h) <;> simp [h]

theorem insert_perm (c : Config) (cs : List Config) : (insert c cs).Perm (c :: cs) := by
  induction cs with
  | nil => exact .refl _
  | cons e cs ih =>
    rw [insert]
    split
    · exact .refl _
    · exact (List.Perm.cons e ih).trans (.swap c e cs)

theorem sort_perm (cs : List Config) : (sortByName cs).Perm cs := by
  induction cs with
  | nil => exact .refl _
  | cons c cs ih => exact (insert_perm c _).trans (.cons c ih)

theorem before_total (a b : Str) : before a b = true ∨ before b a = true := by
  induction a generalizing b with
  | nil => exact .inl rfl
  | cons x a ih =>
    cases b with
    | nil => exact .inr rfl
    | cons y b =>
      simp only [before, Bool.or_eq_true, decide_eq_true_eq, Bool.and_eq_true, beq_iff_eq]
      rcases Nat.lt_trichotomy x.toNat y.toNat with h | h | h
      · exact .inl (.inl h)
      · have : x = y := Char.toNat_inj.1 h
        subst this
        rcases ih b with h | h
        · exact .inl (.inr ⟨rfl, h⟩)
        · exact .inr (.inr ⟨rfl, h⟩)
      · exact .inr (.inl h)

theorem before_antisymm (a b : Str) (h1 : before a b = true) (h2 : before b a = true) : a = b := by
  induction a generalizing b with
  | nil =>
    cases b with
    | nil => rfl
    | cons y b => simp [before] at h2
  | cons x a ih =>
    cases b with
    | nil => simp [before] at h1
    | cons y b =>
      simp only [before, Bool.or_eq_true, decide_eq_true_eq, Bool.and_eq_true, beq_iff_eq] at h1 h2
      rcases h1 with h1 | ⟨rfl, h1⟩
      · rcases h2 with h2 | ⟨rfl, -⟩ <;> omega
      · rcases h2 with h2 | ⟨-, h2⟩
        · omega
        · rw [ih b h1 h2]

theorem before_trans (a b c : Str) (h1 : before a b = true) (h2 : before b c = true) :
    before a c = true := by
  induction a generalizing b c with
  | nil => rfl
  | cons x a ih =>
    cases b with
    | nil => simp [before] at h1
    | cons y b =>
      cases c with
      | nil => simp [before] at h2
      | cons z c =>
        simp only [before, Bool.or_eq_true, decide_eq_true_eq, Bool.and_eq_true, beq_iff_eq] at h1 h2 ⊢
        rcases h1 with h1 | ⟨rfl, h1⟩
        · rcases h2 with h2 | ⟨rfl, -⟩
          · exact .inl (Nat.lt_trans h1 h2)
          · exact .inl h1
        · rcases h2 with h2 | ⟨rfl, h2⟩
          · exact .inl h2
          · exact .inr ⟨rfl, ih b c h1 h2⟩

/-- Sorted by name. -/
def Sorted (cs : List Config) : Prop := cs.Pairwise fun c d => before c.name d.name = true

theorem insert_sorted (c : Config) (cs : List Config) (h : Sorted cs) : Sorted (insert c cs) := by
  induction cs with
  | nil => simp [insert, Sorted]
  | cons d cs ih =>
    rw [insert]
    have h' := h
    rw [Sorted, List.pairwise_cons] at h
    split
    · rename_i hb
      rw [Sorted, List.pairwise_cons]
      refine ⟨fun e he => ?_, h'⟩
      rcases List.mem_cons.1 he with rfl | he
      · exact hb
      · exact before_trans _ _ _ hb (h.1 e he)
    · rename_i hb
      rw [Sorted, List.pairwise_cons]
      refine ⟨fun e he => ?_, ih h.2⟩
      rcases (mem_insert _ _ _).1 he with rfl | he
      · exact (before_total _ _).resolve_left hb
      · exact h.1 e he

theorem sort_sorted (cs : List Config) : Sorted (sortByName cs) := by
  induction cs with
  | nil => exact List.Pairwise.nil
  | cons c cs ih => exact insert_sorted c _ ih

theorem sorted_unique (as : List Config) : ∀ bs : List Config, (as.map (·.name)).Nodup →
    as.Perm bs → Sorted as → Sorted bs → as = bs := by
  induction as with
  | nil => intro bs _ hp _ _; exact (List.nil_perm.1 hp).symm
  | cons a as ih =>
    intro bs hn hp ha hb
    cases bs with
    | nil => exact absurd hp.symm (by simp)
    | cons b bs =>
      have hab : a = b := by
        have h1 := hp.mem_iff (a := a)
        have h2 := hp.mem_iff (a := b)
        simp only [List.mem_cons, true_or, true_iff, iff_true] at h1 h2
        rcases h1 with h1 | h1
        · exact h1
        · rcases h2 with h2 | h2
          · exact h2.symm
          · have e1 := (List.pairwise_cons.1 ha).1 b h2
            have e2 := (List.pairwise_cons.1 hb).1 a h1
            have := before_antisymm _ _ e1 e2
            simp only [List.map_cons, List.nodup_cons] at hn
            exact absurd (List.mem_map.2 ⟨b, h2, this.symm⟩) hn.1
      subst hab
      simp only [List.map_cons, List.nodup_cons] at hn
      rw [ih bs hn.2 (hp.cons_inv) (List.pairwise_cons.1 ha).2 (List.pairwise_cons.1 hb).2]

/-! ### The lines -/

theorem mem_emit (lh : Bool) (cs : List Config) : ∀ (p : Nat) (l : Line), p < 65536 →
    (l ∈ emit lh p cs ↔ ∃ n c, cs[n]? = some c ∧ l ∈ linesOf c ((p + n) % 65536) lh) := by
  induction cs with
  | nil => intro p l _; simp [emit]
  | cons c cs ih =>
    intro p l hp
    rw [emit, List.mem_append, ih _ l (Nat.mod_lt _ (by omega))]
    constructor
    · rintro (h | ⟨n, d, h1, h2⟩)
      · exact ⟨0, c, rfl, by rw [Nat.add_zero, Nat.mod_eq_of_lt hp]; exact h⟩
      · refine ⟨n + 1, d, by simpa using h1, ?_⟩
        rw [show (p + (n + 1)) % 65536 = ((p + 1) % 65536 + n) % 65536 by omega]
        exact h2
    · rintro ⟨n, d, h1, h2⟩
      cases n with
      | zero =>
        simp only [List.getElem?_cons_zero, Option.some.injEq] at h1
        subst h1
        rw [Nat.add_zero, Nat.mod_eq_of_lt hp] at h2
        exact .inl h2
      | succ n =>
        refine .inr ⟨n, d, by simpa using h1, ?_⟩
        rw [show ((p + 1) % 65536 + n) % 65536 = (p + (n + 1)) % 65536 by omega]
        exact h2

/-- The position of an address in the sorted list. -/
def rank (cs : List Config) (a : Str) : Nat := (sortByName cs).findIdx fun c => c.name == a

theorem rank_of {cs : List Config} (hn : (cs.map (·.name)).Nodup) {n : Nat} {c : Config}
    (h : (sortByName cs)[n]? = some c) : rank cs c.name = n := by
  have hs : ((sortByName cs).map (·.name)).Nodup := ((sort_perm cs).map _).nodup_iff.2 hn
  revert h hs
  unfold rank
  generalize sortByName cs = l
  intro h hs
  induction l generalizing n with
  | nil => simp at h
  | cons d l ih =>
    simp only [List.map_cons, List.nodup_cons] at hs
    cases n with
    | zero =>
      simp only [List.getElem?_cons_zero, Option.some.injEq] at h
      subst h
      simp [List.findIdx_cons]
    | succ n =>
      simp only [List.getElem?_cons_succ] at h
      have hne : d.name ≠ c.name := fun e => hs.1 (List.mem_map.2 ⟨c, List.mem_of_getElem? h, e.symm⟩)
      rw [List.findIdx_cons, ih h hs.2, beq_eq_false_iff_ne.2 hne]
      rfl

/-- C50: there is one port for each address, and both files consist of exactly these lines:
for each address the variable of its bind config, bound to that port on all interfaces, and
the variable of its dial config with that same port and the host name `localhost`
(.local.env) or the service's name (.env).  The ports of different addresses differ, up to
65536 addresses; they are the numbers from the first port on, unless the range overflows. -/
theorem C50_one_port (nodes : List Node) (hs : Single nodes) (p : Nat) (hp : p < 65536) :
    ∃ port : Str → Nat,
      (∀ l, l ∈ (generateEnvFiles nodes p).1 ↔
        ∃ key a, (.bind key a ∈ nodes ∧ l = ⟨envVar key, "0.0.0.0".toList, port a⟩) ∨
          (.dial key a ∈ nodes ∧ l = ⟨envVar key, "localhost".toList, port a⟩)) ∧
      (∀ l, l ∈ (generateEnvFiles nodes p).2 ↔
        ∃ key a, (.bind key a ∈ nodes ∧ l = ⟨envVar key, "0.0.0.0".toList, port a⟩) ∨
          (.dial key a ∈ nodes ∧ l = ⟨envVar key, serviceName a, port a⟩)) ∧
      (∀ as : List Str, as.Nodup → (∀ a, Address nodes a ↔ a ∈ as) →
        (as.length ≤ 65536 → ∀ a b, a ∈ as → b ∈ as → port a = port b → a = b) ∧
        (p + as.length ≤ 65536 → ∀ a ∈ as, p ≤ port a ∧ port a < p + as.length)) := by
  have g := groups nodes
  let cs := matchDialsToBinds [] nodes
  have hget : ∀ c ∈ cs, ∃ n, (sortByName cs)[n]? = some c ∧ rank cs c.name = n := by
    intro c hc
    obtain ⟨n, hn⟩ := List.mem_iff_getElem?.1 ((sort_perm cs).mem_iff.2 hc)
    exact ⟨n, hn, rank_of g.names hn⟩
  have hone : ∀ c ∈ cs, ∀ d ∈ cs, c.name = d.name → c = d := by
    intro c hc d hd e
    obtain ⟨n, h1, h2⟩ := hget c hc
    obtain ⟨m, h3, h4⟩ := hget d hd
    rw [e, h4] at h2
    subst h2
    rw [h1] at h3
    exact Option.some.inj h3
  have hbind : ∀ k a, .bind k a ∈ nodes ↔ ∃ c ∈ cs, c.name = a ∧ c.bind = some k := by
    intro k a
    constructor
    · intro h
      obtain ⟨c, hc, h1, h2⟩ := g.hasBind k a h
      refine ⟨c, hc, h1, ?_⟩
      cases hb : c.bind with
      | none => exact absurd hb h2
      | some l =>
        have := g.bind c hc l hb
        rw [h1] at this
        rw [hs.1 l k a this h]
    · rintro ⟨c, hc, rfl, h⟩
      exact g.bind c hc k h
  have hdial : ∀ k a, .dial k a ∈ nodes ↔ ∃ c ∈ cs, c.name = a ∧ c.dial = some k := by
    intro k a
    constructor
    · intro h
      obtain ⟨c, hc, h1, h2⟩ := g.hasDial k a h
      refine ⟨c, hc, h1, ?_⟩
      cases hb : c.dial with
      | none => exact absurd hb h2
      | some l =>
        have := g.dial c hc l hb
        rw [h1] at this
        rw [hs.2 l k a this h]
    · rintro ⟨c, hc, rfl, h⟩
      exact g.dial c hc k h
  have lines : ∀ lh l, l ∈ generateEnv cs p lh ↔ ∃ key a,
      (.bind key a ∈ nodes ∧ l = ⟨envVar key, "0.0.0.0".toList, (p + rank cs a) % 65536⟩) ∨
      (.dial key a ∈ nodes ∧ l = ⟨envVar key,
        if lh then "localhost".toList else serviceName a, (p + rank cs a) % 65536⟩) := by
    intro lh l
    rw [generateEnv, mem_emit _ _ _ _ hp]
    constructor
    · rintro ⟨n, c, h1, h2⟩
      have hr := rank_of g.names h1
      have hc : c ∈ cs := (sort_perm cs).mem_iff.1 (List.mem_of_getElem? h1)
      rw [← hr] at h2
      rw [linesOf, List.mem_append] at h2
      rcases h2 with h2 | h2
      · cases hb : c.bind with
        | none => simp [hb] at h2
        | some k =>
          simp only [hb, List.mem_singleton] at h2
          exact ⟨k, c.name, .inl ⟨g.bind c hc k hb, h2⟩⟩
      · cases hb : c.dial with
        | none => simp [hb] at h2
        | some k =>
          simp only [hb, List.mem_singleton] at h2
          exact ⟨k, c.name, .inr ⟨g.dial c hc k hb, h2⟩⟩
    · rintro ⟨key, a, ⟨h, rfl⟩ | ⟨h, rfl⟩⟩
      · obtain ⟨c, hc, rfl, hb⟩ := (hbind key a).1 h
        obtain ⟨n, h1, h2⟩ := hget c hc
        refine ⟨n, c, h1, ?_⟩
        rw [linesOf, hb, h2]
        exact List.mem_append_left _ (List.mem_singleton.2 rfl)
      · obtain ⟨c, hc, rfl, hb⟩ := (hdial key a).1 h
        obtain ⟨n, h1, h2⟩ := hget c hc
        refine ⟨n, c, h1, ?_⟩
        rw [linesOf, hb, h2]
        exact List.mem_append_right _ (List.mem_singleton.2 rfl)
  refine ⟨fun a => (p + rank cs a) % 65536, ?_, ?_, ?_⟩
  · intro l; exact lines true l
  · intro l; exact lines false l
  · intro as hnd has
    have hmem : ∀ a, a ∈ as ↔ a ∈ cs.map (·.name) := by
      intro a
      rw [← has a, List.mem_map]
      constructor
      · rintro ⟨k, h | h⟩
        · obtain ⟨c, hc, h1, -⟩ := g.hasBind k a h
          exact ⟨c, hc, h1⟩
        · obtain ⟨c, hc, h1, -⟩ := g.hasDial k a h
          exact ⟨c, hc, h1⟩
      · rintro ⟨c, hc, rfl⟩
        cases hb : c.bind with
        | some k => exact ⟨k, .inl (g.bind c hc k hb)⟩
        | none =>
          cases hd : c.dial with
          | some k => exact ⟨k, .inr (g.dial c hc k hd)⟩
          | none =>
            have := g.used c hc
            simp [hb, hd] at this
    have hperm : as.Perm (cs.map (·.name)) := (List.perm_ext_iff_of_nodup hnd g.names).2 hmem
    have hlen : as.length = cs.length := by simpa using hperm.length_eq
    have hrk : ∀ a ∈ as, rank cs a < as.length ∧
        ∃ c, (sortByName cs)[rank cs a]? = some c ∧ c.name = a := by
      intro a ha
      obtain ⟨c, hc, rfl⟩ := List.mem_map.1 ((hmem a).1 ha)
      obtain ⟨n, h1, h2⟩ := hget c hc
      rw [h2]
      refine ⟨?_, c, h1, rfl⟩
      have := (List.getElem?_eq_some_iff.1 h1).1
      rw [(sort_perm cs).length_eq] at this
      omega
    refine ⟨fun hle a b ha hb hab => ?_, fun hle a ha => ?_⟩
    · obtain ⟨h1, c, h2, h3⟩ := hrk a ha
      obtain ⟨h4, d, h5, h6⟩ := hrk b hb
      have : rank cs a = rank cs b := by
        simp only at hab
        omega
      rw [this, h5] at h2
      rw [← h3, ← h6, Option.some.inj h2]
    · have := (hrk a ha).1
      simp only
      omega

/-- C50: the two files agree: line by line, the same variable with the same port. -/
theorem C50_files_agree (nodes : List Node) (p : Nat) :
    (generateEnvFiles nodes p).1.map (fun l => (l.var, l.port)) =
    (generateEnvFiles nodes p).2.map (fun l => (l.var, l.port)) := by
  have : ∀ (cs : List Config) (q : Nat), (emit true q cs).map (fun l => (l.var, l.port)) =
      (emit false q cs).map (fun l => (l.var, l.port)) := by
    intro cs
    induction cs with
    | nil => intro q; rfl
    | cons c cs ih =>
      intro q
      simp only [emit, List.map_append, ih]
      congr 1
      unfold linesOf
      cases c.bind <;> cases c.dial <;> rfl
  exact this _ _

/-- The values that a shell reads from a file without repeated variables. -/
theorem lookup_of_mem (ls : List Line) (l : Line) (hl : l ∈ ls)
    (hu : ∀ m ∈ ls, m.var = l.var → m = l) : lookup ls l.var = some (l.host, l.port) := by
  unfold lookup
  cases hf : ls.reverse.find? fun m => m.var == l.var with
  | none =>
    have := List.find?_eq_none.1 hf l (by simpa using hl)
    simp at this
  | some m =>
    have h1 := List.find?_some hf
    have h2 := List.mem_of_find?_eq_some hf
    simp only [beq_iff_eq] at h1
    rw [hu m (by simpa using h2) h1]
    rfl

/-- C50: what the variables of an address are after reading one of the files: the server is
told to listen on the port that the clients are told to dial, in both files, and the
variables of different addresses have different ports. -/
theorem C50_variables (nodes : List Node) (hs : Single nodes) (hnc : NoClash nodes) (p : Nat)
    (hp : p < 65536) :
    ∃ port : Str → Nat,
      (∀ key a, .bind key a ∈ nodes →
        lookup (generateEnvFiles nodes p).1 (envVar key) = some ("0.0.0.0".toList, port a) ∧
        lookup (generateEnvFiles nodes p).2 (envVar key) = some ("0.0.0.0".toList, port a)) ∧
      (∀ key a, .dial key a ∈ nodes →
        lookup (generateEnvFiles nodes p).1 (envVar key) = some ("localhost".toList, port a) ∧
        lookup (generateEnvFiles nodes p).2 (envVar key) = some (serviceName a, port a)) ∧
      (∀ as : List Str, as.Nodup → (∀ a, Address nodes a ↔ a ∈ as) → as.length ≤ 65536 →
        ∀ a b, a ∈ as → b ∈ as → port a = port b → a = b) := by
  obtain ⟨port, h1, h2, h3⟩ := C50_one_port nodes hs p hp
  have uniq : ∀ (host : Bool) (ls : List Line), (∀ l, l ∈ ls ↔
      ∃ key a, (.bind key a ∈ nodes ∧ l = ⟨envVar key, "0.0.0.0".toList, port a⟩) ∨
        (.dial key a ∈ nodes ∧ l = ⟨envVar key,
          if host then "localhost".toList else serviceName a, port a⟩)) →
      ∀ l ∈ ls, ∀ m ∈ ls, m.var = l.var → m = l := by
    intro host ls hls l hl m hm hv
    obtain ⟨k, a, hk⟩ := (hls l).1 hl
    obtain ⟨k', a', hk'⟩ := (hls m).1 hm
    rcases hk with ⟨n1, rfl⟩ | ⟨n1, rfl⟩ <;> rcases hk' with ⟨n2, rfl⟩ | ⟨n2, rfl⟩
    · have := hnc _ n2 _ n1 (envVar k) (by simp only [nodeVar]; exact congrArg some hv) rfl
      cases this; rfl
    · have := hnc _ n2 _ n1 (envVar k) (by simp only [nodeVar]; exact congrArg some hv) rfl
      cases this
    · have := hnc _ n2 _ n1 (envVar k) (by simp only [nodeVar]; exact congrArg some hv) rfl
      cases this
    · have := hnc _ n2 _ n1 (envVar k) (by simp only [nodeVar]; exact congrArg some hv) rfl
      cases this; rfl
  refine ⟨port, fun key a h => ⟨?_, ?_⟩, fun key a h => ⟨?_, ?_⟩, fun as hn ha => (h3 as hn ha).1⟩
  · have hm := (h1 _).2 ⟨key, a, .inl ⟨h, rfl⟩⟩
    exact lookup_of_mem _ _ hm (uniq true _ h1 _ hm)
  · have hm := (h2 _).2 ⟨key, a, .inl ⟨h, rfl⟩⟩
    exact lookup_of_mem _ _ hm (uniq false _ h2 _ hm)
  · have hm := (h1 _).2 ⟨key, a, .inr ⟨h, rfl⟩⟩
    exact lookup_of_mem _ _ hm (uniq true _ h1 _ hm)
  · have hm := (h2 _).2 ⟨key, a, .inr ⟨h, rfl⟩⟩
    exact lookup_of_mem _ _ hm (uniq false _ h2 _ hm)

/-- C50: the files do not depend on the order of the nodes. -/
theorem C50_any_order (nodes nodes' : List Node) (hs : Single nodes) (h : nodes.Perm nodes')
    (p : Nat) : generateEnvFiles nodes p = generateEnvFiles nodes' p := by
  have g := groups nodes
  have g' := groups nodes'
  have hs' : Single nodes' := by
    refine ⟨fun k l a h1 h2 => ?_, fun k l a h1 h2 => ?_⟩
    · exact hs.1 k l a (h.mem_iff.2 h1) (h.mem_iff.2 h2)
    · exact hs.2 k l a (h.mem_iff.2 h1) (h.mem_iff.2 h2)
  have sub : ∀ {n m : List Node} {cs ds : List Config}, Groups n cs → Groups m ds → Single n →
      (∀ x, x ∈ n ↔ x ∈ m) → ∀ c ∈ cs, c ∈ ds := by
    intro n m cs ds g g' hs hm c hc
    have hin : ∃ d ∈ ds, d.name = c.name := by
      rcases g.used c hc with hu | hu
      · cases hb : c.bind with
        | none => exact absurd hb hu
        | some k =>
          obtain ⟨d, hd, h1, -⟩ := g'.hasBind k c.name ((hm _).1 (g.bind c hc k hb))
          exact ⟨d, hd, h1⟩
      · cases hb : c.dial with
        | none => exact absurd hb hu
        | some k =>
          obtain ⟨d, hd, h1, -⟩ := g'.hasDial k c.name ((hm _).1 (g.dial c hc k hb))
          exact ⟨d, hd, h1⟩
    obtain ⟨d, hd, hn⟩ := hin
    have uniq : ∀ {n : List Node} {cs : List Config}, Groups n cs → ∀ a ∈ cs, ∀ b ∈ cs,
        a.name = b.name → a = b := by
      intro n cs g a ha b hb e
      obtain ⟨i, hi⟩ := List.mem_iff_getElem?.1 ((sort_perm cs).mem_iff.2 ha)
      obtain ⟨j, hj⟩ := List.mem_iff_getElem?.1 ((sort_perm cs).mem_iff.2 hb)
      have e1 := rank_of g.names hi
      have e2 := rank_of g.names hj
      rw [e, e2] at e1
      subst e1
      rw [hi] at hj
      exact Option.some.inj hj
    have hb : c.bind = d.bind := by
      cases h1 : c.bind with
      | some k =>
        obtain ⟨d', hd', h2, h3⟩ := g'.hasBind k c.name ((hm _).1 (g.bind c hc k h1))
        have := uniq g' d' hd' d hd (h2.trans hn.symm)
        subst this
        cases h4 : d'.bind with
        | none => exact absurd h4 h3
        | some l =>
          have h5 := (hm _).2 (g'.bind d' hd l h4)
          rw [hn] at h5
          rw [hs.1 k l _ (g.bind c hc k h1) h5]
      | none =>
        cases h4 : d.bind with
        | none => rfl
        | some l =>
          have h5 := (hm _).2 (g'.bind d hd l h4)
          obtain ⟨c', hc', h6, h7⟩ := g.hasBind l d.name h5
          have := uniq g c' hc' c hc (h6.trans hn)
          subst this
          exact absurd h1 h7
    have hd' : c.dial = d.dial := by
      cases h1 : c.dial with
      | some k =>
        obtain ⟨d', hd', h2, h3⟩ := g'.hasDial k c.name ((hm _).1 (g.dial c hc k h1))
        have := uniq g' d' hd' d hd (h2.trans hn.symm)
        subst this
        cases h4 : d'.dial with
        | none => exact absurd h4 h3
        | some l =>
          have h5 := (hm _).2 (g'.dial d' hd l h4)
          rw [hn] at h5
          rw [hs.2 k l _ (g.dial c hc k h1) h5]
      | none =>
        cases h4 : d.dial with
        | none => rfl
        | some l =>
          have h5 := (hm _).2 (g'.dial d hd l h4)
          obtain ⟨c', hc', h6, h7⟩ := g.hasDial l d.name h5
          have := uniq g c' hc' c hc (h6.trans hn)
          subst this
          exact absurd h1 h7
    have : c = d := by
      cases c; cases d
      simp only at hn hb hd'
      rw [hn, hb, hd']
    rw [this]
    exact hd
  have hnd : ∀ {n : List Node} {cs : List Config}, Groups n cs → cs.Nodup := by
    intro n cs g
    exact (List.pairwise_map.1 g.names).imp fun h e => h (congrArg _ e)
  have hperm : (matchDialsToBinds [] nodes).Perm (matchDialsToBinds [] nodes') :=
    (List.perm_ext_iff_of_nodup (hnd g) (hnd g')).2 fun c =>
      ⟨sub g g' hs (fun x => h.mem_iff) c, sub g' g hs' (fun x => h.mem_iff.symm) c⟩
  have hsort : sortByName (matchDialsToBinds [] nodes) = sortByName (matchDialsToBinds [] nodes') := by
    refine sorted_unique _ _ (((sort_perm _).map _).nodup_iff.2 g.names) ?_ (sort_sorted _) (sort_sorted _)
    exact ((sort_perm _).trans hperm).trans (sort_perm _).symm
  simp only [generateEnvFiles, generateEnv, hsort]

/-- `s` is the part of `name` before the first dot, or all of it. -/
def BeforeDot (name s : Str) : Prop := '.' ∉ s ∧ (name = s ∨ ∃ rest, name = s ++ '.' :: rest)

/-- C50: the service's name in .env is the part of the address's name before the first dot. -/
theorem C50_service_name (name s : Str) : serviceName name = s ↔ BeforeDot name s := by
  induction name generalizing s with
  | nil =>
    constructor
    · rintro rfl; exact ⟨by simp [serviceName], .inl rfl⟩
    · rintro ⟨-, h | ⟨r, h⟩⟩
      · exact h
      · cases s <;> simp at h
  | cons c name ih =>
    by_cases hc : c = '.'
    · subst hc
      have e : serviceName ('.' :: name) = [] := by simp [serviceName]
      rw [e]
      constructor
      · rintro rfl; exact ⟨by simp, .inr ⟨name, rfl⟩⟩
      · rintro ⟨h1, h | ⟨r, h⟩⟩
        · rw [← h] at h1; simp at h1
        · cases s with
          | nil => rfl
          | cons d s =>
            simp only [List.cons_append, List.cons.injEq] at h
            rw [← h.1] at h1; simp at h1
    · have e : serviceName (c :: name) = c :: serviceName name := by
        simp [serviceName, List.takeWhile_cons, hc]
      rw [e]
      constructor
      · rintro rfl
        obtain ⟨h1, h2⟩ := (ih _).1 rfl
        refine ⟨by simpa [Ne.symm hc] using h1, ?_⟩
        rcases h2 with h | ⟨r, h⟩
        · exact .inl (congrArg _ h)
        · exact .inr ⟨r, congrArg (c :: ·) h⟩
      · rintro ⟨h1, h2⟩
        cases s with
        | nil =>
          rcases h2 with h | ⟨r, h⟩
          · cases h
          · exact absurd (List.cons.inj h).1 hc
        | cons d s =>
          have h1' : '.' ∉ s := fun h => h1 (List.mem_cons_of_mem _ h)
          rcases h2 with h | ⟨r, h⟩
          · obtain ⟨rfl, h'⟩ := List.cons.inj h
            rw [(ih s).2 ⟨h1', .inl h'⟩]
          · obtain ⟨rfl, h'⟩ := List.cons.inj h
            rw [(ih s).2 ⟨h1', .inr ⟨r, h'⟩⟩]

example : BeforeDot "user.grpc.addr".toList "user".toList := (C50_service_name _ _).1 (by decide +kernel)

/-! ### Concrete cases -/

def exNodes : List Node :=
  [.dial "user.grpc.dial_addr".toList "user.grpc.addr".toList, .other,
   .bind "cart.grpc.bind_addr".toList "cart.grpc.addr".toList,
   .bind "user.grpc.bind_addr".toList "user.grpc.addr".toList]

example : generateEnvFiles exNodes 12345 =
    ([⟨"CART_GRPC_BIND_ADDR".toList, "0.0.0.0".toList, 12345⟩,
      ⟨"USER_GRPC_BIND_ADDR".toList, "0.0.0.0".toList, 12346⟩,
      ⟨"USER_GRPC_DIAL_ADDR".toList, "localhost".toList, 12346⟩],
     [⟨"CART_GRPC_BIND_ADDR".toList, "0.0.0.0".toList, 12345⟩,
      ⟨"USER_GRPC_BIND_ADDR".toList, "0.0.0.0".toList, 12346⟩,
      ⟨"USER_GRPC_DIAL_ADDR".toList, "user".toList, 12346⟩]) := by decide +kernel

theorem exNodes_single : Single exNodes ∧ NoClash exNodes := by
  refine ⟨⟨?_, ?_⟩, ?_⟩
  · have : ∀ m ∈ exNodes, ∀ n ∈ exNodes, ∀ x ∈ ["user.grpc.addr".toList, "cart.grpc.addr".toList],
        (match m, n with | .bind k a, .bind l b => a = x → b = x → k = l | _, _ => True) := by
      simp [exNodes]
    intro k l a h1 h2
    have ha : a ∈ ["user.grpc.addr".toList, "cart.grpc.addr".toList] := by
      simp only [exNodes, List.mem_cons, Node.bind.injEq, List.not_mem_nil, or_false, reduceCtorEq,
        false_or] at h1
      rcases h1 with h | h <;> simp [h.2]
    exact this _ h1 _ h2 a ha rfl rfl
  · intro k l a h1 h2
    simp only [exNodes, List.mem_cons, Node.dial.injEq, List.not_mem_nil, or_false, reduceCtorEq] at h1 h2
    rw [h1.1, h2.1]
  · have : ∀ m ∈ exNodes, ∀ n ∈ exNodes, nodeVar m = nodeVar n → m = n := by decide +kernel
    intro m hm n hn x h1 h2
    exact this m hm n hn (h1.trans h2.symm)

/-- C50 needs different variable names: the addresses of two services whose names differ
only in punctuation share their variables, so that the server of one of them is told to
listen on the other's port. -/
theorem C50_clash_refuted : ∃ nodes, Single nodes ∧ ∃ key key' a a',
    .bind key a ∈ nodes ∧ .bind key' a' ∈ nodes ∧ a ≠ a' ∧ key ≠ key' ∧
    lookup (generateEnvFiles nodes 12345).1 (envVar key) =
      lookup (generateEnvFiles nodes 12345).1 (envVar key') := by
  refine ⟨[.bind "a.b.bind_addr".toList "a.b.addr".toList, .bind "a_b.bind_addr".toList "a_b.addr".toList],
    ⟨?_, ?_⟩, "a.b.bind_addr".toList, "a_b.bind_addr".toList, "a.b.addr".toList, "a_b.addr".toList,
    by decide, by decide, by decide, by decide, by decide +kernel⟩
  · intro k l a h1 h2
    simp only [List.mem_cons, Node.bind.injEq, List.not_mem_nil, or_false] at h1 h2
    rcases h1 with ⟨rfl, rfl⟩ | ⟨rfl, rfl⟩ <;> rcases h2 with ⟨rfl, h2⟩ | ⟨rfl, h2⟩
    · rfl
    · exact absurd h2 (by decide)
    · exact absurd h2 (by decide)
    · rfl
  · intro k l a h1 h2
    simp at h1

/-- C50: the ports wrap around: with a first port near the end of the range a service is
told to listen on port 0, which means any free port. -/
theorem C50_port_zero_refuted : ∃ nodes p key, p < 65536 ∧ p ≠ 0 ∧
    lookup (generateEnvFiles nodes p).1 (envVar key) = some ("0.0.0.0".toList, 0) :=
  ⟨[.bind "a.bind_addr".toList "a.addr".toList, .bind "b.bind_addr".toList "b.addr".toList], 65535,
    "b.bind_addr".toList, by omega, by omega, by decide +kernel⟩

end Verif.Deploy.Env
