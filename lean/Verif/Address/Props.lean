import Verif.Address.Model
/-
C21 and C22: port assignment and address names.
-/
namespace Verif.Address

private theorem length_le_of_subset {l m : List Nat} (hn : l.Nodup) (hs : ∀ x ∈ l, x ∈ m) :
    l.length ≤ m.length := by
  induction l generalizing m with
  | nil => simp
  | cons a l ih =>
    have ha := hs a (by simp)
    have hn' := List.nodup_cons.1 hn
    have := ih (m := m.erase a) hn'.2 (by
      intro x hx
      have hxa : x ≠ a := fun h => hn'.1 (h ▸ hx)
      exact (List.mem_erase_of_ne hxa).2 (hs x (by simp [hx])))
    have h1 := List.length_erase_of_mem ha
    have h2 := List.length_pos_of_mem ha
    simp; omega

private theorem search_spec (used : List Nat) : ∀ fuel c, c < portSpace →
    (∀ p, search used fuel c = some p →
      p ∉ used ∧ p < portSpace ∧ ∃ k, k < fuel ∧ p = (c + k) % portSpace ∧ ∀ j, j < k → (c + j) % portSpace ∈ used) ∧
    (search used fuel c = none → ∀ j, j < fuel → (c + j) % portSpace ∈ used) := by
  intro fuel
  induction fuel with
  | zero => intro c _; simp [search]
  | succ fuel ih =>
    intro c hc
    simp only [search]
    by_cases hm : c ∈ used
    · rw [if_pos hm]
      have := ih ((c + 1) % portSpace) (Nat.mod_lt _ (by decide))
      have hshift : ∀ j, ((c + 1) % portSpace + j) % portSpace = (c + (j + 1)) % portSpace := by
        intro j; simp only [portSpace] at *; omega
      refine ⟨?_, ?_⟩
      · intro p hp
        obtain ⟨h1, h2, k, h3, h4, h5⟩ := this.1 p hp
        refine ⟨h1, h2, k + 1, by omega, by rw [h4, hshift], ?_⟩
        intro j hj
        cases j with
        | zero => simpa [Nat.mod_eq_of_lt hc] using hm
        | succ j => rw [← hshift]; exact h5 j (by omega)
      · intro hp j hj
        cases j with
        | zero => simpa [Nat.mod_eq_of_lt hc] using hm
        | succ j => rw [← hshift]; exact this.2 hp j (by omega)
    · rw [if_neg hm]
      refine ⟨?_, by simp⟩
      intro p hp
      cases hp
      exact ⟨hm, hc, 0, by omega, by simp [Nat.mod_eq_of_lt hc], by omega⟩

/-- The candidates tried are different ports, so as many ports are in use. -/
private theorem tried_le (used : List Nat) (c n : Nat) (hn : n ≤ portSpace)
    (h : ∀ j, j < n → (c + j) % portSpace ∈ used) : n ≤ used.length := by
  have := length_le_of_subset (l := (List.range n).map fun j => (c + j) % portSpace) (m := used) ?_ ?_
  · simpa using this
  · refine List.pairwise_map.2 (List.Pairwise.imp_of_mem ?_ List.nodup_range)
    intro i j hi hj hij heq
    simp only [List.mem_range] at hi hj
    simp only [portSpace] at *
    omega
  · intro x hx
    obtain ⟨j, hj, rfl⟩ := List.mem_map.1 hx
    exact h j (by simpa using hj)

private theorem collect_spec (bs : List Bind) : ∀ used, used.Nodup → (∀ p ∈ used, p ≠ 0) →
    (∀ u, collect used bs = some u → u.Nodup ∧ (∀ p ∈ u, p ≠ 0) ∧
      (∀ p, p ∈ u ↔ p ∈ used ∨ (p ≠ 0 ∧ p ∈ bs.map (·.port))) ∧
      u.length = used.length + (bs.filter (fun b => decide (b.port ≠ 0))).length ∧
      ((used ++ (bs.map (·.port)).filter (· ≠ 0)).Nodup)) ∧
    (collect used bs = none → ¬ (used ++ (bs.map (·.port)).filter (· ≠ 0)).Nodup) := by
  induction bs with
  | nil =>
    intro used hn hz
    simp only [collect]
    refine ⟨?_, by simp⟩
    intro u hu; cases hu
    exact ⟨hn, hz, by simp, by simp, by simpa using hn⟩
  | cons b bs ih =>
    intro used hn hz
    simp only [collect]
    by_cases hb : b.port ≠ 0
    · rw [if_pos hb]
      by_cases hm : b.port ∈ used
      · rw [if_pos hm]
        refine ⟨by simp, ?_⟩
        intro _ hnd
        simp only [List.map_cons, List.filter_cons] at hnd
        simp only [hb, decide_true, if_true, ne_eq, not_false_eq_true] at hnd
        exact (List.nodup_append.1 hnd).2.2 _ hm _ (by simp) rfl
      · rw [if_neg hm]
        have := ih (b.port :: used) (List.nodup_cons.2 ⟨hm, hn⟩) (by
          intro p hp; rcases List.mem_cons.1 hp with rfl | hp
          · exact hb
          · exact hz p hp)
        have hperm : (b.port :: used ++ (bs.map (·.port)).filter (· ≠ 0)).Perm
            (used ++ ((b :: bs).map (·.port)).filter (· ≠ 0)) := by
          simp only [List.map_cons, List.filter_cons]
          simp only [hb, decide_true, if_true, ne_eq, not_false_eq_true]
          exact (List.perm_middle).symm
        refine ⟨?_, fun h hh => this.2 h (hperm.nodup_iff.2 hh)⟩
        intro u hu
        obtain ⟨a1, a2, a3, a4, a5⟩ := this.1 u hu
        refine ⟨a1, a2, ?_, ?_, hperm.nodup_iff.1 a5⟩
        · intro p
          rw [a3 p]
          simp only [List.mem_cons, List.map_cons]
          constructor
          · rintro ((rfl | h) | h)
            · exact .inr ⟨hb, .inl rfl⟩
            · exact .inl h
            · exact .inr ⟨h.1, .inr h.2⟩
          · rintro (h | ⟨h1, rfl | h2⟩)
            · exact .inl (.inr h)
            · exact .inl (.inl rfl)
            · exact .inr ⟨h1, h2⟩
        · rw [a4, List.filter_cons_of_pos (by simpa using hb)]
          simp; omega
    · rw [if_neg hb]
      have hb0 : b.port = 0 := by simpa using hb
      have := ih used hn hz
      simp only [List.map_cons, List.filter_cons, hb0]
      simp only [ne_eq, not_true_eq_false, decide_false]
      refine ⟨?_, fun h => by simpa using this.2 h⟩
      intro u hu
      obtain ⟨a1, a2, a3, a4, a5⟩ := this.1 u hu
      refine ⟨a1, a2, ?_, by simpa using a4, by simpa using a5⟩
      intro p
      rw [a3 p]
      simp only [List.mem_cons]
      constructor
      · rintro (h | h)
        · exact .inl h
        · exact .inr ⟨h.1, .inr h.2⟩
      · rintro (h | ⟨h1, h2 | h2⟩)
        · exact .inl h
        · exact absurd h2 h1
        · exact .inr ⟨h1, h2⟩

/-- One port per node: the nodes assigned so far. -/
private structure Good (used : List Nat) (bs out : List Bind) : Prop where
  len : out.length = bs.length
  fresh : ∀ (i : Nat) (b o : Bind), bs[i]? = some b → out[i]? = some o → o.name = b.name ∧ o.preferred = b.preferred ∧
    (b.port ≠ 0 → o = b) ∧ (b.port = 0 → o.port ∉ used ∧ o.port < portSpace)
  distinct : ∀ (i j : Nat) (bi bj oi oj : Bind), bs[i]? = some bi → bs[j]? = some bj → out[i]? = some oi → out[j]? = some oj →
    bi.port = 0 → bj.port = 0 → i ≠ j → oi.port ≠ oj.port
  low : (∀ b ∈ bs, b.port = 0 → startPort b + used.length + (bs.filter (fun b => decide (b.port = 0))).length ≤ portSpace) →
    ∀ (i : Nat) (b o : Bind), bs[i]? = some b → out[i]? = some o → b.port = 0 → startPort b ≤ o.port

private theorem assign_good (bs : List Bind) : ∀ used out, (∀ b ∈ bs, b.preferred < portSpace) →
    assign used bs = some out → Good used bs out := by
  induction bs with
  | nil => intro used out _ h; simp [assign] at h; subst h; exact ⟨rfl, by simp, by simp, by simp⟩
  | cons b bs ih =>
    intro used out hpref h
    simp only [assign] at h
    by_cases hb : b.port ≠ 0
    · rw [if_pos hb] at h
      obtain ⟨rest, hr, rfl⟩ := Option.map_eq_some_iff.1 h
      obtain ⟨g1, g2, g3, g4⟩ := ih used rest (fun x hx => hpref x (by simp [hx])) hr
      refine ⟨by simp [g1], ?_, ?_, ?_⟩
      · intro i x o h1 h2
        cases i with
        | zero => simp at h1 h2; subst h1 h2; exact ⟨rfl, rfl, fun _ => rfl, fun h => absurd h hb⟩
        | succ i => exact g2 i x o (by simpa using h1) (by simpa using h2)
      · intro i j bi bj oi oj h1 h2 h3 h4 h5 h6 h7
        cases i with
        | zero => simp at h1; subst h1; exact absurd h5 hb
        | succ i =>
          cases j with
          | zero => simp at h2; subst h2; exact absurd h6 hb
          | succ j =>
            exact g3 i j bi bj oi oj (by simpa using h1) (by simpa using h2) (by simpa using h3)
              (by simpa using h4) h5 h6 (by omega)
      · intro hall i x o h1 h2 h3
        cases i with
        | zero => simp at h1; subst h1; exact absurd h3 hb
        | succ i =>
          refine g4 ?_ i x o (by simpa using h1) (by simpa using h2) h3
          intro y hy hy0
          have := hall y (by simp [hy]) hy0
          rw [List.filter_cons_of_neg (by simpa using hb)] at this
          exact this
    · rw [if_neg hb] at h
      have hb0 : b.port = 0 := by simpa using hb
      have hstart : startPort b < portSpace := by
        have := hpref b (by simp)
        unfold startPort portSpace at *
        split <;> omega
      cases hs : search used portSpace (startPort b) with
      | none => simp [hs] at h
      | some p =>
        simp only [hs] at h
        obtain ⟨rest, hr, rfl⟩ := Option.map_eq_some_iff.1 h
        obtain ⟨s1, s2, k, s3, s4, s5⟩ := (search_spec used portSpace (startPort b) hstart).1 p hs
        obtain ⟨g1, g2, g3, g4⟩ := ih (p :: used) rest (fun x hx => hpref x (by simp [hx])) hr
        refine ⟨by simp [g1], ?_, ?_, ?_⟩
        · intro i x o h1 h2
          cases i with
          | zero => simp at h1 h2; subst h1 h2; exact ⟨rfl, rfl, fun h => absurd hb0 h, fun _ => ⟨s1, s2⟩⟩
          | succ i =>
            obtain ⟨e1, e2, e3, e4⟩ := g2 i x o (by simpa using h1) (by simpa using h2)
            exact ⟨e1, e2, e3, fun hx => ⟨fun hm => (e4 hx).1 (by simp [hm]), (e4 hx).2⟩⟩
        · intro i j bi bj oi oj h1 h2 h3 h4 h5 h6 h7
          cases i with
          | zero =>
            cases j with
            | zero => omega
            | succ j =>
              simp at h3; subst h3
              have := (g2 j bj oj (by simpa using h2) (by simpa using h4)).2.2.2 h6
              intro he; exact this.1 (by simp at he; simp [he])
          | succ i =>
            cases j with
            | zero =>
              simp at h4; subst h4
              have := (g2 i bi oi (by simpa using h1) (by simpa using h3)).2.2.2 h5
              intro he; exact this.1 (by simp at he; simp [he])
            | succ j =>
              exact g3 i j bi bj oi oj (by simpa using h1) (by simpa using h2) (by simpa using h3)
                (by simpa using h4) h5 h6 (by omega)
        · intro hall i x o h1 h2 h3
          have hcons := hall b (by simp) hb0
          rw [List.filter_cons_of_pos (by simpa using hb0)] at hcons
          cases i with
          | zero =>
            simp at h1 h2; subst h1 h2
            have hk := tried_le used (startPort b) k (by omega) s5
            simp only [List.length_cons] at hcons
            show startPort b ≤ p
            rw [s4, Nat.mod_eq_of_lt (by omega)]
            omega
          | succ i =>
            refine g4 ?_ i x o (by simpa using h1) (by simpa using h2) h3
            intro y hy hy0
            have := hall y (by simp [hy]) hy0
            rw [List.filter_cons_of_pos (by simpa using hb0)] at this
            simp at this ⊢; omega

/-- Distinct ports. -/
def DistinctPorts (binds : List Bind) : Prop := (binds.map (·.port)).Nodup

/-- C21, success: when port assignment succeeds, the same nodes come back in order with pairwise different
ports; a port fixed beforehand is unchanged; exactly the nodes without a port are reported as assigned and
the others as preassigned; all ports are 16-bit numbers. -/
theorem C21_distinct_ports (binds out : List Bind) (pre asg : List Nat)
    (h16 : ∀ b ∈ binds, b.port < 65536 ∧ b.preferred < 65536)
    (h : assignPorts binds = .ok out pre asg) :
    DistinctPorts out ∧
    out.map (·.name) = binds.map (·.name) ∧
    (∀ (i : Nat) (b o : Bind), binds[i]? = some b → out[i]? = some o → b.port ≠ 0 → o.port = b.port) ∧
    (∀ i : Nat, i ∈ pre ↔ ∃ b, binds[i]? = some b ∧ b.port ≠ 0) ∧
    (∀ i : Nat, i ∈ asg ↔ ∃ b, binds[i]? = some b ∧ b.port = 0) ∧
    (∀ o ∈ out, o.port < 65536) := by
  simp only [assignPorts] at h
  cases hc : collect [] binds with
  | none => simp [hc] at h
  | some used =>
    simp only [hc] at h
    cases ha : assign used binds with
    | none => simp [ha] at h
    | some bs =>
      simp only [ha] at h
      cases h
      obtain ⟨c1, c2, c3, c4, c5⟩ := (collect_spec binds [] List.nodup_nil (by simp)).1 used hc
      obtain ⟨g1, g2, g3, g4⟩ := assign_good binds used bs (fun b hb => (h16 b hb).2) ha
      have hlen : (bs.map fun b => ({ b with preferred := b.port } : Bind)).length = binds.length := by simp [g1]
      have hport : ∀ (i : Nat) (o : Bind), (bs.map fun b => ({ b with preferred := b.port } : Bind))[i]? = some o →
          ∃ o', bs[i]? = some o' ∧ o'.port = o.port ∧ o'.name = o.name := by
        intro i o ho
        simp only [List.getElem?_map, Option.map_eq_some_iff] at ho
        obtain ⟨o', h1, rfl⟩ := ho
        exact ⟨o', h1, rfl, rfl⟩
      have hget : ∀ i : Nat, i < binds.length → ∃ b o, binds[i]? = some b ∧ bs[i]? = some o := by
        intro i hi
        exact ⟨binds[i], bs[i]'(by omega), by simp [hi], by simp [g1, hi]⟩
      refine ⟨?_, ?_, ?_, ?_, ?_, ?_⟩
      · show List.Nodup _
        rw [List.nodup_iff_pairwise_ne, List.pairwise_iff_getElem]
        intro i j hi hj hij
        simp at hi hj
        obtain ⟨bi, oi, hbi, hoi⟩ := hget i (by omega)
        obtain ⟨bj, oj, hbj, hoj⟩ := hget j (by omega)
        have ei : bs[i]'hi = oi := by rw [List.getElem?_eq_some_iff] at hoi; exact hoi.2
        have ej : bs[j]'hj = oj := by rw [List.getElem?_eq_some_iff] at hoj; exact hoj.2
        simp only [List.getElem_map, List.map_map]
        show ((bs[i]'hi).port) ≠ ((bs[j]'hj).port)
        rw [ei, ej]
        by_cases pi : bi.port = 0 <;> by_cases pj : bj.port = 0
        · exact g3 i j bi bj oi oj hbi hbj hoi hoj pi pj (by omega)
        · have e1 := (g2 i bi oi hbi hoi).2.2.2 pi
          have e2 := (g2 j bj oj hbj hoj).2.2.1 pj
          intro he
          apply e1.1
          rw [he, e2, c3]
          right
          exact ⟨pj, List.mem_map.2 ⟨bj, List.mem_of_getElem? hbj, rfl⟩⟩
        · have e1 := (g2 j bj oj hbj hoj).2.2.2 pj
          have e2 := (g2 i bi oi hbi hoi).2.2.1 pi
          intro he
          apply e1.1
          rw [← he, e2, c3]
          right
          exact ⟨pi, List.mem_map.2 ⟨bi, List.mem_of_getElem? hbi, rfl⟩⟩
        · have e1 := (g2 i bi oi hbi hoi).2.2.1 pi
          have e2 := (g2 j bj oj hbj hoj).2.2.1 pj
          rw [e1, e2]
          intro he
          simp only [List.nil_append] at c5
          have hpw := List.pairwise_filter.1 (List.nodup_iff_pairwise_ne.1 c5)
          rw [List.pairwise_map, List.pairwise_iff_getElem] at hpw
          have := hpw i j (by omega) (by omega) hij
          have ebi : binds[i]'(by omega) = bi := (List.getElem?_eq_some_iff.1 hbi).2
          have ebj : binds[j]'(by omega) = bj := (List.getElem?_eq_some_iff.1 hbj).2
          rw [ebi, ebj] at this
          exact this (by simpa using pi) (by simpa using pj) he
      · apply List.ext_getElem?
        intro i
        by_cases hi : i < binds.length
        · obtain ⟨b, o, hb, ho⟩ := hget i hi
          have := (g2 i b o hb ho).1
          simp [hb, ho, this]
        · simp [hi, g1]
      · intro i b o hb ho hp
        obtain ⟨o', h1, h2, _⟩ := hport i o ho
        have := (g2 i b o' hb h1).2.2.1 hp
        rw [← h2, this]
      · intro i
        simp only [List.mem_map, List.mem_filter, Prod.exists, List.mem_zipIdx_iff_getElem?]
        constructor
        · rintro ⟨b, j, ⟨h1, h2⟩, rfl⟩; exact ⟨b, h1, by simpa using h2⟩
        · rintro ⟨b, h1, h2⟩; exact ⟨b, i, ⟨h1, by simpa using h2⟩, rfl⟩
      · intro i
        simp only [List.mem_map, List.mem_filter, Prod.exists, List.mem_zipIdx_iff_getElem?]
        constructor
        · rintro ⟨b, j, ⟨h1, h2⟩, rfl⟩; exact ⟨b, h1, by simpa using h2⟩
        · rintro ⟨b, h1, h2⟩; exact ⟨b, i, ⟨h1, by simpa using h2⟩, rfl⟩
      · intro o ho
        obtain ⟨i, hi⟩ := List.mem_iff_getElem?.1 ho
        obtain ⟨o', h1, h2, _⟩ := hport i o hi
        have hlt : i < binds.length := by
          have := (List.getElem?_eq_some_iff.1 h1).1; omega
        obtain ⟨b, o2, hb, ho2⟩ := hget i hlt
        rw [h1] at ho2; cases ho2
        rw [← h2]
        by_cases pb : b.port = 0
        · exact ((g2 i b o' hb h1).2.2.2 pb).2
        · rw [(g2 i b o' hb h1).2.2.1 pb]; exact (h16 b (List.mem_of_getElem? hb)).1

/-- C21, conflict: it fails exactly when two nodes have the same fixed port, and then it changes nothing. -/
theorem C21_fails_iff_conflict (binds : List Bind) :
    ((∃ after, assignPorts binds = .conflict after) ↔ ¬ ((binds.map (·.port)).filter (· ≠ 0)).Nodup) ∧
    (∀ after, assignPorts binds = .conflict after → after = binds) := by
  have := collect_spec binds [] List.nodup_nil (by simp)
  cases hc : collect [] binds with
  | none =>
    have h2 := this.2 hc
    simp only [assignPorts, hc]
    exact ⟨⟨fun _ => by simpa using h2, fun _ => ⟨_, rfl⟩⟩, fun after h => by cases h; rfl⟩
  | some used =>
    have h5 := (this.1 used hc).2.2.2.2
    simp only [assignPorts, hc]
    refine ⟨⟨?_, ?_⟩, ?_⟩
    · rintro ⟨after, h⟩; split at h <;> cases h
    · intro h; exact absurd (by simpa using h5) h
    · intro after h; split at h <;> cases h

private theorem assign_total (bs : List Bind) : ∀ used : List Nat, (∀ b ∈ bs, b.preferred < portSpace) →
    used.length + (bs.filter (fun b => decide (b.port = 0))).length ≤ portSpace → assign used bs ≠ none := by
  induction bs with
  | nil => intro used _ _; simp [assign]
  | cons b bs ih =>
    intro used hp hl
    simp only [assign]
    have hp' : ∀ x ∈ bs, x.preferred < portSpace := fun x hx => hp x (by simp [hx])
    by_cases hb : b.port ≠ 0
    · rw [List.filter_cons_of_neg (by simpa using hb)] at hl
      rw [if_pos hb]; simpa using ih used hp' hl
    · rw [List.filter_cons_of_pos (by simpa using hb)] at hl
      simp only [List.length_cons] at hl
      rw [if_neg hb]
      have hstart : startPort b < portSpace := by
        have := hp b (by simp)
        unfold startPort portSpace at *
        split <;> omega
      cases hs : search used portSpace (startPort b) with
      | none =>
        have := tried_le used (startPort b) portSpace (by omega)
          ((search_spec used portSpace (startPort b) hstart).2 hs)
        omega
      | some p => simpa using ih (p :: used) hp' (by simp; omega)

private theorem split_count (l : List Bind) : (l.filter (fun b => decide (b.port ≠ 0))).length +
    (l.filter (fun b => decide (b.port = 0))).length = l.length := by
  induction l with
  | nil => rfl
  | cons x l ih => by_cases hx : x.port = 0 <;> simp [hx] at ih ⊢ <;> omega

/-- C21, termination: with at most 65536 nodes, port assignment returns. -/
theorem C21_terminates (binds : List Bind) (h16 : ∀ b ∈ binds, b.port < 65536 ∧ b.preferred < 65536)
    (hlen : binds.length ≤ 65536) : assignPorts binds ≠ .diverges := by
  simp only [assignPorts]
  cases hc : collect [] binds with
  | none => simp
  | some used =>
    have h4 := ((collect_spec binds [] List.nodup_nil (by simp)).1 used hc).2.2.2.1
    have h5 := split_count binds
    have := assign_total binds used (fun b hb => (h16 b hb).2) (by
      simp only [List.length_nil] at h4; unfold portSpace; omega)
    cases ha : assign used binds with
    | none => exact absurd ha this
    | some bs => simp only [ha]; simp

/-- C21, no port 0: if every preferred port leaves room above it for all nodes, no node gets port 0.
Missing from the full property: preferred ports at the top of the range, where the search wraps around to
port 0 (`C21_port_zero_refuted`). -/
theorem C21_no_zero_port_partial (binds out : List Bind) (pre asg : List Nat)
    (hroom : ∀ b ∈ binds, b.preferred + binds.length ≤ 65536) (hlen : 2000 + binds.length ≤ 65536)
    (h : assignPorts binds = .ok out pre asg) :
    ∀ o ∈ out, o.port ≠ 0 := by
  simp only [assignPorts] at h
  cases hc : collect [] binds with
  | none => simp [hc] at h
  | some used =>
    simp only [hc] at h
    cases ha : assign used binds with
    | none => simp [ha] at h
    | some bs =>
      simp only [ha] at h
      cases h
      obtain ⟨c1, c2, c3, c4, c5⟩ := (collect_spec binds [] List.nodup_nil (by simp)).1 used hc
      intro o ho
      obtain ⟨o', ho', rfl⟩ := List.mem_map.1 ho
      obtain ⟨i, hi⟩ := List.mem_iff_getElem?.1 ho'
      have hpos : 0 < binds.length := by
        cases binds with
        | nil => simp [assign] at ha; subst ha; simp at hi
        | cons => simp
      obtain ⟨g1, g2, g3, g4⟩ := assign_good binds used bs (fun b hb => by
        have := hroom b hb; simp only [portSpace]; omega) ha
      have hlt : i < binds.length := by
        have := (List.getElem?_eq_some_iff.1 hi).1; omega
      have hb : binds[i]? = some binds[i] := by simp [hlt]
      show o'.port ≠ 0
      by_cases pb : (binds[i]).port = 0
      · have hsum : used.length + (binds.filter (fun b => decide (b.port = 0))).length ≤ binds.length := by
          have := split_count binds
          simp only [List.length_nil] at c4; omega
        have := g4 (by
          intro b hb _
          have := hroom b hb
          unfold startPort portSpace
          split <;> omega) i _ o' hb hi pb
        have hst : 0 < startPort binds[i] := by unfold startPort; split <;> omega
        omega
      · rw [(g2 i _ o' hb hi).2.2.1 pb]; exact pb

/-- C21 refuted at the top of the port range: with one node fixed at 65535 and another preferring 65535,
the second one is "assigned" port 0. -/
theorem C21_port_zero_refuted :
    ∃ binds out pre asg, (∀ b ∈ binds, b.port < 65536 ∧ b.preferred < 65536) ∧
      assignPorts binds = .ok out pre asg ∧ 1 ∈ asg ∧ (∃ o, out[1]? = some o ∧ o.port = 0) := by
  refine ⟨[⟨"a", 65535, 0⟩, ⟨"b", 0, 65535⟩], [⟨"a", 65535, 65535⟩, ⟨"b", 0, 0⟩], [0], [1], by decide, ?_, by decide, by decide⟩
  have hs : search [65535] portSpace (startPort ⟨"b", 0, 65535⟩) = some 0 := by
    simp [portSpace, startPort, search]
  simp [assignPorts, collect, assign, hs]

private theorem assign_first (bs : List Bind) : ∀ used out, (∀ b ∈ bs, b.preferred < portSpace) →
    assign used bs = some out → ∀ (i : Nat) (b o : Bind), bs[i]? = some b → out[i]? = some o → b.port = 0 →
    ∃ k, k < portSpace ∧ o.port = (startPort b + k) % portSpace ∧ ∀ j, j < k →
      (startPort b + j) % portSpace ∈ used ∨
      ∃ (m : Nat) (o' : Bind), m < i ∧ out[m]? = some o' ∧ o'.port = (startPort b + j) % portSpace := by
  induction bs with
  | nil => intro used out _ h i b o hb; simp at hb
  | cons b bs ih =>
    intro used out hpref h i x o h1 h2 h3
    have hpref' : ∀ y ∈ bs, y.preferred < portSpace := fun y hy => hpref y (by simp [hy])
    simp only [assign] at h
    by_cases hb : b.port ≠ 0
    · rw [if_pos hb] at h
      obtain ⟨rest, hr, rfl⟩ := Option.map_eq_some_iff.1 h
      cases i with
      | zero => simp at h1; subst h1; exact absurd h3 hb
      | succ i =>
        obtain ⟨k, k1, k2, k3⟩ := ih used rest hpref' hr i x o (by simpa using h1) (by simpa using h2) h3
        refine ⟨k, k1, k2, fun j hj => ?_⟩
        rcases k3 j hj with h | ⟨m, o', m1, m2, m3⟩
        · exact .inl h
        · exact .inr ⟨m + 1, o', by omega, by simpa using m2, m3⟩
    · rw [if_neg hb] at h
      cases hs : search used portSpace (startPort b) with
      | none => simp [hs] at h
      | some p =>
        simp only [hs] at h
        obtain ⟨rest, hr, rfl⟩ := Option.map_eq_some_iff.1 h
        cases i with
        | zero =>
          simp at h1 h2; subst h1 h2
          have hstart : startPort b < portSpace := by
            have := hpref b (by simp)
            unfold startPort portSpace at *
            split <;> omega
          obtain ⟨_, _, k, s3, s4, s5⟩ := (search_spec used portSpace (startPort b) hstart).1 p hs
          exact ⟨k, s3, s4, fun j hj => .inl (s5 j hj)⟩
        | succ i =>
          obtain ⟨k, k1, k2, k3⟩ := ih (p :: used) rest hpref' hr i x o (by simpa using h1) (by simpa using h2) h3
          refine ⟨k, k1, k2, fun j hj => ?_⟩
          rcases k3 j hj with h | ⟨m, o', m1, m2, m3⟩
          · rcases List.mem_cons.1 h with h | h
            · exact .inr ⟨0, _, by omega, rfl, h.symm⟩
            · exact .inl h
          · exact .inr ⟨m + 1, o', by omega, by simpa using m2, m3⟩

/-- C21, which port: a node without a port gets the first port, counting up from its preferred port (from
2000 if it has none) and on from 65535 to 0, that is neither fixed for some node nor given to an earlier
node of the list.  Afterwards every node prefers the port it has. -/
theorem C21_first_free (binds out : List Bind) (pre asg : List Nat)
    (h16 : ∀ b ∈ binds, b.port < 65536 ∧ b.preferred < 65536) (h : assignPorts binds = .ok out pre asg)
    (i : Nat) (b o : Bind) (hb : binds[i]? = some b) (ho : out[i]? = some o) :
    o.preferred = o.port ∧
    (b.port = 0 → ∃ first k, (first = if b.preferred = 0 then 2000 else b.preferred) ∧ k < 65536 ∧
      o.port = (first + k) % 65536 ∧
      ∀ j, j < k → ∃ (m : Nat) (b' o' : Bind), m ≠ i ∧ binds[m]? = some b' ∧ out[m]? = some o' ∧
        (b'.port ≠ 0 ∨ m < i) ∧ o'.port = (first + j) % 65536) := by
  have hd := C21_distinct_ports binds out pre asg h16 h
  have hlen : out.length = binds.length := by simpa using congrArg List.length hd.2.1
  have hfix := hd.2.2.1
  simp only [assignPorts] at h
  cases hc : collect [] binds with
  | none => simp [hc] at h
  | some used =>
    simp only [hc] at h
    cases ha : assign used binds with
    | none => simp [ha] at h
    | some bs =>
      simp only [ha] at h
      cases h
      obtain ⟨c1, c2, c3, c4, c5⟩ := (collect_spec binds [] List.nodup_nil (by simp)).1 used hc
      simp only [List.getElem?_map, Option.map_eq_some_iff] at ho
      obtain ⟨o₀, ho₀, rfl⟩ := ho
      refine ⟨rfl, fun hz => ?_⟩
      obtain ⟨k, k1, k2, k3⟩ := assign_first binds used bs (fun b hb => (h16 b hb).2) ha i b o₀ hb ho₀ hz
      refine ⟨startPort b, k, rfl, k1, k2, fun j hj => ?_⟩
      rcases k3 j hj with hm | ⟨m, o', m1, m2, m3⟩
      · rw [c3] at hm
        rcases hm with hm | ⟨hnz, hm⟩
        · simp at hm
        · obtain ⟨b', hb', hp⟩ := List.mem_map.1 hm
          obtain ⟨m, hm⟩ := List.mem_iff_getElem?.1 hb'
          have hml : m < binds.length := (List.getElem?_eq_some_iff.1 hm).1
          have hml' : m < (bs.map fun b => ({ b with preferred := b.port } : Bind)).length := by rw [hlen]; exact hml
          have hg := List.getElem?_eq_getElem hml'
          have hnz' : b'.port ≠ 0 := by rw [hp]; exact hnz
          refine ⟨m, b', _, ?_, hm, hg, .inl hnz', ?_⟩
          · rintro rfl; rw [hb] at hm; cases hm; exact hnz' hz
          · rw [hfix m b' _ hm hg hnz', hp]; rfl
      · have hml : m < binds.length := by
          have := (List.getElem?_eq_some_iff.1 hb).1; omega
        exact ⟨m, binds[m], { o' with preferred := o'.port }, by omega, by simp [hml], by simp only [List.getElem?_map, m2, Option.map_some], .inr m1, m3⟩

private theorem assign_preferred (bs : List Bind) : ∀ used, (∀ b ∈ bs, b.port = 0 ∧ b.preferred ≠ 0 ∧ b.preferred ∉ used) →
    (bs.map (·.preferred)).Nodup → assign used bs = some (bs.map fun b => { b with port := b.preferred }) := by
  induction bs with
  | nil => intro used _ _; rfl
  | cons b bs ih =>
    intro used hall hn
    obtain ⟨hb1, hb2, hb3⟩ := hall b (by simp)
    simp only [List.map_cons, List.nodup_cons] at hn
    have hs : search used portSpace (startPort b) = some b.preferred := by
      have e : startPort b = b.preferred := by simp [startPort, hb2]
      have ep : portSpace = 65535 + 1 := rfl
      rw [e, ep, search, if_neg hb3]
    rw [assign, if_neg (by simp [hb1]), hs]
    simp only
    rw [ih (b.preferred :: used) ?_ hn.2]
    · rfl
    · intro x hx
      obtain ⟨h1, h2, h3⟩ := hall x (by simp [hx])
      refine ⟨h1, h2, ?_⟩
      simp only [List.mem_cons, not_or]
      exact ⟨fun he => hn.1 (he ▸ List.mem_map.2 ⟨x, hx, rfl⟩), h3⟩

/-- C21, ports are kept: after a successful assignment that gave no node port 0, clear the ports of any of
the nodes and assign them again, in any order and together with no others: every node gets the port it had. -/
theorem C21_kept (binds out : List Bind) (pre asg : List Nat)
    (h16 : ∀ b ∈ binds, b.port < 65536 ∧ b.preferred < 65536) (h : assignPorts binds = .ok out pre asg)
    (hz : ∀ o ∈ out, o.port ≠ 0) (some_of_them : List Bind) (hn : some_of_them.Nodup)
    (hsub : ∀ o ∈ some_of_them, o ∈ out) :
    assignPorts (some_of_them.map fun o => { o with port := 0 }) = .ok some_of_them [] (List.range some_of_them.length) := by
  have hd := (C21_distinct_ports binds out pre asg h16 h).1
  have hlen : out.length = binds.length := by
    simpa using congrArg List.length (C21_distinct_ports binds out pre asg h16 h).2.1
  have hpref : ∀ o ∈ out, o.preferred = o.port := by
    intro o ho
    obtain ⟨i, hi⟩ := List.mem_iff_getElem?.1 ho
    have hil : i < binds.length := by have := (List.getElem?_eq_some_iff.1 hi).1; omega
    exact (C21_first_free binds out pre asg h16 h i binds[i] o (by simp [hil]) hi).1
  have hinj : ∀ a ∈ out, ∀ b ∈ out, a.port = b.port → a = b := by
    intro a ha b hb hab
    obtain ⟨i, hi⟩ := List.mem_iff_getElem?.1 ha
    obtain ⟨j, hj⟩ := List.mem_iff_getElem?.1 hb
    have hi' : (out.map (·.port))[i]? = some a.port := by simp [hi]
    have hj' : (out.map (·.port))[j]? = some a.port := by simp [hj, hab]
    have hil : i < (out.map (·.port)).length := (List.getElem?_eq_some_iff.1 hi').1
    have : i = j := (List.getElem?_inj hil hd).1 (hi'.trans hj'.symm)
    subst this; rw [hi] at hj; exact Option.some.inj hj
  generalize hl : some_of_them = l at *
  have hcol : ∀ bs : List Bind, (∀ b ∈ bs, b.port = 0) → ∀ used, collect used bs = some used := by
    intro bs
    induction bs with
    | nil => intro _ _; rfl
    | cons b bs ih => intro hb used; rw [collect, if_neg (by simp [hb b (by simp)])]; exact ih (fun x hx => hb x (by simp [hx])) used
  have hc := hcol (l.map fun o => ({ o with port := 0 } : Bind)) (by
    intro b hb; obtain ⟨o, _, rfl⟩ := List.mem_map.1 hb; rfl) []
  have ha := assign_preferred (l.map fun o => ({ o with port := 0 } : Bind)) [] (by
    intro b hb; obtain ⟨o, ho, rfl⟩ := List.mem_map.1 hb
    exact ⟨rfl, by have := hpref o (hsub o ho); have := hz o (hsub o ho); simp_all, by simp⟩) (by
    rw [List.map_map, List.nodup_iff_pairwise_ne, List.pairwise_map]
    refine List.Pairwise.imp_of_mem ?_ (List.nodup_iff_pairwise_ne.1 hn)
    intro a b ha hb hne heq
    refine hne (hinj a (hsub a ha) b (hsub b hb) ?_)
    rw [← hpref a (hsub a ha), ← hpref b (hsub b hb)]; exact heq)
  have hback : (l.map fun o => ({ o with port := 0 } : Bind)).map (fun b => ({ b with port := b.preferred } : Bind)) = l := by
    rw [List.map_map]
    conv => rhs; rw [← List.map_id l]
    refine List.map_congr_left fun o ho => ?_
    have := hpref o (hsub o ho)
    cases o; simp_all
  have hback2 : l.map (fun b => ({ b with preferred := b.port } : Bind)) = l := by
    conv => rhs; rw [← List.map_id l]
    refine List.map_congr_left fun o ho => ?_
    have := hpref o (hsub o ho)
    cases o; simp_all
  have hz0 : ∀ (x : Bind × Nat), x ∈ (l.map fun o => ({ o with port := 0 } : Bind)).zipIdx → x.1.port = 0 := by
    rintro ⟨b, i⟩ hx
    have := List.mem_zipIdx_iff_getElem?.1 hx
    obtain ⟨o, _, rfl⟩ := List.mem_map.1 (List.mem_of_getElem? this)
    rfl
  rw [assignPorts, hc]
  simp only
  rw [ha, hback]
  simp only
  rw [hback2]
  congr 1
  · rw [List.filter_eq_nil_iff.2 (by intro x hx; simp [hz0 x hx])]; rfl
  · rw [List.filter_eq_self.2 (by intro x hx; simp [hz0 x hx])]
    rw [List.zipIdx_map_snd]; simp [List.range_eq_range']

/-- C21, ports are kept, is needed: were two nodes with the same preferred port assigned in another order,
each would get the port of the other. -/
theorem C21_order_matters : ∃ a b out out' pre asg,
    assignPorts [a, b] = .ok out pre asg ∧ assignPorts [b, a] = .ok out' pre asg ∧ out ≠ out'.reverse := by
  refine ⟨⟨"a", 0, 80⟩, ⟨"b", 0, 80⟩, [⟨"a", 80, 80⟩, ⟨"b", 81, 81⟩], [⟨"b", 80, 80⟩, ⟨"a", 81, 81⟩], [], [0, 1], ?_, ?_, by decide⟩ <;>
  · simp [assignPorts, collect, assign, portSpace, startPort, search]

/-! ### C22 -/

private theorem cut_some {s suf b : List Char} : cutSuffix s suf = some b ↔ s = b ++ suf := by
  unfold cutSuffix
  by_cases h : suf.isSuffixOf s = true
  · rw [if_pos h]
    obtain ⟨t, ht⟩ := List.isSuffixOf_iff_suffix.1 h
    subst ht
    simp [eq_comm]
  · rw [if_neg h]
    constructor
    · simp
    · intro hs; exact absurd (List.isSuffixOf_iff_suffix.2 ⟨b, hs.symm⟩) h

private theorem bind_form (a : List Char) : ∃ p, bindName a = p ++ "bind_addr".toList := by
  unfold bindName replaceSuffix
  cases cutSuffix a "addr".toList with
  | some b => exact ⟨b, rfl⟩
  | none => exact ⟨a ++ ['.'], rfl⟩

private theorem dial_form (a : List Char) : ∃ p, dialName a = p ++ "dial_addr".toList := by
  unfold dialName replaceSuffix
  cases cutSuffix a "addr".toList with
  | some b => exact ⟨b, rfl⟩
  | none => exact ⟨a ++ ['.'], rfl⟩

/-- C22: the bind name of an address is never the dial name of any address. -/
theorem C22_bind_differs_from_dial (a b : List Char) : bindName a ≠ dialName b := by
  obtain ⟨p, hp⟩ := bind_form a
  obtain ⟨q, hq⟩ := dial_form b
  rw [hp, hq]
  intro h
  have := (List.append_inj' h (by simp)).2
  simp at this

/-- C22: two address names that both end in `addr` share a bind name, or a dial name, only if they are
equal. -/
theorem C22_names_injective (a b : List Char)
    (ha : ∃ x, a = x ++ ".addr".toList) (hb : ∃ y, b = y ++ ".addr".toList) :
    (bindName a = bindName b → a = b) ∧ (dialName a = dialName b → a = b) := by
  obtain ⟨x, rfl⟩ := ha
  obtain ⟨y, rfl⟩ := hb
  have e : ∀ z : List Char, cutSuffix (z ++ ".addr".toList) "addr".toList = some (z ++ ['.']) := by
    intro z; rw [cut_some]; simp
  unfold bindName dialName replaceSuffix
  rw [e x, e y]
  refine ⟨fun h => ?_, fun h => ?_⟩
  all_goals
    have := List.append_cancel_right (List.append_cancel_right h)
    rw [this]

/-- C22, the shape of the names: `x.addr` gives `x.bind_addr` and `x.dial_addr`. -/
theorem C22_conventional_names (x : List Char) :
    bindName (x ++ ".addr".toList) = x ++ ".bind_addr".toList ∧
    dialName (x ++ ".addr".toList) = x ++ ".dial_addr".toList := by
  have e : cutSuffix (x ++ ".addr".toList) "addr".toList = some (x ++ ['.']) := by rw [cut_some]; simp
  unfold bindName dialName replaceSuffix
  rw [e]
  simp

/-- The convention is needed: without the suffix two different addresses can share their bind name. -/
theorem C22_unconventional_names_clash :
    ∃ a b, a ≠ b ∧ bindName a = bindName b ∧ dialName a = dialName b :=
  ⟨"x".toList, "x.addr".toList, by decide, by decide, by decide⟩

/-! ### Concrete cases -/

/-- The hypotheses of `C21_first_free` and `C21_kept` hold: two nodes prefer the port of a third one. -/
example : ∃ out pre asg, assignPorts [⟨"a", 0, 80⟩, ⟨"b", 80, 0⟩, ⟨"c", 0, 80⟩] = .ok out pre asg ∧
    out = [⟨"a", 81, 81⟩, ⟨"b", 80, 80⟩, ⟨"c", 82, 82⟩] ∧
    assignPorts [⟨"c", 0, 82⟩, ⟨"a", 0, 81⟩] = .ok [⟨"c", 82, 82⟩, ⟨"a", 81, 81⟩] [] [0, 1] := by
  have h1 : search [80] portSpace (startPort ⟨"a", 0, 80⟩) = some 81 := by simp [portSpace, startPort, search]
  have h2 : search [81, 80] portSpace (startPort ⟨"c", 0, 80⟩) = some 82 := by simp [portSpace, startPort, search]
  refine ⟨_, _, _, by simp only [assignPorts, collect, assign, h1, h2]; simp [assign, h2]; rfl, rfl, ?_⟩
  simp [assignPorts, collect, assign, portSpace, startPort, search]

example : assignPorts [⟨"a", 2000, 0⟩, ⟨"b", 0, 0⟩, ⟨"c", 0, 80⟩] =
    .ok [⟨"a", 2000, 2000⟩, ⟨"b", 2001, 2001⟩, ⟨"c", 80, 80⟩] [0] [1, 2] := by
  have h1 : search [2000] portSpace (startPort ⟨"b", 0, 0⟩) = some 2001 := by
    simp [portSpace, startPort, search]
  have h2 : search [2001, 2000] portSpace (startPort ⟨"c", 0, 80⟩) = some 80 := by
    simp [portSpace, startPort, search]
  simp [assignPorts, collect, assign, h1, h2]

example : assignPorts [⟨"a", 2000, 0⟩, ⟨"b", 2000, 0⟩] =
    .conflict [⟨"a", 2000, 0⟩, ⟨"b", 2000, 0⟩] := by
  simp [assignPorts, collect]

end Verif.Address
