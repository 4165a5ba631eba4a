import Verif.Logs.Spec
import Verif.Wiring.SpecProps
import Verif.Wiring.NsQueue
/-
C133: log statements reach the logger that was chosen for the process.
-/
namespace Verif.Logs
open Verif.Wiring (Name Spec Op PropResult sinceAlias valuesOf)

/-! ### The choice -/

theorem since_eq {ops : List WOp} {p : Name} (h : ∀ o ∈ ops, o.name = p → o.target = none) :
    sinceAlias ops p = ops.filter fun o => o.name == p := by
  unfold sinceAlias
  have : ((ops.filter fun o => o.name == p).reverse.takeWhile fun o => o.target.isNone) = (ops.filter fun o => o.name == p).reverse := by
    have hl : ∀ l : List WOp, (∀ o ∈ l, o.target.isNone = true) → l.takeWhile (fun o => o.target.isNone) = l := by
      intro l
      induction l with
      | nil => intro _; rfl
      | cons x l ih =>
        intro hl
        rw [List.takeWhile_cons, if_pos (hl x (by simp)), ih fun o ho => hl o (List.mem_cons_of_mem _ ho)]
    refine hl _ fun o ho => ?_
    rw [List.mem_reverse, List.mem_filter] at ho
    rw [h o ho.1 (by simpa using ho.2)]
    rfl
  rw [this, List.reverse_reverse]

theorem valuesOf_append (key : Name) : ∀ (a b : List WOp) (vs : List Val), valuesOf key (a ++ b) vs = valuesOf key b (valuesOf key a vs)
  | [], _, _ => rfl
  | o :: a, b, vs => by
    cases o <;> simp only [List.cons_append, valuesOf] <;> exact valuesOf_append key a b _

/-- The values of a key after calls, if each call does to it what `choice` says. -/
theorem values_calls (key p : Name) (choice : Call → Option Name) : ∀ (calls : List Call) (vs : List Val),
    (∀ c ∈ calls, ∀ vs, valuesOf key ((expand c).filter fun o => o.name == p) vs = ((choice c).map fun n => [Val.str n]).getD vs) →
    valuesOf key ((calls.flatMap expand).filter fun o => o.name == p) vs = ((lastChoice choice calls).map fun n => [Val.str n]).getD vs
  | [], vs, _ => rfl
  | c :: calls, vs, h => by
    rw [List.flatMap_cons, List.filter_append, valuesOf_append, h c (by simp),
      values_calls key p choice calls _ fun c hc => h c (List.mem_cons_of_mem _ hc)]
    unfold lastChoice
    rw [List.filterMap_cons]
    cases hc : choice c with
    | none => rfl
    | some n =>
      simp only [Option.map_some, Option.getD_some]
      rw [List.getLast?_cons]
      cases (calls.filterMap choice).getLast? <;> rfl

theorem expand_children (key p q : Name) (hk : key ≠ "Children") : ∀ (cs : List Name) (vs : List Val),
    valuesOf key ((cs.map fun c => (Op.addProperty q "Children" (.str c) : WOp)).filter fun o => o.name == p) vs = vs
  | [], vs => rfl
  | c :: cs, vs => by
    rw [List.map_cons, List.filter_cons]
    split
    · simp only [valuesOf]
      rw [if_neg (Ne.symm hk), expand_children key p q hk cs]
    · exact expand_children key p q hk cs vs

theorem values_call_other {key p : Name} (hc : key ≠ Wiring.callsite) (o : WOp) (h : LeavesAlone p o) (hk : key = "logger" ∨ key = "metricCollector")
    (vs : List Val) : valuesOf key ([o].filter fun o => o.name == p) vs = vs := by
  rw [List.filter_cons]
  split
  · rename_i hn
    have hn : o.name = p := by simpa using hn
    cases o with
    | define n t b st => simp [valuesOf, hc]
    | alias a x => exact absurd hn h
    | setProperty n k v =>
      have := h hn
      have hne : k ≠ key := by rcases hk with rfl | rfl; exact this.1; exact this.2
      simp [valuesOf, hne]
    | addProperty n k v =>
      have := h hn
      have hne : k ≠ key := by rcases hk with rfl | rfl; exact this.1; exact this.2
      simp [valuesOf, hne]
  · rfl

theorem values_logger (p : Name) (c : Call) (h : ∀ o, c = .other o → LeavesAlone p o) (vs : List Val) :
    valuesOf "logger" ((expand c).filter fun o => o.name == p) vs = ((c.logger p).map fun n => [Val.str n]).getD vs := by
  cases c with
  | createProcess q cs =>
    unfold expand
    rw [List.filter_append, valuesOf_append, expand_children _ _ _ (by decide)]
    by_cases hq : q = p
    · subst hq
      simp only [Call.logger, if_true, Option.map_some, Option.getD_some, List.filter_cons, Op.name, List.filter_nil, beq_self_eq_true]
      split <;> split <;> simp [valuesOf, Wiring.callsite, stdoutLogger]
    · simp only [Call.logger, if_neg hq, Option.map_none, Option.getD_none, List.filter_cons, Op.name, List.filter_nil, beq_iff_eq]
      split <;> split <;> simp [valuesOf, Wiring.callsite]
  | setLogger q n =>
    by_cases hq : q = p <;> simp [expand, Call.logger, hq, Op.name, valuesOf]
  | setMetricCollector q n =>
    by_cases hq : q = p <;> simp [expand, Call.logger, hq, Op.name, valuesOf]
  | setFrequency q n =>
    by_cases hq : q = p <;> simp [expand, Call.logger, hq, Op.name, valuesOf]
  | otLogger q =>
    by_cases hq : q = p
    · subst hq
      simp only [expand, Call.logger, if_true, Option.map_some, Option.getD_some, List.filter_cons, Op.name, List.filter_nil, beq_self_eq_true]
      split <;> simp [valuesOf]
    · simp only [expand, Call.logger, if_neg hq, Option.map_none, Option.getD_none, List.filter_cons, Op.name, List.filter_nil, beq_iff_eq]
      split <;> simp [valuesOf, Wiring.callsite]
  | xtLogger q =>
    by_cases hq : q = p
    · subst hq
      simp only [expand, Call.logger, if_true, Option.map_some, Option.getD_some, List.filter_cons, Op.name, List.filter_nil, beq_self_eq_true]
      split <;> simp [valuesOf]
    · simp only [expand, Call.logger, if_neg hq, Option.map_none, Option.getD_none, List.filter_cons, Op.name, List.filter_nil, beq_iff_eq]
      split <;> simp [valuesOf, Wiring.callsite]
  | vecLogger q =>
    by_cases hq : q = p
    · subst hq
      simp only [expand, Call.logger, if_true, Option.map_some, Option.getD_some, List.filter_cons, Op.name, List.filter_nil, beq_self_eq_true]
      split <;> simp [valuesOf]
    · simp only [expand, Call.logger, if_neg hq, Option.map_none, Option.getD_none, List.filter_cons, Op.name, List.filter_nil, beq_iff_eq]
      split <;> simp [valuesOf, Wiring.callsite]
  | other o => exact values_call_other (by decide) o (h o rfl) (Or.inl rfl) vs

theorem values_collector (p : Name) (c : Call) (h : ∀ o, c = .other o → LeavesAlone p o) (vs : List Val) :
    valuesOf "metricCollector" ((expand c).filter fun o => o.name == p) vs = ((c.collector p).map fun n => [Val.str n]).getD vs := by
  cases c with
  | createProcess q cs =>
    unfold expand
    rw [List.filter_append, valuesOf_append, expand_children _ _ _ (by decide)]
    by_cases hq : q = p
    · subst hq
      simp only [Call.collector, if_true, Option.map_some, Option.getD_some, List.filter_cons, Op.name, List.filter_nil, beq_self_eq_true]
      split <;> split <;> simp [valuesOf, Wiring.callsite, stdoutMetric]
    · simp only [Call.collector, if_neg hq, Option.map_none, Option.getD_none, List.filter_cons, Op.name, List.filter_nil, beq_iff_eq]
      split <;> split <;> simp [valuesOf, Wiring.callsite]
  | setLogger q n =>
    by_cases hq : q = p <;> simp [expand, Call.collector, hq, Op.name, valuesOf]
  | setMetricCollector q n =>
    by_cases hq : q = p <;> simp [expand, Call.collector, hq, Op.name, valuesOf]
  | setFrequency q n =>
    by_cases hq : q = p <;> simp [expand, Call.collector, hq, Op.name, valuesOf]
  | otLogger q =>
    simp only [expand, Call.collector, Option.map_none, Option.getD_none, List.filter_cons, Op.name, List.filter_nil]
    split <;> split <;> simp [valuesOf, Wiring.callsite]
  | xtLogger q =>
    simp only [expand, Call.collector, Option.map_none, Option.getD_none, List.filter_cons, Op.name, List.filter_nil]
    split <;> split <;> simp [valuesOf, Wiring.callsite]
  | vecLogger q =>
    simp only [expand, Call.collector, Option.map_none, Option.getD_none, List.filter_cons, Op.name, List.filter_nil]
    split <;> split <;> simp [valuesOf, Wiring.callsite]
  | other o => exact values_call_other (by decide) o (h o rfl) (Or.inr rfl) vs

theorem expand_noAlias {p : Name} {calls : List Call} (h : ∀ o, .other o ∈ calls → LeavesAlone p o) :
    ∀ o ∈ calls.flatMap expand, o.name = p → o.target = none := by
  intro o ho hn
  obtain ⟨c, hc, ho⟩ := List.mem_flatMap.1 ho
  cases o with
  | alias a x =>
    exfalso
    cases c with
    | other o' =>
      have : o' = .alias a x := by simpa [expand, eq_comm] using ho
      subst this
      exact h _ hc hn
    | _ => simp [expand] at ho
  | _ => rfl

theorem prop_value {ops : List WOp} {p key : Name} (n : Name) (h : ∀ o ∈ ops, o.name = p → o.target = none) {ch : Option Name}
    (hv : valuesOf key (ops.filter fun o => o.name == p) [] = (ch.map fun n => [Val.str n]).getD []) :
    (Spec.run ops).getProperty p key = .value (.str n) ↔ ch = some n := by
  have c := Wiring.C15_properties ops p key
  simp only [since_eq h, hv] at c
  constructor
  · intro hg
    by_cases hd : p ∈ (Spec.run ops).defNames
    · rcases (c.1 hd).2 with ⟨v, e, hv'⟩ | ⟨_, hv'⟩
      · rw [hv'] at hg
        cases ch with
        | none => simp at e
        | some m => simp at e; injection hg with hg; rw [← e] at hg; injection hg with hg; rw [hg]
      · rw [hv'] at hg; exact absurd hg (by simp)
    · rw [(c.2 hd).2] at hg; exact absurd hg (by simp)
  · rintro rfl
    by_cases hd : p ∈ (Spec.run ops).defNames
    · rcases (c.1 hd).2 with ⟨v, e, hv'⟩ | ⟨hl, _⟩
      · simp at e; rw [hv', ← e]
      · simp at hl
    · exfalso
      have hk := (Wiring.C14_kind ops p).2.1
      have hne : ops.filter (fun o => o.name == p) ≠ [] := by
        intro e
        rw [e] at hv
        simp [valuesOf] at hv
      obtain ⟨l, o, e⟩ : ∃ l o, ops.filter (fun o => o.name == p) = l ++ [o] := by
        rcases List.eq_nil_or_concat (ops.filter fun o => o.name == p) with e | ⟨l, o, e⟩
        · exact absurd e hne
        · exact ⟨l, o, by simpa using e⟩
      have hm : o ∈ ops ∧ (o.name == p) = true := by
        rw [← List.mem_filter (p := fun o : WOp => o.name == p), e]; simp
      refine hd (hk.2 ⟨o, ?_, h o hm.1 (by simpa using hm.2)⟩)
      unfold Wiring.lastOn
      rw [e]; simp

/-- **C133**, the choice: after any calls, in any order and about any processes, the logger of a process is the one that was chosen last, by
CreateProcess (the default) or by a plugin's Logger function, and its metric collector likewise. -/
theorem C133_chosen {calls : List Call} {p : Name} (h : ∀ o, .other o ∈ calls → LeavesAlone p o) (n : Name) :
    ((specOf calls).getProperty p "logger" = .value (.str n) ↔ lastChoice (Call.logger p) calls = some n) ∧
    ((specOf calls).getProperty p "metricCollector" = .value (.str n) ↔ lastChoice (Call.collector p) calls = some n) := by
  have ha := expand_noAlias h
  refine ⟨prop_value n ha ?_, prop_value n ha ?_⟩
  · exact values_calls "logger" p _ calls [] fun c hc vs => values_logger p c (fun o e => h o (e ▸ hc)) vs
  · exact values_calls "metricCollector" p _ calls [] fun c hc vs => values_collector p c (fun o e => h o (e ▸ hc)) vs

end Verif.Logs
