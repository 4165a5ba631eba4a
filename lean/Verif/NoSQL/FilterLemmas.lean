import Verif.NoSQL.Spec
/-
Lemmas about evaluating and parsing filters.
-/
namespace Verif.NoSQL
variable {F : Type} [Host F]

theorem matchesQuery_eq (q d : Doc F) : matchesQuery q d = (parseFilter q).bind (·.eval (.doc d)) := by
  unfold matchesQuery findMany
  cases parseFilter q with
  | none => rfl
  | some f =>
    simp only [Option.bind_some, findLoop]
    cases f.eval (.doc d) with
    | none => rfl
    | some b => cases b <;> rfl

theorem eval_mkAnd (fs : List (Filter F)) (v : Value F) : (mkAnd fs).eval v = Filter.evalAnd fs v := by
  match fs with
  | [] => simp [mkAnd, Filter.eval, Filter.evalAnd]
  | [f] =>
    simp only [mkAnd, Filter.evalAnd]
    cases f.eval v with
    | none => rfl
    | some b => cases b <;> rfl
  | f :: g :: fs => simp only [mkAnd]; rw [Filter.eval]

theorem eval_mkOr (fs : List (Filter F)) (v : Value F) (h : fs ≠ []) : (mkOr fs).eval v = Filter.evalOr fs v := by
  match fs with
  | [] => exact absurd rfl h
  | [f] =>
    simp only [mkOr, Filter.evalOr]
    cases f.eval v with
    | none => rfl
    | some b => cases b <;> rfl
  | f :: g :: fs => simp only [mkOr]; rw [Filter.eval]

theorem evalAnd_append (fs gs : List (Filter F)) (v : Value F) :
    Filter.evalAnd (fs ++ gs) v = match Filter.evalAnd fs v with
      | none => none
      | some false => some false
      | some true => Filter.evalAnd gs v := by
  induction fs with
  | nil => simp [Filter.evalAnd]
  | cons f fs ih =>
    simp only [List.cons_append, Filter.evalAnd]
    cases f.eval v with
    | none => rfl
    | some b => cases b with
      | false => rfl
      | true => exact ih

theorem evalAnd_some (fs : List (Filter F)) (v : Value F) (h : ∀ f ∈ fs, (f.eval v).isSome) :
    Filter.evalAnd fs v = some (fs.all fun f => f.eval v == some true) := by
  induction fs with
  | nil => simp [Filter.evalAnd]
  | cons f fs ih =>
    have h1 := h f (by simp)
    have h2 := ih (fun g hg => h g (by simp [hg]))
    simp only [Filter.evalAnd]
    cases he : f.eval v with
    | none => rw [he] at h1; cases h1
    | some b => cases b with
      | false => simp [he]
      | true => simp [he, h2]

theorem evalOr_some (fs : List (Filter F)) (v : Value F) (h : ∀ f ∈ fs, (f.eval v).isSome) :
    Filter.evalOr fs v = some (fs.any fun f => f.eval v == some true) := by
  induction fs with
  | nil => simp [Filter.evalOr]
  | cons f fs ih =>
    have h1 := h f (by simp)
    have h2 := ih (fun g hg => h g (by simp [hg]))
    simp only [Filter.evalOr]
    cases he : f.eval v with
    | none => rw [he] at h1; cases h1
    | some b => cases b with
      | true => simp [he]
      | false => simp [he, h2]

/-! ### Loops -/

theorem anyM_append {α : Type} (p : α → Option Bool) (l m : List α) :
    anyM p (l ++ m) = match anyM p l with
      | none => none
      | some true => some true
      | some false => anyM p m := by
  induction l with
  | nil => simp [anyM]
  | cons a l ih =>
    simp only [List.cons_append, anyM]
    cases p a with
    | none => rfl
    | some b => cases b with
      | true => rfl
      | false => exact ih

theorem anyM_some {α : Type} (p : α → Option Bool) (q : α → Bool) (l : List α) (h : ∀ a ∈ l, p a = some (q a)) :
    anyM p l = some (l.any q) := by
  induction l with
  | nil => rfl
  | cons a l ih =>
    simp only [anyM, h a (by simp), List.any_cons, ih (fun b hb => h b (by simp [hb]))]
    cases q a <;> rfl

theorem anyM_singleton {α : Type} (p : α → Option Bool) (a : α) : anyM p [a] = p a := by
  simp only [anyM]
  cases p a with
  | none => rfl
  | some b => cases b <;> rfl

theorem anyM_flatMap {α β : Type} (p : β → Option Bool) (g : α → List β) (l : List α) :
    anyM p (l.flatMap g) = anyM (fun a => anyM p (g a)) l := by
  induction l with
  | nil => rfl
  | cons a l ih =>
    simp only [List.flatMap_cons, anyM_append, anyM, ih]
    cases anyM p (g a) with
    | none => rfl
    | some b => cases b <;> rfl

/-! ### Selectors -/

theorem splitDots_ne_nil (s : Name) : splitDots s ≠ [] := by
  cases s with
  | nil => simp [splitDots]
  | cons c cs =>
    simp only [splitDots]
    split
    · simp
    · split <;> simp

theorem splitDots_plain {k : Name} (h : '.' ∉ k) : splitDots k = [k] := by
  induction k with
  | nil => rfl
  | cons c cs ih =>
    simp only [List.mem_cons, not_or] at h
    have h1 : ¬ c = '.' := fun e => h.1 e.symm
    simp only [splitDots, if_neg h1, ih h.2]

theorem splitDots_append {a b : Name} (h : '.' ∉ a) : splitDots (a ++ '.' :: b) = a :: splitDots b := by
  induction a with
  | nil => simp [splitDots]
  | cons c cs ih =>
    simp only [List.mem_cons, not_or] at h
    have h1 : ¬ c = '.' := fun e => h.1 e.symm
    simp only [List.cons_append, splitDots, if_neg h1, ih h.2]

omit [Host F] in
theorem lookup_plain {k : Name} (h : Plain k) (f : Filter F) : lookup k f = .select k f := by
  simp [lookup, splitDots_plain h.noDot, lookupPieces, h.notNumber]

private def NoNegative (ps : List Name) : Prop := ∀ p ∈ ps, ∀ j, atoi p = some j → 0 ≤ j

theorem eval_select (k : Name) (f : Filter F) (d : Doc F) :
    (Filter.select k f).eval (.doc d) = match field k d with
      | some v => f.eval v
      | none => some false := by
  rw [Filter.eval.eq_def]
  cases h : field k d <;> simp [h]

theorem eval_broadcast (f : Filter F) (v : Value F) : (Filter.broadcast f).eval v = anyM f.eval (spread v) := by
  rw [Filter.eval.eq_def]
  cases v <;> simp [spread, anyM_singleton]

private theorem eval_select_any (k : Name) (f : Filter F) (d : Doc F) :
    (Filter.select k f).eval (.doc d) = anyM f.eval (field k d).toList := by
  rw [eval_select]
  cases field k d with
  | none => rfl
  | some v => simp [anyM_singleton]

/-- Evaluating a looked-up filter is evaluating the filter on the values that the path reaches. -/
private theorem eval_lookupPieces (ps : List Name) (f : Filter F) (hn : NoNegative ps) :
    (∀ v : Value F, (lookupPieces false ps f).eval v = anyM f.eval (reach ps v)) ∧
    (∀ d : Doc F, (lookupPieces true ps f).eval (.doc d) = anyM f.eval (reach ps (.doc d))) := by
  induction ps with
  | nil => exact ⟨fun v => by simp [lookupPieces, reach, anyM_singleton],
      fun d => by simp [lookupPieces, reach, anyM_singleton]⟩
  | cons p ps ih =>
    obtain ⟨ih1, -⟩ := ih (fun q hq => hn q (by simp [hq]))
    have hdoc : ∀ d : Doc F, (Filter.select p (lookupPieces false ps f)).eval (.doc d) =
        anyM f.eval ((field p d).toList.flatMap (reach ps)) := by
      intro d
      rw [eval_select]
      cases field p d with
      | none => rfl
      | some v => simp [ih1]
    cases hp : atoi p with
    | some j =>
      have hj : 0 ≤ j := hn p (by simp) j hp
      have key : ∀ v : Value F, (Filter.index j (lookupPieces false ps f)).eval v = anyM f.eval (reach (p :: ps) v) := by
        intro v
        rw [Filter.eval.eq_def]
        simp only [reach, hp]
        cases v with
        | arr es sp =>
          simp only
          by_cases hl : j < es.length
          · have h2 : j.toNat < es.length := by omega
            rw [if_pos hl, if_neg (by omega)]
            simp [h2, ih1]
          · have h2 : es.length ≤ j.toNat := by omega
            rw [if_neg hl]
            simp [List.getElem?_eq_none h2, anyM]
        | _ => rfl
      exact ⟨fun v => by simp only [lookupPieces, hp]; exact key v,
        fun d => by simp only [lookupPieces, hp]; exact key _⟩
    | none =>
      constructor
      · intro v
        simp only [lookupPieces, hp, Bool.false_eq_true, if_false]
        rw [eval_broadcast]
        cases v with
        | arr es sp =>
          simp only [spread, reach, hp]
          rw [anyM_flatMap]
          congr 1
          funext e
          cases e with
          | doc d => rw [← hdoc]
          | _ => simp [anyM, Filter.eval]
        | doc d =>
          simp only [spread, reach, hp]
          rw [← hdoc, anyM_singleton]
        | _ => simp [reach, hp, anyM, Filter.eval, spread]
      · intro d
        simp only [lookupPieces, hp, if_true, reach]
        exact hdoc d

theorem eval_lookup (sel : Name) (f : Filter F) (hn : ∀ p ∈ splitDots sel, ∀ j, atoi p = some j → 0 ≤ j) (d : Doc F) :
    (lookup sel f).eval (.doc d) = anyM f.eval (reach (splitDots sel) (.doc d)) :=
  (eval_lookupPieces _ f hn).2 d

/-! ### Literals -/

theorem eval_mkEquals (v x : Value F) (hv : literal v = true) (hd : ∀ d, v ≠ .doc d) :
    (mkEquals v).eval x = some (same v x) := by
  cases v with
  | doc d => exact absurd rfl (hd d)
  | arr => simp [literal] at hv
  | bad => simp [literal] at hv
  | int k n =>
    simp only [mkEquals, intValue, Filter.eval]
    cases x <;> simp [same, cmpInts]
    exact Bool.beq_comm
  | float f =>
    simp only [mkEquals, intValue, floatValue, Filter.eval]
    cases x <;> simp [same, cmpFloats]
  | null => cases x <;> simp [mkEquals, intValue, floatValue, Filter.eval, same, deepEq]
  | bool b => cases x <;> simp [mkEquals, intValue, floatValue, Filter.eval, same, deepEq, Bool.beq_comm]
  | str s => cases x <;> simp [mkEquals, intValue, floatValue, Filter.eval, same, deepEq, Bool.beq_comm]
  | oid s => cases x <;> simp [mkEquals, intValue, floatValue, Filter.eval, same, deepEq, Bool.beq_comm]
  | other s => cases x <;> simp [mkEquals, intValue, floatValue, Filter.eval, same, deepEq, Bool.beq_comm]

mutual
theorem parseValue_literal : (v : Value F) → literal v = true →
    ∃ f, parseValue v = some f ∧ ∀ x, f.eval x = some (same v x)
  | .doc d, h => by
    rw [literal] at h
    obtain ⟨fs, h1, h2⟩ := parseFields_literal d h
    refine ⟨mkAnd (fs ++ [.exactFieldMatch (d.map (·.1))]), by rw [parseValue, h1]; rfl, ?_⟩
    intro x
    rw [eval_mkAnd, evalAnd_append]
    cases x with
    | doc b =>
      rw [h2 b]
      simp only [same]
      cases sameFields d b with
      | false => rfl
      | true =>
        simp only [Filter.evalAnd, Filter.eval, Bool.true_and]
        cases (b.all fun e => (d.map (·.1)).contains e.1) <;> rfl
    | _ =>
      cases d with
      | nil =>
        simp only [parseFields, Option.some.injEq] at h1
        subst h1
        simp [Filter.evalAnd, Filter.eval, same]
      | cons e d =>
        obtain ⟨k, w⟩ := e
        simp only [parseFields] at h1
        split at h1
        · cases h1
        · split at h1
          · cases h1
          · obtain ⟨gs, -, rfl⟩ := Option.map_eq_some_iff.1 h1
            simp [Filter.evalAnd, Filter.eval, same]
  | .null, h => ⟨_, rfl, fun x => eval_mkEquals _ x h (by intro d hd; cases hd)⟩
  | .bool _, h => ⟨_, rfl, fun x => eval_mkEquals _ x h (by intro d hd; cases hd)⟩
  | .int _ _, h => ⟨_, rfl, fun x => eval_mkEquals _ x h (by intro d hd; cases hd)⟩
  | .float _, h => ⟨_, rfl, fun x => eval_mkEquals _ x h (by intro d hd; cases hd)⟩
  | .str _, h => ⟨_, rfl, fun x => eval_mkEquals _ x h (by intro d hd; cases hd)⟩
  | .oid _, h => ⟨_, rfl, fun x => eval_mkEquals _ x h (by intro d hd; cases hd)⟩
  | .other _, h => ⟨_, rfl, fun x => eval_mkEquals _ x h (by intro d hd; cases hd)⟩
  | .arr _ _, h => by simp [literal] at h
  | .bad, h => by simp [literal] at h
theorem parseFields_literal : (d : List (Name × Value F)) → literalFields d = true →
    ∃ fs, parseFields d = some fs ∧ ∀ b : Doc F, Filter.evalAnd fs (.doc b) = some (sameFields d b)
  | [], _ => ⟨[], rfl, fun b => by simp [Filter.evalAnd, sameFields]⟩
  | (k, v) :: d, h => by
    simp only [literalFields, Bool.and_eq_true, Bool.not_eq_true'] at h
    obtain ⟨⟨⟨h1, h2⟩, h3⟩, h4⟩ := h
    obtain ⟨f, p1, p2⟩ := parseValue_literal v h3
    obtain ⟨fs, q1, q2⟩ := parseFields_literal d h4
    refine ⟨.select k f :: fs, ?_, ?_⟩
    · simp only [parseFields, h1, h2, Bool.or_self, Bool.false_eq_true, if_false, p1, q1, Option.map_some]
    · intro b
      simp only [Filter.evalAnd, sameFields]
      rw [eval_select]
      cases field k b with
      | none => rfl
      | some y =>
        simp only [p2]
        cases same v y with
        | false => rfl
        | true => simp [q2 b]
end

end Verif.NoSQL
