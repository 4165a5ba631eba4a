/-
The conditions on names, computed for templates.
-/
import Verif.Scope.Lemmas
import Verif.Scope.Spec
namespace Verif.Scope

/-! ### `ret0`, `ret1`, … -/

def looksRet (x : Name) : Bool :=
  match x.toList with
  | 'r' :: 'e' :: 't' :: c :: _ => c.isDigit
  | _ => false

theorem digits (n : Nat) : (toString n).toList = Nat.toDigits 10 n := by simp [toString, Nat.repr]

theorem ret_toList (i : Nat) : (ret i).toList = 'r' :: 'e' :: 't' :: Nat.toDigits 10 i := by
  unfold ret
  rw [String.toList_append, digits]
  rfl

theorem looksRet_ret (i : Nat) : looksRet (ret i) = true := by
  unfold looksRet
  rw [ret_toList]
  cases h : Nat.toDigits 10 i with
  | nil =>
    have h1 := Nat.ofDigitChars_ten_toDigits (n := i)
    have h2 : 0 < (Nat.toDigits 10 i).length := Nat.length_toDigits_pos
    rw [h] at h2
    simp at h2
  | cons c cs =>
    exact Nat.isDigit_of_mem_toDigits (b := 10) (n := i) (by omega) (by omega) (by rw [h]; exact List.mem_cons_self)

theorem ret_inj {i j : Nat} (h : ret i = ret j) : i = j := by
  have h1 := congrArg String.toList h
  rw [ret_toList, ret_toList] at h1
  simp only [List.cons.injEq, true_and] at h1
  rw [← Nat.ofDigitChars_ten_toDigits (n := i), ← Nat.ofDigitChars_ten_toDigits (n := j), h1]

theorem mem_retVars {n : Nat} {x : Name} : x ∈ retVars n ↔ ∃ i, i < n ∧ x = ret i := by
  simp only [retVars, List.mem_map, List.mem_range]
  exact ⟨fun ⟨i, h, e⟩ => ⟨i, h, e.symm⟩, fun ⟨i, h, e⟩ => ⟨i, h, e.symm⟩⟩

theorem not_ret {n : Nat} {x : Name} (h : looksRet x = false) : x ∉ retVars n := by
  intro hm
  obtain ⟨i, -, rfl⟩ := mem_retVars.1 hm
  rw [looksRet_ret] at h
  cases h

theorem head_append {p x : String} (hp : p.toList ≠ []) : (p ++ x).toList.head? = p.toList.head? := by
  rw [String.toList_append]
  cases h : p.toList with
  | nil => exact absurd h hp
  | cons c cs => rfl

theorem pre_ne {p x t : String} (hp : p.toList ≠ []) (h : p.toList.head? ≠ t.toList.head?) : ¬ p ++ x = t := by
  intro e
  rw [← e, head_append hp] at h
  exact h rfl

theorem pre_not_ret {p x : String} {n : Nat} (hp : p.toList ≠ []) (h : p.toList.head? ≠ some 'r') : p ++ x ∉ retVars n := by
  intro hm
  obtain ⟨i, -, e⟩ := mem_retVars.1 hm
  have := congrArg (fun z => z.toList.head?) e
  simp only [head_append hp, ret_toList] at this
  exact h this

theorem nodup_map_of_inj {α β : Type} (f : α → β) (hf : ∀ a b, f a = f b → a = b) (l : List α) (h : l.Nodup) :
    (l.map f).Nodup := by
  induction l with
  | nil => simp
  | cons a l ih =>
    rw [List.nodup_cons] at h
    rw [List.map_cons, List.nodup_cons]
    refine ⟨fun hm => ?_, ih h.2⟩
    obtain ⟨b, hb, e⟩ := List.mem_map.1 hm
    exact h.1 (hf b a e ▸ hb)

theorem nodup_retVars (n : Nat) : (retVars n).Nodup :=
  nodup_map_of_inj ret (fun _ _ => ret_inj) _ List.nodup_range

theorem names_nil : names [] = [] := rfl
theorem names_cons (v : Var) (l : List Var) : names (v :: l) = v.name :: names l := rfl
theorem names_append (l m : List Var) : names (l ++ m) = names l ++ names m := by simp [names]
theorem names_results (rets : List String) : names (results rets) = retVars rets.length := by
  apply List.ext_getElem?
  intro i
  simp only [names, results, retVars, List.getElem?_map, List.getElem?_zipIdx, Option.map_map, Nat.zero_add]
  rcases Nat.lt_or_ge i rets.length with h | h
  · rw [List.getElem?_eq_getElem h, List.getElem?_eq_getElem (by simpa using h)]
    simp
  · rw [List.getElem?_eq_none h, List.getElem?_eq_none (by simpa using h)]
    rfl

/-! ### Uses of all results -/

section
variable (m n : Nat) (E : Env) (rets : List String) (r : List Tok)

theorem ownOk_uses (xs : List Name) :
    ownOk m E (xs.map .use ++ r) ↔ (∀ x ∈ xs, x ∈ innerNames E ∨ x ∈ names E.top) ∧ ownOk m E r := by
  induction xs with
  | nil => simp
  | cons x xs ih => simp only [List.map_cons, List.cons_append, ownOk, ih, List.forall_mem_cons, and_assoc]

theorem badNames_uses (xs : List Name) : badNames E (xs.map .use ++ r) = badNames E r := by
  induction xs with
  | nil => rfl
  | cons x xs ih => simpa only [List.map_cons, List.cons_append, badNames] using ih

theorem points_uses (xs : List Name) : points E (xs.map .use ++ r) = points E r := by
  induction xs with
  | nil => rfl
  | cons x xs ih => simpa only [List.map_cons, List.cons_append, points] using ih

theorem hardNames_uses (xs : List Name) : hardNames n E (xs.map .use ++ r) = hardNames n E r := by
  induction xs with
  | nil => rfl
  | cons x xs ih => simpa only [List.map_cons, List.cons_append, hardNames] using ih

theorem ownOk_rets : ownOk m E (useRets rets ++ r) ↔
    (∀ x ∈ retVars rets.length, x ∈ innerNames E ∨ x ∈ names E.top) ∧ ownOk m E r := ownOk_uses m E r _
theorem badNames_rets : badNames E (useRets rets ++ r) = badNames E r := badNames_uses E r _
theorem points_rets : points E (useRets rets ++ r) = points E r := points_uses E r _
theorem hardNames_rets : hardNames n E (useRets rets ++ r) = hardNames n E r := hardNames_uses n E r _

theorem ownOk_outers (xs : List Name) :
    ownOk m E (xs.map .outer ++ r) ↔ (∀ x ∈ xs, x ∉ innerNames E ∧ x ∉ names E.top) ∧ ownOk m E r := by
  induction xs with
  | nil => simp
  | cons x xs ih => simp only [List.map_cons, List.cons_append, ownOk, ih, List.forall_mem_cons, and_assoc]

theorem badNames_outers (xs : List Name) : badNames E (xs.map .outer ++ r) = xs ++ badNames E r := by
  induction xs with
  | nil => rfl
  | cons x xs ih => simpa only [List.map_cons, List.cons_append, badNames, List.cons.injEq, true_and] using ih

theorem points_outers (xs : List Name) : points E (xs.map .outer ++ r) = points E r := by
  induction xs with
  | nil => rfl
  | cons x xs ih => simpa only [List.map_cons, List.cons_append, points] using ih

theorem hardNames_outers (h : E.k = n) (xs : List Name) : hardNames n E (xs.map .outer ++ r) = xs ++ hardNames n E r := by
  induction xs with
  | nil => rfl
  | cons x xs ih =>
    simp only [List.map_cons, List.cons_append, hardNames, h, if_true, List.nil_append, ih]

end

/-! ### Declarations -/

theorem declare_new (top : List Var) (k : Nat) (v : Var) (h : v.name ∉ names top) :
    declare ⟨[], top, k⟩ [v] = ⟨[], top ++ [v], k⟩ := by
  simp [declare, ownHere, h]

theorem declare_old_new (top : List Var) (k : Nat) (v w : Var) (hv : v.name ∈ names top) (h : w.name ∉ names top) :
    declare ⟨[], top, k⟩ [v, w] = ⟨[], top ++ [w], k⟩ := by
  simp [declare, ownHere, h, hv]

theorem declare_new_old (top : List Var) (k : Nat) (v w : Var) (hv : v.name ∉ names top) (h : w.name ∈ names top) :
    declare ⟨[], top, k⟩ [v, w] = ⟨[], top ++ [v], k⟩ := by
  simp [declare, ownHere, h, hv]

theorem declare_inner (b : List Var) (bs : List (List Var)) (top : List Var) (k : Nat) (v : Var) (h : v.name ∉ names b) :
    declare ⟨b :: bs, top, k⟩ [v] = ⟨(b ++ [v]) :: bs, top, k⟩ := by
  simp [declare, ownHere, h]

/-- The names that hide an argument, if there is one. -/
def shadowNames : Env → List Tok → List Name
  | _, [] => []
  | E, .use _ :: r => shadowNames E r
  | E, .outer _ :: r => shadowNames E r
  | E, .define xs :: r => shadowNames (declare E xs) r
  | E, .var x :: r => shadowNames (declare E [x]) r
  | E, .opn :: r => shadowNames { E with inner := [] :: E.inner } r
  | E, .cls :: r => shadowNames { E with inner := E.inner.tail } r
  | E, .pass _ :: r => innerNames E ++ shadowNames E r
  | E, .arg i :: r => shadowNames { E with k := i + 1 } r

theorem shadows_sub (ss : List Tok) (E : Env) : ∀ x ∈ shadows E ss, x ∈ shadowNames E ss := by
  induction ss generalizing E with
  | nil => simp [shadows, points]
  | cons t r ih =>
    cases t with
    | pass is =>
      intro x hx
      simp only [shadows, points, List.flatMap_append, List.mem_append, List.mem_flatMap, List.mem_map] at hx
      simp only [shadowNames, List.mem_append]
      rcases hx with ⟨q, ⟨i, -, rfl⟩, hx⟩ | ⟨q, hq, hx⟩
      · exact .inl hx
      · exact .inr (ih E x (List.mem_flatMap.2 ⟨q, hq, hx⟩))
    | _ => exact ih _

theorem points_pass (is : List Nat) (ss : List Tok) (E : Env) (h : Tok.pass is ∈ ss) (i : Nat) (hi : i ∈ is) :
    i ∈ (points E ss).map (·.2) := by
  induction ss generalizing E with
  | nil => simp at h
  | cons t r ih =>
    cases t with
    | pass js =>
      simp only [points, List.map_append, List.mem_append, List.map_map]
      rcases List.mem_cons.1 h with e | h
      · cases e
        exact .inl (List.mem_map.2 ⟨i, hi, rfl⟩)
      · exact .inr (ih E h)
    | _ => exact ih _ (by simpa using h)

section
variable (E : Env) (rets : List String) (r : List Tok)
theorem shadowNames_uses (xs : List Name) : shadowNames E (xs.map .use ++ r) = shadowNames E r := by
  induction xs with
  | nil => rfl
  | cons x xs ih => simpa only [List.map_cons, List.cons_append, shadowNames] using ih

theorem shadowNames_rets : shadowNames E (useRets rets ++ r) = shadowNames E r := shadowNames_uses E r _

theorem shadowNames_outers (xs : List Name) : shadowNames E (xs.map .outer ++ r) = shadowNames E r := by
  induction xs with
  | nil => rfl
  | cons x xs ih => simpa only [List.map_cons, List.cons_append, shadowNames] using ih
end

/-! ### From a method to its body -/

theorem faithful_of {p : Plugin} {s : Sig} {params : List Var} {body : List Tok}
    (hm : method s p = ⟨params, true, body⟩) (hp : (names params).Nodup) (hn : (names s.args).Nodup)
    (hd : ∀ a ∈ s.args, a.name ∉ names params) (hbl : ∀ a ∈ s.args, a.name ≠ "_" ∧ a.name ≠ "")
    (ho : ownOk s.args.length ⟨[], params, s.args.length⟩ body)
    (hb : ∀ a ∈ s.args, a.name ∉ badNames ⟨[], params, s.args.length⟩ body)
    (hs : ∀ a ∈ s.args, a.name ∉ shadowNames ⟨[], params, s.args.length⟩ body)
    (ha : ∀ i, i < s.args.length → i ∈ (points ⟨[], params, s.args.length⟩ body).map (·.2)) : Faithful p s := by
  have hN : (names params ++ names s.args).Nodup := by
    rw [List.nodup_append]
    refine ⟨hp, hn, fun x hx y hy e => ?_⟩
    obtain ⟨v, hv, hv'⟩ := mem_names.1 hy
    exact hd v hv (by rw [hv', ← e]; exact hx)
  have hi : Inv s.args ⟨[], params, s.args.length⟩ :=
    ⟨Nat.le_refl _, fun i a _ h => hd a (List.mem_of_getElem? h)⟩
  have e := run_right s.args hn body _ ho hi hb (fun a h h' => hs a h (shadows_sub _ _ _ h')) hbl
  refine ⟨_, by rw [hm]; simp only [compile, if_true, hN]; exact e, ?_, ?_⟩
  · intro e he
    obtain ⟨q, -, rfl⟩ := List.mem_map.1 he
    rfl
  · intro i h
    obtain ⟨q, hq, rfl⟩ := List.mem_map.1 (ha i h)
    exact List.mem_map.2 ⟨q, hq, rfl⟩

theorem hard_of {p : Plugin} {s : Sig} {params : List Var} {body : List Tok}
    (hm : method s p = ⟨params, true, body⟩) (h : Faithful p s) :
    (names s.args).Nodup ∧ (∀ a ∈ s.args, a.name ∉ names params) ∧
      ∀ a ∈ s.args, a.name ∉ hardNames s.args.length ⟨[], params, s.args.length⟩ body := by
  obtain ⟨l, h1, h2, -⟩ := h
  rw [hm] at h1
  simp only [compile, if_true] at h1
  split at h1
  · rename_i hN
    rw [List.nodup_append] at hN
    exact ⟨hN.2.1, fun a ha hx => hN.2.2 _ hx _ (mem_names.2 ⟨a, ha, rfl⟩) rfl, run_hard s.args body _ l h1 h2⟩
  · cases h1

end Verif.Scope
