/-
When a method body is accepted, and what it hands on: a condition on the names it mentions.
-/
import Verif.Scope.Model
namespace Verif.Scope

def innerNames (E : Env) : List Name := names E.inner.flatten

/-- The body is in order by itself, whatever the arguments are called. -/
def ownOk (m : Nat) : Env → List Tok → Prop
  | _, [] => True
  | E, .use x :: r => (x ∈ innerNames E ∨ x ∈ names E.top) ∧ ownOk m E r
  | E, .outer x :: r => x ∉ innerNames E ∧ x ∉ names E.top ∧ ownOk m E r
  | E, .define xs :: r => (∃ v ∈ xs, v.name ∉ ownHere E) ∧ ownOk m (declare E xs) r
  | E, .var x :: r => x.name ∉ ownHere E ∧ ownOk m (declare E [x]) r
  | E, .opn :: r => ownOk m { E with inner := [] :: E.inner } r
  | E, .cls :: r => E.inner ≠ [] ∧ ownOk m { E with inner := E.inner.tail } r
  | E, .pass is :: r => (∀ i ∈ is, i < E.k) ∧ ownOk m E r
  | E, .arg i :: r => i = E.k ∧ i < m ∧ E.inner = [] ∧ ownOk m { E with k := i + 1 } r

/-- The names that arguments must avoid, besides those that would hide an argument. -/
def badNames : Env → List Tok → List Name
  | _, [] => []
  | E, .use _ :: r => badNames E r
  | E, .outer x :: r => x :: badNames E r
  | E, .define xs :: r => (if E.inner = [] then names xs else []) ++ badNames (declare E xs) r
  | E, .var x :: r => (if E.inner = [] then [x.name] else []) ++ badNames (declare E [x]) r
  | E, .opn :: r => badNames { E with inner := [] :: E.inner } r
  | E, .cls :: r => badNames { E with inner := E.inner.tail } r
  | E, .pass _ :: r => badNames E r
  | E, .arg i :: r => names E.top ++ badNames { E with k := i + 1 } r

/-- Where arguments are handed on. -/
def points : Env → List Tok → List (Env × Nat)
  | _, [] => []
  | E, .use _ :: r => points E r
  | E, .outer _ :: r => points E r
  | E, .define xs :: r => points (declare E xs) r
  | E, .var x :: r => points (declare E [x]) r
  | E, .opn :: r => points { E with inner := [] :: E.inner } r
  | E, .cls :: r => points { E with inner := E.inner.tail } r
  | E, .pass is :: r => is.map (fun i => (E, i)) ++ points E r
  | E, .arg i :: r => points { E with k := i + 1 } r

/-- No argument in scope has the name of one of the template's variables in the function's block. -/
def Inv (args : List Var) (E : Env) : Prop :=
  E.k ≤ args.length ∧ ∀ i a, i < E.k → args[i]? = some a → a.name ∉ names E.top

theorem mem_names {l : List Var} {x : Name} : x ∈ names l ↔ ∃ v ∈ l, v.name = x := by simp [names]

theorem same_index {args : List Var} (hn : (names args).Nodup) {i j : Nat} (hi : i < args.length) (hj : j < args.length)
    (h : args[i].name = args[j].name) : i = j := by
  have h1 : i < (names args).length := by simpa [names] using hi
  have h2 : j < (names args).length := by simpa [names] using hj
  exact (List.getElem_inj (h₀ := h1) (h₁ := h2) hn).1 (by simp [names, h])

theorem find_some_of_mem {l : List Var} {x : Name} (h : x ∈ names l) :
    ∃ v, l.find? (fun v => decide (v.name = x)) = some v ∧ v.name = x := by
  obtain ⟨v, hv, hx⟩ := mem_names.1 h
  cases e : l.find? (fun v => decide (v.name = x)) with
  | none => have := List.find?_eq_none.1 e v hv; simp [hx] at this
  | some w => exact ⟨w, rfl, by simpa using List.find?_some e⟩

theorem find_none_iff {l : List Var} {x : Name} :
    l.find? (fun v => decide (v.name = x)) = none ↔ x ∉ names l := by
  rw [List.find?_eq_none, mem_names]
  simp

theorem mem_take {args : List Var} {k : Nat} {x : Name} :
    x ∈ names (args.take k) ↔ ∃ i a, i < k ∧ args[i]? = some a ∧ a.name = x := by
  rw [mem_names]
  constructor
  · rintro ⟨v, hv, hx⟩
    obtain ⟨i, hi⟩ := List.mem_iff_getElem?.1 hv
    rw [List.getElem?_take] at hi
    split at hi
    · exact ⟨i, v, by assumption, hi, hx⟩
    · cases hi
  · rintro ⟨i, a, hi, ha, hx⟩
    refine ⟨a, List.mem_iff_getElem?.2 ⟨i, ?_⟩, hx⟩
    rw [List.getElem?_take, if_pos hi, ha]

theorem resolve_inner {args : List Var} {E : Env} {x : Name} (h : x ∈ innerNames E) :
    ∃ ty, resolve args E x = some (.own, ty) := by
  obtain ⟨v, e, -⟩ := find_some_of_mem h
  exact ⟨v.ty, by simp only [resolve, e]⟩

theorem resolve_top {args : List Var} {E : Env} {x : Name} (h : x ∈ innerNames E ∨ x ∈ names E.top) :
    ∃ ty, resolve args E x = some (.own, ty) := by
  by_cases hi : x ∈ innerNames E
  · exact resolve_inner hi
  · obtain ⟨v, e, -⟩ := find_some_of_mem (h.resolve_left hi)
    exact ⟨v.ty, by simp only [resolve, find_none_iff.2 hi, e]⟩

theorem resolve_none {args : List Var} {E : Env} {x : Name} (h1 : x ∉ innerNames E) (h2 : x ∉ names E.top)
    (h3 : x ∉ names (args.take E.k)) : resolve args E x = none := by
  have h4 : (args.take E.k).findIdx? (fun v => decide (v.name = x)) = none := by
    rw [List.findIdx?_eq_none_iff]
    intro v hv
    simp only [decide_eq_false_iff_not]
    intro e
    exact h3 (mem_names.2 ⟨v, hv, e⟩)
  simp only [resolve, find_none_iff.2 h1, find_none_iff.2 h2, h4]

theorem resolve_none_iff {args : List Var} {E : Env} {x : Name} (h : resolve args E x = none) :
    x ∉ names (args.take E.k) := by
  intro h3
  simp only [resolve] at h
  split at h
  · cases h
  · split at h
    · cases h
    · split at h
      · cases h
      · rename_i h4
        rw [List.findIdx?_eq_none_iff] at h4
        obtain ⟨v, hv, hx⟩ := mem_names.1 h3
        have := h4 v hv
        simp [hx] at this

theorem resolve_arg {args : List Var} {E : Env} {i : Nat} {a : Var} (hn : (names args).Nodup) (hi : i < E.k)
    (ha : args[i]? = some a) (h1 : a.name ∉ innerNames E) (h2 : a.name ∉ names E.top) :
    resolve args E a.name = some (.arg i, a.ty) := by
  have hl : i < args.length := by
    rcases Nat.lt_or_ge i args.length with h | h
    · exact h
    · rw [List.getElem?_eq_none h] at ha; cases ha
  have h4 : (args.take E.k).findIdx? (fun v => decide (v.name = a.name)) = some i := by
    rw [List.findIdx?_eq_some_iff_getElem]
    have ha' : args[i] = a := by rw [List.getElem?_eq_getElem hl] at ha; exact Option.some.inj ha
    refine ⟨by rw [List.length_take]; omega, ?_, ?_⟩
    · simp [List.getElem_take, ha']
    · intro j hj
      simp only [List.getElem_take, decide_eq_true_eq]
      intro e
      have hjl : j < args.length := by omega
      have := same_index hn hjl hl (by rw [ha']; exact e)
      omega
  simp only [resolve, find_none_iff.2 h1, find_none_iff.2 h2, h4]
  simp [ha]

theorem resolve_is_arg {args : List Var} {E : Env} {x : Name} {i : Nat} {ty : String}
    (h : resolve args E x = some (.arg i, ty)) : x ∉ innerNames E := by
  intro hx
  obtain ⟨t, e⟩ := resolve_inner (args := args) hx
  rw [e] at h
  cases h

theorem here_top {E : Env} (h : E.inner = []) : ownHere E = names E.top := by simp [ownHere, h]

theorem argHere_none {args : List Var} {E : Env} {x : Name} (h : E.inner = [] → x ∉ names (args.take E.k)) :
    argHere args E x = none := by
  unfold argHere
  split
  · rename_i e; exact find_none_iff.2 (h e)
  · rfl

theorem argHere_iff {args : List Var} {E : Env} {x : Name} (he : E.inner = []) (h : argHere args E x = none) :
    x ∉ names (args.take E.k) := by
  unfold argHere at h
  rw [he] at h
  exact find_none_iff.1 h

theorem declare_k (E : Env) (xs : List Var) : (declare E xs).k = E.k := by
  unfold declare; split <;> rfl

theorem declare_top (E : Env) (xs : List Var) (x : Name) :
    x ∈ names (declare E xs).top ↔ x ∈ names E.top ∨ (E.inner = [] ∧ x ∈ names xs) := by
  cases he : E.inner with
  | cons b bs => simp [declare, he]
  | nil =>
    simp only [declare, he, mem_names, List.mem_append, List.mem_filter, here_top he, decide_not, Bool.not_eq_true',
      decide_eq_false_iff_not, true_and]
    constructor
    · rintro ⟨v, hv | ⟨hv, -⟩, hx⟩
      · exact .inl ⟨v, hv, hx⟩
      · exact .inr ⟨v, hv, hx⟩
    · rintro (⟨v, hv, hx⟩ | ⟨v, hv, hx⟩)
      · exact ⟨v, .inl hv, hx⟩
      · by_cases hm : ∃ w ∈ E.top, w.name = v.name
        · obtain ⟨w, hw, e⟩ := hm
          exact ⟨w, .inl hw, e.trans hx⟩
        · exact ⟨v, .inr ⟨hv, hm⟩, hx⟩

theorem inv_declare {args : List Var} {E : Env} {xs : List Var} (h : Inv args E)
    (hx : E.inner = [] → ∀ a ∈ args, a.name ∉ names xs) : Inv args (declare E xs) := by
  refine ⟨by rw [declare_k]; exact h.1, fun i a hi ha hm => ?_⟩
  rw [declare_k] at hi
  rcases (declare_top _ _ _).1 hm with h1 | ⟨h1, h2⟩
  · exact h.2 i a hi ha h1
  · exact hx h1 a (List.mem_of_getElem? ha) h2

theorem mem_take_of {args : List Var} {k : Nat} {x : Name} (h : x ∈ names (args.take k)) : ∃ a ∈ args, a.name = x := by
  obtain ⟨i, a, -, ha, e⟩ := mem_take.1 h
  exact ⟨a, List.mem_of_getElem? ha, e⟩

/-- If the arguments avoid the names, the body is accepted; `f` says what is handed on. -/
theorem run_ok (args : List Var) (hn : (names args).Nodup) (f : Env × Nat → Bind) (ss : List Tok) (E : Env)
    (ho : ownOk args.length E ss) (hi : Inv args E) (hb : ∀ a ∈ args, a.name ∉ badNames E ss)
    (hp : ∀ q ∈ points E ss, Inv args q.1 → q.2 < q.1.k → handOn args q.1 q.2 = some (f q)) :
    run args E ss = some ((points E ss).map fun q => (q.2, f q)) := by
  induction ss generalizing E with
  | nil => rfl
  | cons t r ih =>
    have hav : ∀ x, (∀ a ∈ args, a.name ≠ x) → x ∉ names (args.take E.k) := by
      intro x hx hm
      obtain ⟨a, ha, e⟩ := mem_take_of hm
      exact hx a ha e
    cases t with
    | use x =>
      obtain ⟨h1, h2⟩ := ho
      obtain ⟨ty, e⟩ := resolve_top (args := args) h1
      simp only [run, e, points]
      exact ih E h2 hi hb hp
    | outer x =>
      obtain ⟨h1, h2, h3⟩ := ho
      simp only [badNames, List.mem_cons, not_or] at hb
      have e := resolve_none h1 h2 (hav x fun a ha => (hb a ha).1)
      simp only [run, e, Option.isNone_none, if_true, points]
      exact ih E h3 hi (fun a ha => (hb a ha).2) hp
    | define xs =>
      obtain ⟨⟨v, hv, h1⟩, h2⟩ := ho
      simp only [badNames, List.mem_append, not_or] at hb
      have hx : E.inner = [] → ∀ a ∈ args, a.name ∉ names xs := by
        intro he a ha
        have := (hb a ha).1
        rwa [if_pos he] at this
      have hh : ∀ w ∈ xs, argHere args E w.name = none := by
        intro w hw
        refine argHere_none fun he => hav _ fun a ha e => hx he a ha ?_
        rw [e]; exact mem_names.2 ⟨w, hw, rfl⟩
      have e : mayDefine args E xs = true := by
        simp only [mayDefine, Bool.and_eq_true, List.any_eq_true, List.all_eq_true]
        refine ⟨⟨v, hv, by simp [h1, hh v hv]⟩, fun w hw => by simp [hh w hw]⟩
      simp only [run, e, if_true, points]
      exact ih _ h2 (inv_declare hi hx) (fun a ha => (hb a ha).2) hp
    | var x =>
      obtain ⟨h1, h2⟩ := ho
      simp only [badNames, List.mem_append, not_or] at hb
      have hx : E.inner = [] → ∀ a ∈ args, a.name ∉ names [x] := by
        intro he a ha
        have := (hb a ha).1
        rw [if_pos he] at this
        simpa [names] using this
      have hh : argHere args E x.name = none := by
        refine argHere_none fun he => hav _ fun a ha e => hx he a ha ?_
        simp [names, e]
      simp only [run, h1, hh, Option.isSome_none, Bool.false_eq_true, or_self, if_false, points]
      exact ih _ h2 (inv_declare hi hx) (fun a ha => (hb a ha).2) hp
    | opn => exact ih _ ho hi hb hp
    | cls =>
      obtain ⟨h1, h2⟩ := ho
      cases he : E.inner with
      | nil => exact absurd he h1
      | cons b bs =>
        simp only [badNames, points, he, List.tail_cons] at hb hp h2
        simp only [run, he, points, List.tail_cons]
        exact ih _ h2 hi hb hp
    | pass is =>
      obtain ⟨h1, h2⟩ := ho
      simp only [badNames] at hb
      simp only [points, List.mem_append, List.mem_map] at hp
      have e : (is.mapM fun i => (handOn args E i).map fun b => (i, b)) = some (is.map fun i => (i, f (E, i))) := by
        have h3 : ∀ i ∈ is, handOn args E i = some (f (E, i)) :=
          fun i hii => hp (E, i) (.inl ⟨i, hii, rfl⟩) hi (h1 i hii)
        clear hp h1
        induction is with
        | nil => rfl
        | cons i is ihi =>
          simp only [List.mapM_cons, h3 i List.mem_cons_self, ihi fun j hj => h3 j (List.mem_cons_of_mem _ hj),
            Option.map_some, List.map_cons]
          rfl
      simp only [run, e, ih E h2 hi hb fun q hq => hp q (.inr hq), points, Option.map_some, List.map_append, List.map_map]
      rfl
    | arg i =>
      obtain ⟨h1, h2, h3, h4⟩ := ho
      simp only [badNames, List.mem_append, not_or] at hb
      have ha : args[i]? = some args[i] := List.getElem?_eq_getElem h2
      have hm : args[i] ∈ args := List.getElem_mem h2
      have hh : argHere args E args[i].name = none := by
        refine argHere_none fun _ hm' => ?_
        obtain ⟨j, a, hj, hja, e⟩ := mem_take.1 hm'
        have hjl : j < args.length := by omega
        rw [List.getElem?_eq_getElem hjl] at hja
        have hja' := Option.some.inj hja
        have := same_index hn hjl h2 (by rw [hja']; exact e)
        omega
      have hc : ¬ (args[i].name ∈ ownHere E ∨ (argHere args E args[i].name).isSome = true ∨ i ≠ E.k ∨ E.inner ≠ []) := by
        rw [hh, here_top h3]
        simp only [Option.isSome_none, Bool.false_eq_true, false_or, not_or, Decidable.not_not]
        exact ⟨(hb _ hm).1, h1, h3⟩
      simp only [run, ha, if_neg hc, points]
      refine ih _ h4 ⟨Nat.succ_le_of_lt h2, fun j a hj hja => ?_⟩ (fun a ha => (hb a ha).2) hp
      exact (hb a (List.mem_of_getElem? hja)).1

/-- The names that would hide an argument where it is handed on. -/
def shadows (E : Env) (ss : List Tok) : List Name := (points E ss).flatMap fun q => innerNames q.1

theorem handOn_arg {args : List Var} (hn : (names args).Nodup) {E : Env} {i : Nat} (hi : Inv args E) (hk : i < E.k)
    (hb : ∀ a ∈ args, a.name ≠ "_" ∧ a.name ≠ "") (hs : ∀ a, args[i]? = some a → a.name ∉ innerNames E) :
    handOn args E i = some (.arg i) := by
  have hl : i < args.length := Nat.lt_of_lt_of_le hk hi.1
  have ha : args[i]? = some args[i] := List.getElem?_eq_getElem hl
  have h1 := hb _ (List.getElem_mem hl)
  simp only [handOn, ha, h1.1, h1.2, or_self, if_false,
    resolve_arg hn hk ha (hs _ ha) (hi.2 i _ hk ha), if_true]

/-- If the arguments avoid all names that are mentioned, each is handed on as it is. -/
theorem run_right (args : List Var) (hn : (names args).Nodup) (ss : List Tok) (E : Env)
    (ho : ownOk args.length E ss) (hi : Inv args E) (hb : ∀ a ∈ args, a.name ∉ badNames E ss)
    (hs : ∀ a ∈ args, a.name ∉ shadows E ss) (hbl : ∀ a ∈ args, a.name ≠ "_" ∧ a.name ≠ "") :
    run args E ss = some ((points E ss).map fun q => (q.2, .arg q.2)) := by
  refine run_ok args hn (fun q => .arg q.2) ss E ho hi hb fun q hq h1 h2 => ?_
  refine handOn_arg hn h1 h2 hbl fun a ha hm => ?_
  exact hs a (List.mem_of_getElem? ha) (List.mem_flatMap.2 ⟨q, hq, hm⟩)

/-- The names that no argument can have if all `n` are to be handed on as they are. -/
def hardNames (n : Nat) : Env → List Tok → List Name
  | _, [] => []
  | E, .use _ :: r => hardNames n E r
  | E, .outer x :: r => (if E.k = n then [x] else []) ++ hardNames n E r
  | E, .define xs :: r =>
    (if E.k = n ∧ E.inner = [] then
      names (xs.filter fun v => decide (v.name ∉ names E.top) && xs.all fun w => decide (w.name = v.name ∨ w.name ∈ names E.top)) else []) ++
      hardNames n (declare E xs) r
  | E, .var x :: r => (if E.k = n ∧ E.inner = [] then [x.name] else []) ++ hardNames n (declare E [x]) r
  | E, .opn :: r => hardNames n { E with inner := [] :: E.inner } r
  | E, .cls :: r => hardNames n { E with inner := E.inner.tail } r
  | E, .pass is :: r => (if is = List.range n then innerNames E ++ ["_", ""] else []) ++ hardNames n E r
  | E, .arg i :: r => hardNames n { E with k := i + 1 } r

def Right (l : List (Nat × Bind)) : Prop := ∀ p ∈ l, p.2 = .arg p.1

theorem mapM_right {args : List Var} {E : Env} {is : List Nat} {l : List (Nat × Bind)}
    (h : (is.mapM fun i => (handOn args E i).map fun b => (i, b)) = some l) (hr : Right l) :
    ∀ i ∈ is, handOn args E i = some (.arg i) := by
  induction is generalizing l with
  | nil => simp
  | cons i is ih =>
    simp only [List.mapM_cons] at h
    cases e : handOn args E i with
    | none => rw [e] at h; cases h
    | some b =>
      cases e' : (is.mapM fun i => (handOn args E i).map fun b => (i, b)) with
      | none => rw [e, e'] at h; cases h
      | some l' =>
        rw [e, e'] at h
        cases h
        have h1 := hr (i, b) List.mem_cons_self
        intro j hj
        rcases List.mem_cons.1 hj with rfl | hj
        · rw [e]; exact congrArg some h1
        · exact ih e' (fun p hp => hr p (List.mem_cons_of_mem _ hp)) j hj

/-- If everything is handed on as it is, no argument has one of the names. -/
theorem run_hard (args : List Var) (ss : List Tok) (E : Env) (l : List (Nat × Bind)) (h : run args E ss = some l)
    (hr : Right l) : ∀ a ∈ args, a.name ∉ hardNames args.length E ss := by
  induction ss generalizing E l with
  | nil => simp [hardNames]
  | cons t r ih =>
    intro a ha
    have hav : E.k = args.length → ∀ x, x ∉ names (args.take E.k) → a.name ≠ x := by
      intro hk x hx e
      rw [hk, List.take_length] at hx
      exact hx (mem_names.2 ⟨a, ha, e⟩)
    cases t with
    | use x =>
      simp only [run] at h
      split at h
      · exact ih E l h hr a ha
      · cases h
    | outer x =>
      simp only [run] at h
      split at h
      · rename_i e
        simp only [hardNames, List.mem_append, not_or]
        refine ⟨?_, ih E l h hr a ha⟩
        split
        · rename_i hk
          simpa using hav hk x (resolve_none_iff (Option.isNone_iff_eq_none.1 e))
        · simp
      · cases h
    | define xs =>
      simp only [run] at h
      split at h
      · rename_i e
        simp only [hardNames, List.mem_append, not_or]
        refine ⟨?_, ih _ l h hr a ha⟩
        split
        · rename_i hk
          obtain ⟨hk, he⟩ := hk
          intro hm
          obtain ⟨v, hv, ev⟩ := mem_names.1 hm
          simp only [List.mem_filter, Bool.and_eq_true, decide_eq_true_eq, List.all_eq_true] at hv
          obtain ⟨hv1, hv2, hv3⟩ := hv
          simp only [mayDefine, Bool.and_eq_true, List.any_eq_true, decide_eq_true_eq, Option.isNone_iff_eq_none] at e
          obtain ⟨⟨w, hw, hw1, hw2⟩, -⟩ := e
          rw [here_top he] at hw1
          have := (hv3 w hw).resolve_right hw1
          exact hav hk w.name (argHere_iff he hw2) (by rw [this]; exact ev.symm)
        · simp
      · cases h
    | var x =>
      simp only [run] at h
      split at h
      · cases h
      · rename_i e
        simp only [hardNames, List.mem_append, not_or]
        refine ⟨?_, ih _ l h hr a ha⟩
        split
        · rename_i hk
          simp only [not_or, Bool.not_eq_true, Option.isSome_eq_false_iff, Option.isNone_iff_eq_none] at e
          simpa using hav hk.1 x.name (argHere_iff hk.2 e.2)
        · simp
    | opn => exact ih _ l h hr a ha
    | cls =>
      simp only [run] at h
      split at h
      · cases h
      · rename_i b bs he
        simp only [hardNames, he, List.tail_cons]
        exact ih _ l h hr a ha
    | pass is =>
      simp only [run] at h
      split at h
      · cases h
      · rename_i l1 e1
        cases e2 : run args E r with
        | none => rw [e2] at h; cases h
        | some l2 =>
          rw [e2] at h
          cases h
          simp only [hardNames, List.mem_append, not_or]
          refine ⟨?_, ih _ l2 e2 (fun p hp => hr p (List.mem_append_right _ hp)) a ha⟩
          split
          · rename_i his
            have h3 := mapM_right e1 fun p hp => hr p (List.mem_append_left _ hp)
            obtain ⟨i, hi⟩ := List.mem_iff_getElem?.1 ha
            have hl : i < args.length := by
              rcases Nat.lt_or_ge i args.length with h | h
              · exact h
              · rw [List.getElem?_eq_none h] at hi; cases hi
            have h4 := h3 i (by rw [his]; exact List.mem_range.2 hl)
            simp only [handOn, hi] at h4
            split at h4
            · cases h4
            · rename_i hb
              split at h4
              · rename_i b ty e
                split at h4
                · cases h4
                  have := resolve_is_arg e
                  simp only [not_or] at hb
                  simp [this, hb.1, hb.2]
                · cases h4
              · cases h4
          · simp
    | arg i =>
      simp only [run] at h
      split at h
      · cases h
      · split at h
        · cases h
        · exact ih _ l h hr a ha

/-- Arguments that the body declares itself have different names. -/
theorem run_nodup (args : List Var) (ss : List Tok) (E : Env) (l : List (Nat × Bind)) (h : run args E ss = some l)
    (hk : (names (args.take E.k)).Nodup) (j : Nat) (hj : Tok.arg j ∈ ss) :
    (names (args.take (j + 1))).Nodup := by
  induction ss generalizing E l with
  | nil => simp at hj
  | cons t r ih =>
    cases t with
    | use x =>
      simp only [run] at h
      split at h
      · exact ih E l h hk (by simpa using hj)
      · cases h
    | outer x =>
      simp only [run] at h
      split at h
      · exact ih E l h hk (by simpa using hj)
      · cases h
    | define xs =>
      simp only [run] at h
      split at h
      · exact ih _ l h (by rw [declare_k]; exact hk) (by simpa using hj)
      · cases h
    | var x =>
      simp only [run] at h
      split at h
      · cases h
      · exact ih _ l h (by rw [declare_k]; exact hk) (by simpa using hj)
    | opn => exact ih _ l h hk (by simpa using hj)
    | cls =>
      simp only [run] at h
      split at h
      · cases h
      · exact ih _ l h hk (by simpa using hj)
    | pass is =>
      simp only [run] at h
      split at h
      · cases h
      · cases e2 : run args E r with
        | none => rw [e2] at h; cases h
        | some l2 => exact ih E l2 e2 hk (by simpa using hj)
    | arg i =>
      simp only [run] at h
      split at h
      · cases h
      · rename_i a ha
        split at h
        · cases h
        · rename_i hc
          simp only [not_or, Decidable.not_not, Bool.not_eq_true, Option.isSome_eq_false_iff,
            Option.isNone_iff_eq_none] at hc
          obtain ⟨-, h2, h3, h4⟩ := hc
          have h5 := argHere_iff h4 h2
          have h6 : (names (args.take (i + 1))).Nodup := by
            rw [List.take_add_one, ha]
            simp only [names, Option.toList_some, List.map_append, List.map_cons, List.map_nil] at hk h5 ⊢
            subst h3
            rw [List.nodup_append]
            refine ⟨hk, by simp, fun x hx y hy e => ?_⟩
            simp only [List.mem_singleton] at hy
            subst hy
            subst e
            exact h5 hx
          rcases List.mem_cons.1 hj with e | hj
          · cases e; exact h6
          · exact ih _ l h h6 hj

end Verif.Scope
