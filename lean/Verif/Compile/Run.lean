import Verif.Compile.Family
/-
What a wiring spec holds after any declarations: for every service what the declarations about it give, for every namespace what the
services' declarations put into it.
-/
namespace Verif.Compile
open Verif.Wiring (Name Spec Op Ptr Payload createPointer GoMap Def nextOf)

/-! ### Children -/

/-- The child that a declaration gives to a namespace. -/
def newKids (U : Name) (f : Fam) : Decl → List (Name × Name)
  | .addTo _ x _ => match f.ptr with
    | none => [(x, U)]
    | some p => [(x, p.dstHead)]
  | _ => []

theorem step_kids (U : Name) (f : Fam) (d : Decl) : (f.step U d).kids = f.kids ++ newKids U f d := by
  cases d with
  | service svc ctor args => simp [Fam.step, newKids, Fam.addSrc, Fam.define, Fam.alias, Fam.setPtr]
  | wrapClient svc s => cases e : f.ptr <;> simp [Fam.step, newKids, e, Fam.addSrc, Fam.define, Fam.alias, Fam.setPtr]
  | wrapServer svc s => cases e : f.ptr <;> simp [Fam.step, newKids, e, Fam.define, Fam.alias, Fam.setPtr]
  | rpc svc => cases e : f.ptr <;> simp [Fam.step, newKids, e, Fam.addSrc, Fam.define, Fam.alias, Fam.setPtr]
  | backend svc => simp [Fam.step, newKids, Fam.addSrc, Fam.define, Fam.alias, Fam.setPtr]
  | addTo l x svc => cases e : f.ptr <;> simp [Fam.step, newKids, e, Fam.define, Fam.setPtr]
  | space x l => simp [Fam.step, newKids]

/-- The wiring spec changed, but not in the family and the children of `x`. -/
structure Same (x : Name) (s s' : WSpec) : Prop where
  kids : kids s' x = kids s x
  disj : Disj s → Disj s'
  tab : ∀ n, fam n = x.toList → tab s' n = tab s n

theorem Same.refl (x : Name) (s : WSpec) : Same x s s := ⟨rfl, fun h => h, fun _ _ => rfl⟩

theorem Same.step {x : Name} (hx : Dotless x) {s s' : WSpec} (h : Same x s s') {op : Op Ty Kind Prop'} {n : Name} (ho : op.name = n)
    (hn : fam n ≠ x.toList) : Same x s (s'.step op) := by
  subst ho
  refine ⟨?_, fun d => disj_step (h.disj d) op, fun m hm => ?_⟩
  · rw [kids_other s' op (fun e => hn (by rw [e]; exact fam_self hx))]
    exact h.kids
  · rw [tab_other s' op (fun e => hn (by rw [e]; exact hm))]
    exact h.tab m hm

theorem Same.define {x : Name} (hx : Dotless x) {s s' : WSpec} {n : Name} {ty : Ty} {k : Kind} {st : Prop'} (hn : fam n ≠ x.toList)
    (h : Same x s s') : Same x s (s'.step (.define n ty k st)) := h.step hx (op := .define n ty k st) rfl hn

theorem Same.alias {x : Name} (hx : Dotless x) {s s' : WSpec} {n q : Name} (hn : fam n ≠ x.toList) (h : Same x s s') :
    Same x s (s'.step (.alias n q)) := h.step hx (op := .alias n q) rfl hn

theorem Same.set {x : Name} (hx : Dotless x) {s s' : WSpec} {n key : Name} {v : Prop'} (hn : fam n ≠ x.toList) (h : Same x s s') :
    Same x s (s'.step (.setProperty n key v)) := h.step hx (op := .setProperty n key v) rfl hn

theorem Same.add {x : Name} (hx : Dotless x) {s s' : WSpec} {n key : Name} {v : Prop'} (hn : fam n ≠ x.toList) (h : Same x s s') :
    Same x s (s'.step (.addProperty n key v)) := h.step hx (op := .addProperty n key v) rfl hn

theorem same_service {U : Name} (hU : Dotless U) {w : Wired} {x : Name} (hx : Dotless x) (hne : x ≠ U) (ctor : List Bool)
    (args : List Name) : Same x w.spec (w.step (.service U ctor args)).spec := by
  have hf : ∀ n, fam n = U.toList → fam n ≠ x.toList := fun n e e' => hne (String.toList_inj.1 (e'.symm.trans e))
  have e1 : ((w.spec.step (.define (U ++ ".handler") (.level 0) (.handler U ctor args) .stack)).step
      (.alias (U ++ ".dst") (U ++ ".handler"))).getAlias (U ++ ".dst") = some (U ++ ".handler") := by
    rw [Wiring.getAlias_alias, if_pos rfl]
  simp only [Wired.step, createPointer, Wiring.requireUniqueness, e1, Wired.addSrc, Ptr.addSrc, payload, Wired.define, Wired.setPtr,
    ← show nextOf (U ++ ".client") = U ++ ".client" ++ ".ptr.src.next" from rfl]
  have n1 := hf _ (fam_dot hU ".handler" (by decide))
  have n2 := hf _ (fam_dot hU ".dst" (by decide))
  have n3 := hf _ ((fam_append (s := ".visibility") (dots_mem (T := U) (s := ".handler") (by decide))).trans (fam_dot hU ".handler" (by decide)))
  have n4 := hf _ ((fam_append (s := ".uniqueness_check") (dots_mem (T := U) (s := ".handler") (by decide))).trans (fam_dot hU ".handler" (by decide)))
  have n5 := hf _ (fam_dot hU ".src" (by decide))
  have n6 := hf _ (fam_self hU)
  have n7 := hf _ (fam_dot hU ".client" (by decide))
  have n8 := hf _ (fam_next (dots_mem (T := U) (s := ".client") (by decide)) (fam_dot hU ".client" (by decide)))
  clear e1
  generalize nextOf (U ++ ".client") = nx at *
  generalize U ++ ".client" = cl at *
  generalize U ++ ".src" = sr at *
  generalize U ++ ".dst" = ds at *
  generalize U ++ ".handler" = hh at *
  generalize hh ++ ".visibility" = vv at *
  generalize hh ++ ".uniqueness_check" = uu at *
  refine Same.define hx n7 ?_
  refine Same.alias hx n8 ?_
  refine Same.alias hx n5 ?_
  refine Same.set hx n6 ?_
  refine Same.define hx n6 ?_
  refine Same.alias hx n5 ?_
  refine Same.alias hx n2 ?_
  refine Same.define hx n4 ?_
  refine Same.define hx n3 ?_
  refine Same.alias hx n2 ?_
  refine Same.define hx n1 ?_
  exact Same.refl x _

theorem same_backend {U : Name} (hU : Dotless U) {w : Wired} {x : Name} (hx : Dotless x) (hne : x ≠ U) :
    Same x w.spec (w.step (.backend U)).spec := by
  have hf : ∀ n, fam n = U.toList → fam n ≠ x.toList := fun n e e' => hne (String.toList_inj.1 (e'.symm.trans e))
  have e1 : ((w.spec.step (.define (U ++ ".ctr") (.level 2) (.container (U ++ ".addr")) .stack)).step
      (.alias (U ++ ".dst") (U ++ ".ctr"))).getAlias (U ++ ".dst") = some (U ++ ".ctr") := by rw [Wiring.getAlias_alias, if_pos rfl]
  simp only [Wired.step, createPointer, Wiring.requireUniqueness, e1, Wired.addSrc, Ptr.addSrc, Ptr.addAddr, Ptr.addDst, if_true, payload,
    Wired.define, Wired.setPtr, ← show nextOf (U ++ ".client") = U ++ ".client" ++ ".ptr.src.next" from rfl]
  have n1 := hf _ (fam_dot hU ".ctr" (by decide))
  have n2 := hf _ (fam_dot hU ".dst" (by decide))
  have n3 := hf _ ((fam_append (s := ".visibility") (dots_mem (T := U) (s := ".ctr") (by decide))).trans (fam_dot hU ".ctr" (by decide)))
  have n4 := hf _ ((fam_append (s := ".uniqueness_check") (dots_mem (T := U) (s := ".ctr") (by decide))).trans (fam_dot hU ".ctr" (by decide)))
  have n5 := hf _ (fam_dot hU ".src" (by decide))
  have n6 := hf _ (fam_self hU)
  have n7 := hf _ (fam_dot hU ".client" (by decide))
  have n8 := hf _ (fam_next (dots_mem (T := U) (s := ".client") (by decide)) (fam_dot hU ".client" (by decide)))
  have n9 := hf _ (fam_dot hU ".addr" (by decide))
  have n10 : fam (bindName (U ++ ".addr")) ≠ x.toList := by rw [bindName_ctr]; exact hf _ (fam_dot hU ".bind_addr" (by decide))
  have n11 : fam (dialName (U ++ ".addr")) ≠ x.toList := by rw [dialName_ctr]; exact hf _ (fam_dot hU ".dial_addr" (by decide))
  clear e1
  generalize bindName (U ++ ".addr") = bn at *
  generalize dialName (U ++ ".addr") = dn at *
  generalize U ++ ".addr" = addr at *
  generalize nextOf (U ++ ".client") = nx at *
  generalize U ++ ".client" = cl at *
  generalize U ++ ".src" = sr at *
  generalize U ++ ".dst" = ds at *
  generalize U ++ ".ctr" = hh at *
  generalize hh ++ ".visibility" = vv at *
  generalize hh ++ ".uniqueness_check" = uu at *
  refine Same.define hx n7 ?_
  refine Same.alias hx n8 ?_
  refine Same.alias hx n5 ?_
  refine Same.alias hx n5 ?_
  refine Same.alias hx n5 ?_
  refine Same.define hx n11 ?_
  refine Same.define hx n10 ?_
  refine Same.define hx n9 ?_
  refine Same.set hx n9 ?_
  refine Same.set hx n6 ?_
  refine Same.define hx n6 ?_
  refine Same.alias hx n5 ?_
  refine Same.alias hx n2 ?_
  refine Same.define hx n4 ?_
  refine Same.define hx n3 ?_
  refine Same.alias hx n2 ?_
  refine Same.define hx n1 ?_
  exact Same.refl x _

section
variable {U : Name} (hU : Dotless U) {w : Wired} {g : Fam} (hg : Sim U w g) {x : Name} (hx : Dotless x) (hne : x ≠ U)
include hU hg hx hne

theorem same_wrapClient (s : Name) : Same x w.spec (w.step (.wrapClient U s)).spec := by
  have hf : ∀ n, fam n = U.toList → fam n ≠ x.toList := fun n e e' => hne (String.toList_inj.1 (e'.symm.trans e))
  have hp := hg.getPtr
  cases e : g.ptr with
  | none => rw [e] at hp; simp only [Wired.step, hp]; exact Same.refl x _
  | some p =>
    rw [e] at hp
    have n1 := hf _ (hg.tail p e).1
    have n2 := hf _ (fam_sub hU s)
    have n3 := hf _ (fam_next (dot_mem U s) (fam_sub hU s))
    simp only [Wired.step, hp, Wired.addSrc, Ptr.addSrc, Wired.define, Wired.setPtr]
    refine Same.define hx n2 ?_
    refine Same.alias hx n3 ?_
    refine Same.alias hx n1 ?_
    exact Same.refl x _

theorem same_wrapServer (s : Name) : Same x w.spec (w.step (.wrapServer U s)).spec := by
  have hf : ∀ n, fam n = U.toList → fam n ≠ x.toList := fun n e e' => hne (String.toList_inj.1 (e'.symm.trans e))
  have hp := hg.getPtr
  cases e : g.ptr with
  | none => rw [e] at hp; simp only [Wired.step, hp]; exact Same.refl x _
  | some p =>
    rw [e] at hp
    have n1 := hf _ (hg.tail p e).1
    have n2 := hf _ (fam_sub hU s)
    simp only [Wired.step, hp, Ptr.addDst, if_true, Wired.define, Wired.setPtr]
    refine Same.define hx n2 ?_
    refine Same.alias hx n1 ?_
    exact Same.refl x _

theorem same_rpc (pr : Proto) : Same x w.spec (w.step (.rpc pr U)).spec := by
  have hf : ∀ n, fam n = U.toList → fam n ≠ x.toList := fun n e e' => hne (String.toList_inj.1 (e'.symm.trans e))
  have hp := hg.getPtr
  cases e : g.ptr with
  | none => rw [e] at hp; simp only [Wired.step, hp]; exact Same.refl x _
  | some p =>
    rw [e] at hp
    have n1 := hf _ (hg.tail p e).1
    have n2 := hf _ (fam_dot hU pr.addr (by cases pr <;> decide))
    have n3 : fam (bindName (U ++ pr.addr)) ≠ x.toList := by
      rw [bindName_addr]; exact hf _ (fam_dot hU (pr.stem ++ ".bind_addr") (by cases pr <;> decide))
    have n4 : fam (dialName (U ++ pr.addr)) ≠ x.toList := by
      rw [dialName_addr]; exact hf _ (fam_dot hU (pr.stem ++ ".dial_addr") (by cases pr <;> decide))
    have n5 := hf _ (fam_dot hU pr.client (by cases pr <;> decide))
    have n6 := hf _ (fam_next (dots_mem (T := U) (s := pr.client) pr.client_dot) (fam_dot hU pr.client (by cases pr <;> decide)))
    have n7 := hf _ (fam_dot hU pr.server (by cases pr <;> decide))
    simp only [Wired.step, hp, Wired.addSrc, Ptr.addSrc, Ptr.addAddr, Ptr.addDst, if_true, Wired.define, Wired.setPtr, pointsTo_new,
      ← show nextOf (U ++ pr.client) = U ++ pr.client ++ ".ptr.src.next" from rfl]
    generalize bindName (U ++ pr.addr) = bn at *
    generalize dialName (U ++ pr.addr) = dn at *
    generalize nextOf (U ++ pr.client) = nx at *
    generalize U ++ pr.addr = addr at *
    generalize U ++ pr.client = cl at *
    generalize U ++ pr.server = sv at *
    refine Same.define hx n7 ?_
    refine Same.alias hx n6 ?_
    refine Same.alias hx n6 ?_
    refine Same.define hx n5 ?_
    refine Same.alias hx n6 ?_
    refine Same.alias hx n1 ?_
    refine Same.define hx n4 ?_
    refine Same.define hx n3 ?_
    refine Same.define hx n2 ?_
    refine Same.set hx n2 ?_
    exact Same.refl x _

/-- A declaration about a service changes nothing about a namespace, except that it can add a child. -/
theorem same_step {d : Decl} (ha : d.about = some U) :
    ∃ s', Same x w.spec s' ∧ ((w.step d).spec = s' ∧ newKids U g d = [] ∨
      ∃ y c, (w.step d).spec = s'.step (.addProperty y "Children" (.child c)) ∧ newKids U g d = [(y, c)] ∧ ∃ l, d = .addTo l y U) := by
  cases d with
  | space y l => cases ha
  | service svc ctor args => cases ha; exact ⟨_, same_service hU hx hne ctor args, .inl ⟨rfl, rfl⟩⟩
  | wrapClient svc s => cases ha; exact ⟨_, same_wrapClient hU hg hx hne s, .inl ⟨rfl, rfl⟩⟩
  | wrapServer svc s => cases ha; exact ⟨_, same_wrapServer hU hg hx hne s, .inl ⟨rfl, rfl⟩⟩
  | rpc pr svc => cases ha; exact ⟨_, same_rpc hU hg hx hne pr, .inl ⟨rfl, rfl⟩⟩
  | backend svc => cases ha; exact ⟨_, same_backend hU hx hne, .inl ⟨rfl, rfl⟩⟩
  | addTo l y svc =>
    cases ha
    have hf : ∀ n, fam n = U.toList → fam n ≠ x.toList := fun n e e' => hne (String.toList_inj.1 (e'.symm.trans e))
    have hp := hg.getPtr
    cases e : g.ptr with
    | none =>
      rw [e] at hp
      refine ⟨w.spec, Same.refl x _, .inr ⟨y, U, ?_, ?_, l, rfl⟩⟩
      · simp only [Wired.step, hp]
      · simp only [newKids, e]
    | some p =>
      rw [e] at hp
      refine ⟨w.spec.step (.define (U ++ "." ++ y) (.level l) (.enter y p.dstHead) .stack),
        Same.define hx (hf _ (fam_sub hU y)) (Same.refl x _), .inr ⟨y, p.dstHead, ?_, ?_, l, rfl⟩⟩
      · simp only [Wired.step, hp, Ptr.addDst, Bool.false_eq_true, if_false, Wired.define, Wired.setPtr]
      · simp only [newKids, e]

theorem kids_step {d : Decl} (ha : d.about = some U) (c : Name) :
    c ∈ kids (w.step d).spec x ↔ c ∈ kids w.spec x ∨ (x, c) ∈ newKids U g d := by
  obtain ⟨s', hs, h | ⟨y, k, h1, h2, _⟩⟩ := same_step hU hg hx hne ha
  · rw [h.1, h.2, hs.kids]
    simp
  · rw [h1, h2]
    by_cases e : y = x
    · subst e
      rw [kids_add, hs.kids]
      simp
    · rw [kids_other s' _ (by exact e), hs.kids]
      simp only [List.mem_singleton, Prod.mk.injEq]
      constructor
      · exact .inl
      · rintro (h | h)
        · exact h
        · exact absurd h.1.symm e

theorem tab_step {d : Decl} (ha : d.about = some U) (hy : ∀ l y s, d = .addTo l y s → Dotless y) :
    (∀ n, fam n = x.toList → n ≠ x → tab (w.step d).spec n = tab w.spec n) ∧
    (∀ ty k, tab w.spec x = some (.node ty k) → tab (w.step d).spec x = some (.node ty k)) := by
  obtain ⟨s', hs, h | ⟨y, k, h1, _, l, hl⟩⟩ := same_step hU hg hx hne ha
  · rw [h.1]
    exact ⟨fun n hn _ => hs.tab n hn, fun ty k hk => (hs.tab x (fam_self hx)).trans hk⟩
  · rw [h1]
    refine ⟨fun n hn hne => ?_, fun ty k hk => ?_⟩
    · by_cases e : y = n
      · subst e
        refine absurd ?_ hne
        rw [fam_self (hy l y U hl)] at hn
        exact String.toList_inj.1 hn
      · rw [tab_other s' _ (by exact e)]
        exact hs.tab n hn
    · have hk' := (hs.tab x (fam_self hx)).trans hk
      by_cases e : y = x
      · subst e
        rw [tab_addProperty hk']
        exact hk'
      · rw [tab_other s' _ (by exact e)]
        exact hk'

end

theorem kids_space {w : Wired} (y : Name) (l : Nat) (x : Name) : kids (w.step (.space y l)).spec x = kids w.spec x := kids_define ..

/-! ### All declarations -/

theorem famOf_concat (T : Name) (ds : List Decl) (d : Decl) :
    famOf T (ds ++ [d]) = if d.about = some T then (famOf T ds).step T d else famOf T ds := by
  unfold famOf declsOf
  rw [List.filter_append]
  by_cases e : d.about = some T
  · rw [if_pos e, List.filter_cons_of_pos (by simp [e]), List.filter_nil, List.foldl_append]
    rfl
  · rw [if_neg e, List.filter_cons_of_neg (by simp [e]), List.filter_nil, List.append_nil]

theorem run_append (ds : List Decl) (d : Decl) : Wired.run (ds ++ [d]) = (Wired.run ds).step d := by
  simp [Wired.run, List.foldl_append]

/-- The names of services and namespaces have no dots, and none is both. -/
structure Tidy (xs : List Name) (ds : List Decl) : Prop where
  services : ∀ d ∈ ds, ∀ T, d.about = some T → Dotless T ∧ T ∉ xs
  entered : ∀ l x T, .addTo l x T ∈ ds → x ∈ xs
  spaces : ∀ x l, .space x l ∈ ds → x ∈ xs
  dotless : ∀ x ∈ xs, Dotless x

theorem Tidy.prefix {xs : List Name} {ds : List Decl} {d : Decl} (h : Tidy xs (ds ++ [d])) : Tidy xs ds :=
  ⟨fun d hd => h.services d (List.mem_append_left _ hd), fun l x T hd => h.entered l x T (List.mem_append_left _ hd),
    fun x l hd => h.spaces x l (List.mem_append_left _ hd), h.dotless⟩

theorem fam_ne {x T : Name} (hx : Dotless x) (h : x ≠ T) : fam x ≠ T.toList := by
  rw [fam_self hx]
  exact fun e => h (String.toList_inj.1 e)

theorem sim_empty (T : Name) : Sim T ⟨Spec.new, []⟩ Fam.empty := by
  refine ⟨⟨fun n h => rfl, fun n _ => rfl⟩, fun _ q => ?_, ?_, ?_, ?_⟩
  · simp [Spec.new, Spec.getProperty, GoMap.get]
  all_goals
    intro p e
    cases e

/-- Of every service, the wiring spec has what the declarations about it give. -/
theorem run_sim {xs : List Name} {ds : List Decl} (h : Tidy xs ds) : ∀ T, Dotless T → T ∉ xs → Sim T (Wired.run ds) (famOf T ds) := by
  induction ds using Wiring.concat_induction with
  | nil => intro T _ _; exact sim_empty T
  | append ds d ih =>
    have ih := ih h.prefix
    intro T hT hx
    rw [run_append, famOf_concat]
    have hy : ∀ l x s, d = .addTo l x s → fam x ≠ T.toList := by
      intro l x s e
      have hm : x ∈ xs := h.entered l x s (by rw [e]; simp)
      exact fam_ne (h.dotless x hm) (fun e => hx (by rw [← e]; exact hm))
    by_cases e : d.about = some T
    · rw [if_pos e]
      exact sim_own hT (ih T hT hx) e hy
    · rw [if_neg e]
      cases ha : d.about with
      | some U =>
        obtain ⟨hU, hUx⟩ := h.services d (by simp) U ha
        have hne : T ≠ U := fun e' => e (by rw [ha, e'])
        exact sim_other hT hU hne (ih T hT hx) (ih U hU hUx) ha hy
      | none =>
        cases d with
        | space x l =>
          have hm : x ∈ xs := h.spaces x l (by simp)
          exact sim_space hT (ih T hT hx) (fam_ne (h.dotless x hm) (fun e => hx (by rw [← e]; exact hm))) l
        | _ => cases ha

/-- A namespace has exactly the children that the declarations about services gave it. -/
theorem run_kids {xs : List Name} {ds : List Decl} (h : Tidy xs ds) {x : Name} (hx : x ∈ xs) (c : Name) :
    c ∈ kids (Wired.run ds).spec x ↔ ∃ T, (x, c) ∈ (famOf T ds).kids := by
  induction ds using Wiring.concat_induction with
  | nil => simp [Wired.run, kids, Spec.getProperties, Spec.new, GoMap.get, famOf, declsOf, Fam.empty]
  | append ds d ih =>
    have ih := ih h.prefix
    rw [run_append]
    cases ha : d.about with
    | none =>
      cases d with
      | space y l =>
        rw [kids_space, ih]
        simp only [famOf_concat, ha]
        simp
      | _ => cases ha
    | some U =>
      obtain ⟨hU, hUx⟩ := h.services d (by simp) U ha
      rw [kids_step hU (run_sim h.prefix U hU hUx) (h.dotless x hx) (fun e => hUx (by rw [← e]; exact hx)) ha, ih]
      constructor
      · rintro (⟨T, hT⟩ | hU)
        · refine ⟨T, ?_⟩
          rw [famOf_concat]
          split
          · rw [step_kids]; exact List.mem_append_left _ hT
          · exact hT
        · refine ⟨U, ?_⟩
          rw [famOf_concat, if_pos ha, step_kids]
          exact List.mem_append_right _ hU
      · rintro ⟨T, hT⟩
        rw [famOf_concat] at hT
        split at hT
        · next e =>
          have : T = U := by rw [ha] at e; exact (Option.some.inj e).symm
          subst this
          rw [step_kids] at hT
          rcases List.mem_append.1 hT with hT | hT
          · exact .inl ⟨_, hT⟩
          · exact .inr hT
        · exact .inl ⟨T, hT⟩

/-- A namespace's entry is the one that was declared, and there are no others in its family. -/
theorem run_spaces {xs : List Name} {ds : List Decl} (h : Tidy xs ds) {x : Name} (hx : x ∈ xs) :
    (∀ n, fam n = x.toList → n ≠ x → tab (Wired.run ds).spec n = none) ∧
    (∀ l, .space x l ∈ ds → ∃ l', .space x l' ∈ ds ∧ tab (Wired.run ds).spec x = some (.node (.level l') (some (.space l')))) ∧
    Disj (Wired.run ds).spec := by
  induction ds using Wiring.concat_induction with
  | nil => exact ⟨fun n _ _ => rfl, fun l hl => by simp at hl, fun n h => rfl⟩
  | append ds d ih =>
    obtain ⟨ih1, ih2, ih3⟩ := ih h.prefix
    rw [run_append]
    cases ha : d.about with
    | some U =>
      obtain ⟨hU, hUx⟩ := h.services d (by simp) U ha
      have hxU : x ≠ U := fun e => hUx (by rw [← e]; exact hx)
      obtain ⟨t1, t2⟩ := tab_step hU (run_sim h.prefix U hU hUx) (h.dotless x hx) hxU ha
        (fun l y s e => h.dotless y (h.entered l y s (by rw [e]; simp)))
      refine ⟨fun n hn hne => (t1 n hn hne).trans (ih1 n hn hne), ?_, ?_⟩
      · intro l hl
        rcases List.mem_append.1 hl with hl | hl
        · obtain ⟨l', hl', ht⟩ := ih2 l hl
          exact ⟨l', List.mem_append_left _ hl', t2 _ _ ht⟩
        · rw [List.mem_singleton] at hl
          subst hl
          cases ha
      · obtain ⟨s', hs, h' | ⟨y, k, h1, _, _⟩⟩ := same_step hU (run_sim h.prefix U hU hUx) (h.dotless x hx) hxU ha
        · rw [h'.1]; exact hs.disj ih3
        · rw [h1]; exact disj_step (hs.disj ih3) _
    | none =>
      cases d with
      | space y l =>
        simp only [Wired.step, Wired.define]
        refine ⟨?_, ?_, disj_step ih3 _⟩
        · intro n hn hne
          rw [tab_other]
          · exact ih1 n hn hne
          · intro e
            have e : y = n := e
            subst e
            refine hne ?_
            rw [fam_self (h.dotless y (h.spaces y l (by simp)))] at hn
            exact String.toList_inj.1 hn
        · intro l0 hl0
          by_cases e : y = x
          · subst e
            exact ⟨l, by simp, by rw [tab_define ih3, if_pos rfl]⟩
          · rcases List.mem_append.1 hl0 with hl | hl
            · obtain ⟨l', hl', ht⟩ := ih2 l0 hl
              exact ⟨l', List.mem_append_left _ hl', by rw [tab_other _ _ (by exact e)]; exact ht⟩
            · simp only [List.mem_singleton, Decl.space.injEq] at hl
              exact absurd hl.1.symm e
      | _ => cases ha

theorem takeWhile_dotless : ∀ l : List Char, '.' ∉ l.takeWhile (· != '.')
  | [] => by simp
  | c :: l => by
    rw [List.takeWhile_cons]
    split
    · next e =>
      intro hm
      rcases List.mem_cons.1 hm with e' | hm
      · rw [← e'] at e
        simp at e
      · exact takeWhile_dotless l hm
    · simp

/-- A name outside of the families of services and namespaces has no entry. -/
theorem run_absent {xs : List Name} {ds : List Decl} (h : Tidy xs ds) {n : Name} (hs : ∀ d ∈ ds, ∀ T, d.about = some T → fam n ≠ T.toList)
    (hx : n ∉ xs) : tab (Wired.run ds).spec n = none := by
  have hd : Dotless (String.ofList (fam n)) := by
    unfold Dotless fam
    rw [String.toList_ofList]
    exact takeWhile_dotless _
  by_cases e : String.ofList (fam n) ∈ xs
  · refine (run_spaces h e).1 n ?_ ?_
    · rw [String.toList_ofList]
    · intro e'
      rw [← e'] at e
      exact hx e
  · have := (run_sim h _ hd e).ss.eq n (by rw [String.toList_ofList])
    rw [this]
    have hno : declsOf (String.ofList (fam n)) ds = [] := by
      unfold declsOf
      rw [List.filter_eq_nil_iff]
      intro d hm hT
      have hT : d.about = some (String.ofList (fam n)) := by simpa using hT
      exact hs d hm _ hT (by rw [String.toList_ofList])
    unfold famOf
    rw [hno]
    rfl

end Verif.Compile
