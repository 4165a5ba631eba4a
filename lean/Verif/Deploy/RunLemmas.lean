import Verif.Deploy.RunSpec
import Verif.Strings.Props

namespace Verif.Deploy.Run
open Verif.Strings

/-! ### Names and bodies -/

theorem upper_lower (c : Char) : upper (lower c) = upper c := by
  unfold lower
  by_cases h : isUpper c
  · rw [if_pos h]
    simp only [isUpper, Bool.and_eq_true, decide_eq_true_eq] at h
    have h1 : 65 ≤ c.toNat := h.1
    have h2 : c.toNat ≤ 90 := h.2
    have hn : (Char.ofNat (c.toNat + 32)).toNat = c.toNat + 32 := by
      rw [Char.ofNat, dif_pos (.inl (by omega))]
      rfl
    have hl : isLower (Char.ofNat (c.toNat + 32)) = true := by
      simp only [isLower, hn, Bool.and_eq_true, decide_eq_true_eq]
      exact ⟨show 97 ≤ _ by omega, show _ ≤ 122 by omega⟩
    have hl' : ¬ isLower c = true := by
      simp only [isLower, Bool.and_eq_true, decide_eq_true_eq]
      intro h
      have : 97 ≤ c.toNat := h.1
      omega
    rw [upper, if_pos hl, hn, upper, if_neg hl', Nat.add_sub_cancel]
    exact Char.ofNat_toNat c
  · rw [if_neg h]

theorem envVar_of_funcName {x y : Str} (h : funcName x = funcName y) : envVar x = envVar y := by
  have h' := congrArg (List.map upper) h
  have e : (upper ∘ lower) = upper := funext upper_lower
  simpa [funcName, envVar, List.map_map, e] using h'

theorem dropWhile_append_of_not {α : Type} (p : α → Bool) (l : List α) (x : α) (r : List α)
    (h : ∀ a ∈ l, p a = true) (hx : p x = false) : (l ++ x :: r).dropWhile p = x :: r := by
  induction l with
  | nil => simp [hx]
  | cons a l ih =>
    rw [List.cons_append, List.dropWhile_cons, if_pos (h a (by simp))]
    exact ih fun b hb => h b (List.mem_cons_of_mem _ hb)

theorem getFuncBody_of {runfunc text : Str} (h : HasBody runfunc text) :
    getFuncBody runfunc = if text.isEmpty then none else some text := by
  obtain ⟨pre, post, rfl, h1, h2⟩ := h
  have hd : (pre ++ '{' :: text ++ '}' :: post).dropWhile (· != '{') = '{' :: (text ++ '}' :: post) := by
    rw [List.append_assoc]
    refine dropWhile_append_of_not _ pre '{' _ ?_ (by simp)
    intro a ha
    simp only [bne_iff_ne]
    rintro rfl
    exact h1 ha
  have hd2 : (text ++ '}' :: post).reverse.dropWhile (· != '}') = '}' :: text.reverse := by
    rw [List.reverse_append, List.reverse_cons, List.append_assoc, List.singleton_append]
    refine dropWhile_append_of_not _ _ '}' _ ?_ (by simp)
    intro a ha
    simp only [bne_iff_ne]
    rintro rfl
    exact h2 (List.mem_reverse.1 ha)
  have hm : '{' ∈ pre ++ '{' :: text ++ '}' :: post := by simp
  have hm2 : '}' ∈ text ++ '}' :: post := by simp
  simp only [getFuncBody, hd, List.drop_succ_cons, List.drop_zero, if_pos hm, if_pos hm2, hd2,
    List.reverse_reverse]

theorem hasBody_unique {runfunc a b : Str} (ha : HasBody runfunc a) (hb : HasBody runfunc b)
    (hne : a ≠ []) : a = b := by
  have h := (getFuncBody_of ha).symm.trans (getFuncBody_of hb)
  have ea : a.isEmpty = false := by cases a <;> simp_all
  rw [ea] at h
  simp only [Bool.false_eq_true, if_false] at h
  split at h
  · cases h
  · exact Option.some.inj h

/-! ### The generated functions -/

/-- The list is sorted by name. -/
def Sorted (l : List Func) : Prop := l.Pairwise fun f g => f.name < g.name

theorem lt_of_not {a b : Str} (h1 : a ≠ b) (h2 : ¬ b < a) : a < b := by
  rcases Std.le_total (a := a) (b := b) with h | h
  · exact Std.lt_of_le_of_ne h h1
  · exact absurd (Std.lt_of_le_of_ne h (Ne.symm h1)) h2

theorem mem_putFunc {f g : Func} {l : List Func} (hn : ∀ g ∈ l, g.name ≠ f.name) :
    g ∈ putFunc f l ↔ g = f ∨ g ∈ l := by
  induction l with
  | nil => simp [putFunc]
  | cons a l ih =>
    have ih := ih fun g h => hn g (List.mem_cons_of_mem _ h)
    rw [putFunc, if_neg (hn a (by simp))]
    split
    · simp
    · simp only [List.mem_cons, ih]
      constructor
      · rintro (h | h | h) <;> simp [h]
      · rintro (h | h | h) <;> simp [h]

theorem sorted_putFunc {f : Func} {l : List Func} (hs : Sorted l) (hn : ∀ g ∈ l, g.name ≠ f.name) :
    Sorted (putFunc f l) := by
  induction l with
  | nil => simp [putFunc, Sorted]
  | cons a l ih =>
    have ha := hn a (by simp)
    have hs' := List.pairwise_cons.1 hs
    rw [putFunc, if_neg ha]
    split
    · rename_i hlt
      refine List.pairwise_cons.2 ⟨?_, hs⟩
      intro g hg
      rcases List.mem_cons.1 hg with rfl | hg
      · exact hlt
      · exact Std.lt_trans hlt (hs'.1 g hg)
    · rename_i hlt
      refine List.pairwise_cons.2 ⟨?_, ih hs'.2 fun g h => hn g (List.mem_cons_of_mem _ h)⟩
      intro g hg
      rcases (mem_putFunc fun g h => hn g (List.mem_cons_of_mem _ h)).1 hg with rfl | hg
      · exact lt_of_not ha hlt
      · exact hs'.1 g hg

/-- What is known about the generated script. -/
structure Info (ds : List Decl) (s : Script) : Prop where
  mem : ∀ f, f ∈ s.funcs ↔ ∃ d ∈ ds, f.name = d.name ∧ f.deps = d.deps ∧ getFuncBody d.runfunc = some f.body
  sorted : Sorted s.funcs
  nodes : s.nodes = ds.flatMap (·.deps)

theorem declareAll_info (ds : List Decl) (hn : (ds.map (·.name)).Nodup) (s : Script)
    (h : Generated ds s) : Info ds s := by
  have key : ∀ (b a : List Decl) (s s' : Script), ((a ++ b).map (·.name)).Nodup → Info a s →
      s.declareAll b = some s' → Info (a ++ b) s' := by
    intro b
    induction b with
    | nil =>
      intro a s s' _ hi hd
      simp only [Script.declareAll, Option.some.injEq] at hd
      subst hd
      simpa using hi
    | cons d b ih =>
      intro a s s' hnd hi hd
      rw [Script.declareAll, Script.declare] at hd
      cases hb : getFuncBody d.runfunc with
      | none => simp [hb] at hd
      | some body =>
        simp only [hb] at hd
        have e : a ++ d :: b = (a ++ [d]) ++ b := by simp
        rw [e] at hnd ⊢
        have hnew : ∀ g ∈ s.funcs, g.name ≠ d.name := by
          intro g hg he
          obtain ⟨d', hd', h1, -⟩ := (hi.mem g).1 hg
          rw [List.map_append, List.map_append] at hnd
          have h2 := (List.nodup_append.1 (List.nodup_append.1 hnd).1).2.2
          exact h2 d'.name (List.mem_map_of_mem hd') d.name (by simp) (h1.symm.trans he)
        refine ih (a ++ [d]) _ s' hnd ⟨?_, sorted_putFunc hi.sorted hnew, ?_⟩ hd
        · intro f
          rw [mem_putFunc hnew, hi.mem]
          constructor
          · rintro (rfl | ⟨d', hd', h⟩)
            · exact ⟨d, by simp, rfl, rfl, hb⟩
            · exact ⟨d', by simp [hd'], h⟩
          · rintro ⟨d', hd', h1, h2, h3⟩
            rcases List.mem_append.1 hd' with hd' | hd'
            · exact .inr ⟨d', hd', h1, h2, h3⟩
            · cases List.mem_singleton.1 hd'
              rw [hb] at h3
              cases h3
              left
              obtain ⟨fn, fd, fb⟩ := f
              have h1' : fn = d.name := h1
              have h2' : fd = d.deps := h2
              rw [h1', h2']
        · simp [hi.nodes]
  have := key ds [] ⟨[], []⟩ s (by simpa using hn) ⟨by simp, by simp [Sorted], by simp⟩ h
  simpa using this

theorem Sorted.nodup {l : List Func} (h : Sorted l) : (l.map (·.name)).Nodup := by
  refine List.pairwise_map.2 (List.Pairwise.imp ?_ h)
  intro a b hlt he
  rw [he] at hlt
  exact Std.lt_irrefl hlt

theorem mem_args {ds : List Decl} {s : Script} (hi : Info ds s) (hd : ∀ d ∈ ds, getFuncBody d.runfunc ≠ none)
    (n : Str) : n ∈ s.args ↔ (∃ d ∈ ds, n ∈ d.deps) ∧ ¬ IsProc ds n := by
  rw [Script.args, List.mem_filter, hi.nodes, List.mem_flatMap, Bool.not_eq_true', List.any_eq_false]
  refine and_congr_right fun _ => ?_
  constructor
  · rintro h ⟨d, hd', rfl⟩
    cases hb : getFuncBody d.runfunc with
    | none => exact hd d hd' hb
    | some b => exact h ⟨d.name, d.deps, b⟩ ((hi.mem _).2 ⟨d, hd', rfl, rfl, hb⟩) (by simp)
  · intro h f hf he
    obtain ⟨d, hd', h1, -⟩ := (hi.mem f).1 hf
    exact h ⟨d, hd', h1.symm.trans (by simpa using he)⟩

theorem lookup_mem {funcs : List Func} {n : Str} {f : Func} (h : lookup funcs n = some f) :
    f ∈ funcs ∧ funcName f.name = n := by
  have h1 := List.mem_of_find?_eq_some h
  have h2 := List.find?_some h
  exact ⟨List.mem_reverse.1 h1, by simpa using h2⟩

theorem lookup_of_mem {funcs : List Func} {f : Func} (hf : f ∈ funcs)
    (hinj : ∀ g ∈ funcs, funcName g.name = funcName f.name → g = f) :
    lookup funcs (funcName f.name) = some f := by
  cases h : lookup funcs (funcName f.name) with
  | none =>
    have := List.find?_eq_none.1 h f (List.mem_reverse.2 hf)
    simp at this
  | some g =>
    obtain ⟨hg, he⟩ := lookup_mem h
    rw [hinj g hg he]

/-- A well-formed set of declarations and its script. -/
structure Ctx (ds : List Decl) (s : Script) : Prop where
  wf : WellFormed ds
  gen : Generated ds s
  info : Info ds s

theorem Ctx.mk' {ds : List Decl} {s : Script} (hw : WellFormed ds) (hg : Generated ds s) : Ctx ds s :=
  ⟨hw, hg, declareAll_info ds hw.once s hg⟩

theorem Ctx.body {ds : List Decl} {s : Script} (c : Ctx ds s) (d : Decl) (hd : d ∈ ds) :
    ∃ text, HasBody d.runfunc text ∧ getFuncBody d.runfunc = some text := by
  obtain ⟨text, hne, hb⟩ := c.wf.body d hd
  refine ⟨text, hb, ?_⟩
  rw [getFuncBody_of hb]
  cases text with
  | nil => exact absurd rfl hne
  | cons => rfl

theorem Ctx.func {ds : List Decl} {s : Script} (c : Ctx ds s) {d : Decl} (hd : d ∈ ds) :
    ∃ f ∈ s.funcs, f.name = d.name ∧ f.deps = d.deps ∧ HasBody d.runfunc f.body := by
  obtain ⟨text, hb, h⟩ := c.body d hd
  exact ⟨⟨d.name, d.deps, text⟩, (c.info.mem _).2 ⟨d, hd, rfl, rfl, h⟩, rfl, rfl, hb⟩

theorem Ctx.decl {ds : List Decl} {s : Script} (c : Ctx ds s) {f : Func} (hf : f ∈ s.funcs) :
    ∃ d ∈ ds, f.name = d.name ∧ f.deps = d.deps ∧ HasBody d.runfunc f.body := by
  obtain ⟨d, hd, h1, h2, h3⟩ := (c.info.mem f).1 hf
  obtain ⟨text, hb, h⟩ := c.body d hd
  rw [h] at h3
  cases h3
  exact ⟨d, hd, h1, h2, hb⟩

theorem Ctx.isProc {ds : List Decl} {s : Script} (c : Ctx ds s) {n : Str} :
    IsProc ds n ↔ ∃ f ∈ s.funcs, f.name = n := by
  constructor
  · rintro ⟨d, hd, rfl⟩
    obtain ⟨f, hf, h, -⟩ := c.func hd
    exact ⟨f, hf, h⟩
  · rintro ⟨f, hf, rfl⟩
    obtain ⟨d, hd, h, -⟩ := c.decl hf
    exact ⟨d, hd, h.symm⟩

theorem Ctx.used {ds : List Decl} {s : Script} (c : Ctx ds s) {f : Func} (hf : f ∈ s.funcs) {x : Str}
    (hx : x ∈ f.deps) : Used ds x := by
  obtain ⟨d, hd, -, h, -⟩ := c.decl hf
  exact .inr ⟨d, hd, h ▸ hx⟩

theorem Ctx.inj {ds : List Decl} {s : Script} (c : Ctx ds s) {f g : Func} (hf : f ∈ s.funcs)
    (hg : g ∈ s.funcs) (h : f.name = g.name) : f = g := by
  have hn := c.info.sorted
  apply Classical.byContradiction
  intro hne
  obtain ⟨a, b, hab⟩ := List.append_of_mem hf
  rw [hab] at hg hn
  have h1 := List.pairwise_append.1 hn
  rcases List.mem_append.1 hg with hg | hg
  · have := h1.2.2 g hg f (by simp)
    rw [h] at this
    exact Std.lt_irrefl this
  · rcases List.mem_cons.1 hg with hg | hg
    · exact hne hg.symm
    · have := (List.pairwise_cons.1 h1.2.1).1 g hg
      rw [h] at this
      exact Std.lt_irrefl this

theorem Ctx.lookup {ds : List Decl} {s : Script} (c : Ctx ds s) {x : Str} (hx : Used ds x) :
    (∃ f ∈ s.funcs, f.name = x ∧ lookup s.funcs (funcName x) = some f) ∨
    (¬ IsProc ds x ∧ lookup s.funcs (funcName x) = none) := by
  cases h : Run.lookup s.funcs (funcName x) with
  | some f =>
    obtain ⟨hf, he⟩ := lookup_mem h
    have : f.name = x := c.wf.vars _ _ (.inl (c.isProc.2 ⟨f, hf, rfl⟩)) hx (envVar_of_funcName he)
    exact .inl ⟨f, hf, this, rfl⟩
  | none =>
    refine .inr ⟨fun hp => ?_, rfl⟩
    obtain ⟨f, hf, rfl⟩ := c.isProc.1 hp
    have := List.find?_eq_none.1 h f (List.mem_reverse.2 hf)
    simp at this

theorem Ctx.lookup_func {ds : List Decl} {s : Script} (c : Ctx ds s) {f : Func} (hf : f ∈ s.funcs) :
    Run.lookup s.funcs (funcName f.name) = some f := by
  rcases c.lookup (.inl (c.isProc.2 ⟨f, hf, rfl⟩)) with ⟨g, hg, hn, h⟩ | ⟨h, -⟩
  · rw [h, c.inj hg hf hn]
  · exact absurd (c.isProc.2 ⟨f, hf, rfl⟩) h

/-! ### Behaviours that unset nothing -/

/-- Variables stay set, and all new starts have the property. -/
def Grows (P : Start → Prop) (sh sh' : Shell) : Prop :=
  (∀ x, sh.env x ≠ none → sh'.env x ≠ none) ∧ ∃ l, sh'.starts = l ++ sh.starts ∧ ∀ e ∈ l, P e

theorem Grows.refl (P : Start → Prop) (sh : Shell) : Grows P sh sh := ⟨fun _ h => h, [], rfl, by simp⟩

theorem Grows.trans {P : Start → Prop} {a b c : Shell} (h1 : Grows P a b) (h2 : Grows P b c) :
    Grows P a c := by
  obtain ⟨m1, l1, e1, p1⟩ := h1
  obtain ⟨m2, l2, e2, p2⟩ := h2
  refine ⟨fun x h => m2 x (m1 x h), l2 ++ l1, by rw [e2, e1, List.append_assoc], fun e he => ?_⟩
  rcases List.mem_append.1 he with he | he
  · exact p2 e he
  · exact p1 e he

theorem getAll_grows {P : Start → Prop} {A : Shell → Prop} (hA : ∀ a b, A a → Grows P a b → A b)
    {c : Str → Shell → Option (Nat × Shell)}
    (hc : ∀ n sh code sh', A sh → c n sh = some (code, sh') → Grows P sh sh') :
    ∀ (deps : List Str) (sh : Shell) (b : Bool) (sh' : Shell), A sh →
      getAll c deps sh = some (b, sh') → Grows P sh sh' := by
  intro deps
  induction deps with
  | nil =>
    intro sh b sh' _ h
    simp only [getAll, Option.some.injEq, Prod.mk.injEq] at h
    rw [h.2]
    exact .refl _ _
  | cons d deps ih =>
    intro sh b sh' ha h
    rw [getAll] at h
    split at h
    · cases hcall : c (funcName d) sh with
      | none => simp [hcall] at h
      | some r =>
        obtain ⟨code, sh1⟩ := r
        have g := hc _ _ _ _ ha hcall
        cases code with
        | zero =>
          simp only [hcall] at h
          exact g.trans (ih _ _ _ (hA _ _ ha g) h)
        | succ k =>
          simp only [hcall, Option.some.injEq, Prod.mk.injEq] at h
          rw [← h.2]
          exact g
    · exact ih _ _ _ ha h

theorem getAll_set {c : Str → Shell → Option (Nat × Shell)} {deps : List Str} {sh : Shell}
    (h : ∀ x ∈ deps, sh.env (envVar x) ≠ none) : getAll c deps sh = some (true, sh) := by
  induction deps with
  | nil => rfl
  | cons d deps ih =>
    rw [getAll, if_neg (h d (by simp))]
    exact ih fun x hx => h x (List.mem_cons_of_mem _ hx)

theorem getAll_true {P : Start → Prop} {A : Shell → Prop} (hA : ∀ a b, A a → Grows P a b → A b)
    {c : Str → Shell → Option (Nat × Shell)}
    (hc : ∀ n sh code sh', A sh → c n sh = some (code, sh') → Grows P sh sh') :
    ∀ (deps : List Str)
      (_ : ∀ x ∈ deps, ∀ sh sh', A sh → sh.env (envVar x) = none → c (funcName x) sh = some (0, sh') →
        sh'.env (envVar x) ≠ none)
      (sh sh' : Shell), A sh → getAll c deps sh = some (true, sh') →
      ∀ x ∈ deps, sh'.env (envVar x) ≠ none := by
  intro deps
  induction deps with
  | nil => simp
  | cons d deps ih =>
    intro h0 sh sh' ha h
    have ih := ih fun x hx => h0 x (List.mem_cons_of_mem _ hx)
    rw [getAll] at h
    have key : ∀ sh1, A sh1 → sh1.env (envVar d) ≠ none → getAll c deps sh1 = some (true, sh') →
        ∀ x ∈ d :: deps, sh'.env (envVar x) ≠ none := by
      intro sh1 ha1 hs hg x hx
      rcases List.mem_cons.1 hx with rfl | hx
      · exact (getAll_grows hA hc _ _ _ _ ha1 hg).1 _ hs
      · exact ih _ _ ha1 hg x hx
    split at h
    · rename_i hn
      cases hcall : c (funcName d) sh with
      | none => simp [hcall] at h
      | some r =>
        obtain ⟨code, sh1⟩ := r
        have g := hc _ _ _ _ ha hcall
        cases code with
        | zero =>
          simp only [hcall] at h
          exact key sh1 (hA _ _ ha g) (h0 d (by simp) _ _ ha hn hcall) h
        | succ k => simp [hcall] at h
    · rename_i hn
      exact key sh ha hn h

/-- The process depends on no other process. -/
def Shallow (ds : List Decl) (deps : List Str) : Prop := ∀ x ∈ deps, ¬ IsProc ds x

/-- What is known of a start, whatever the start commands do. -/
def GoodM (ds : List Decl) (s : Script) (root : Str) (e : Start) : Prop :=
  ∃ f ∈ s.funcs, e.proc = f.name ∧ e.text = f.body ∧ (Shallow ds f.deps → e.cwd = root) ∧
    ((∀ x ∈ f.deps, ∀ g ∈ s.funcs, g.name = x → Shallow ds g.deps) →
      ∀ x ∈ f.deps, e.env (envVar x) ≠ none)

theorem Ctx.args_set {ds : List Decl} {s : Script} (c : Ctx ds s) {env : Env} (ha : ArgsSet ds env)
    {f : Func} (hf : f ∈ s.funcs) {x : Str} (hx : x ∈ f.deps) (hp : ¬ IsProc ds x) :
    env (envVar x) ≠ none := by
  obtain ⟨d, hd, -, h, -⟩ := c.decl hf
  exact ha d hd x (h ▸ hx) hp

theorem ArgsSet.grows {ds : List Decl} {P : Start → Prop} (a b : Shell) (h : ArgsSet ds a.env)
    (g : Grows P a b) : ArgsSet ds b.env := fun d hd x hx hp => g.1 _ (h d hd x hx hp)

theorem call_grows {ds : List Decl} {s : Script} (c : Ctx ds s) {beh : Behaviour}
    (hb : UnsetNothing beh) (root : Str) : ∀ (fuel : Nat) (n : Str) (sh : Shell) (code : Nat) (sh' : Shell),
      ArgsSet ds sh.env → call beh root s.funcs fuel n sh = some (code, sh') →
      Grows (GoodM ds s root) sh sh' ∧
      (∀ f ∈ s.funcs, lookup s.funcs n = some f → Shallow ds f.deps → code = 0 →
        sh'.env (envVar f.name) ≠ none) := by
  intro fuel
  induction fuel with
  | zero => intro n sh code sh' _ h; simp [call] at h
  | succ fuel ih =>
    intro n sh code sh' ha h
    rw [call] at h
    cases hl : lookup s.funcs n with
    | none =>
      simp only [hl, Option.some.injEq, Prod.mk.injEq] at h
      rw [← h.2]
      exact ⟨.refl _ _, by simp⟩
    | some f =>
      simp only [hl] at h
      obtain ⟨hf, -⟩ := lookup_mem hl
      have hcg : ∀ n sh code sh', ArgsSet ds sh.env → call beh root s.funcs fuel n sh = some (code, sh') →
          Grows (GoodM ds s root) sh sh' := fun n sh code sh' h1 h2 => (ih n sh code sh' h1 h2).1
      cases hga : getAll (call beh root s.funcs fuel) f.deps { sh with cwd := root } with
      | none => simp [hga] at h
      | some r =>
        obtain ⟨ok, sh1⟩ := r
        have ha0 : ArgsSet ds ({ sh with cwd := root } : Shell).env := ha
        have g' := getAll_grows (A := fun sh => ArgsSet ds sh.env) ArgsSet.grows hcg _ _ _ _ ha0 hga
        have g : Grows (GoodM ds s root) sh sh1 := ⟨g'.1, g'.2⟩
        have hsh : Shallow ds f.deps → ok = true ∧ sh1 = { sh with cwd := root } := by
          intro hs
          rw [getAll_set (sh := { sh with cwd := root })
            fun x hx => c.args_set ha hf hx (hs x hx)] at hga
          simp only [Option.some.injEq, Prod.mk.injEq] at hga
          exact ⟨hga.1.symm, hga.2.symm⟩
        cases ok with
        | false =>
          simp only [hga, Option.some.injEq, Prod.mk.injEq] at h
          rw [← h.2]
          exact ⟨g, fun f' _ hf' hs _ => by cases hf'; exact absurd (hsh hs).1 (by simp)⟩
        | true =>
          simp only [hga] at h
          have hgood : GoodM ds s root ⟨f.name, f.body, sh1.env, sh1.cwd⟩ := by
            refine ⟨f, hf, rfl, rfl, fun hs => by rw [(hsh hs).2], fun hdeep => ?_⟩
            refine getAll_true (A := fun sh => ArgsSet ds sh.env) ArgsSet.grows hcg f.deps ?_ _ _ ha0 hga
            intro x hx a b haa hn hcall
            rcases c.lookup (c.used hf hx) with ⟨g', hg', hn', hl'⟩ | ⟨hp, -⟩
            · have := (ih _ _ _ _ haa hcall).2 g' hg' hl' (hdeep x hx g' hg' hn') rfl
              rwa [hn'] at this
            · exact absurd hn (c.args_set haa hf hx hp)
          have gE : ∀ env cwd, (∀ x, sh1.env x ≠ none → env x ≠ none) →
              Grows (GoodM ds s root) sh
                ⟨env, cwd, ⟨f.name, f.body, sh1.env, sh1.cwd⟩ :: sh1.starts⟩ := by
            intro env cwd he
            refine g.trans ⟨he, [_], rfl, ?_⟩
            intro e hm
            cases List.mem_singleton.1 hm
            exact hgood
          have hm := hb f.body { sh1 with starts := ⟨f.name, f.body, sh1.env, sh1.cwd⟩ :: sh1.starts }
          split at h
          · split at h
            · simp only [Option.some.injEq, Prod.mk.injEq] at h
              rw [← h.2, ← h.1]
              exact ⟨gE _ _ hm, by simp⟩
            · rename_i hset
              simp only [Option.some.injEq, Prod.mk.injEq] at h
              rw [← h.2]
              exact ⟨gE _ _ hm, fun f' _ hf' _ _ => by cases hf'; exact hset⟩
          · rename_i hcode
            simp only [Option.some.injEq, Prod.mk.injEq] at h
            rw [← h.2, ← h.1]
            exact ⟨gE _ _ hm, fun _ _ _ _ h => absurd h hcode⟩

theorem callAll_grows {ds : List Decl} {s : Script} (c : Ctx ds s) {beh : Behaviour}
    (hb : UnsetNothing beh) (root : Str) (fuel : Nat) : ∀ (fs : List Func) (sh sh' : Shell),
      ArgsSet ds sh.env → callAll beh root s.funcs fuel fs sh = some sh' →
      Grows (GoodM ds s root) sh sh' := by
  intro fs
  induction fs with
  | nil =>
    intro sh sh' _ h
    simp only [callAll, Option.some.injEq] at h
    rw [h]
    exact .refl _ _
  | cons f fs ih =>
    intro sh sh' ha h
    rw [callAll] at h
    cases hc : call beh root s.funcs fuel (funcName f.name) sh with
    | none => simp [hc] at h
    | some r =>
      simp only [hc] at h
      have g := (call_grows c hb root fuel _ _ _ _ ha hc).1
      exact g.trans (ih _ _ (ha.grows _ _ g) h)

/-! ### Start commands that succeed -/

/-- A part of the execution: what was started, and how the variables changed. -/
structure Step (s : Script) (sh sh' : Shell) (l : List Start) : Prop where
  starts : sh'.starts = l ++ sh.starts
  mono : ∀ x, sh.env x ≠ none → sh'.env x ≠ none
  setl : ∀ e ∈ l, sh'.env (envVar e.proc) ≠ none
  newl : ∀ x, sh.env x = none → sh'.env x ≠ none → ∃ e ∈ l, envVar e.proc = x
  good : ∀ pre e post, l = pre ++ e :: post → ∃ f ∈ s.funcs, e.proc = f.name ∧ e.text = f.body ∧
    ∀ x ∈ f.deps, e.env (envVar x) ≠ none ∧
      (sh.env (envVar x) = none → ∃ e' ∈ post, envVar e'.proc = envVar x)

theorem Step.refl (s : Script) (sh : Shell) : Step s sh sh [] :=
  ⟨rfl, fun _ h => h, by simp, fun x h1 h2 => absurd h1 h2, fun pre e post h => by
    cases pre <;> simp at h⟩

theorem Step.trans {s : Script} {a b c : Shell} {l1 l2 : List Start} (h1 : Step s a b l1)
    (h2 : Step s b c l2) : Step s a c (l2 ++ l1) := by
  refine ⟨by rw [h2.starts, h1.starts, List.append_assoc], fun x h => h2.mono x (h1.mono x h), ?_, ?_, ?_⟩
  · intro e he
    rcases List.mem_append.1 he with he | he
    · exact h2.setl e he
    · exact h2.mono _ (h1.setl e he)
  · intro x hx hx'
    cases hb : b.env x with
    | none =>
      obtain ⟨e, he, h⟩ := h2.newl x hb hx'
      exact ⟨e, by simp [he], h⟩
    | some v =>
      obtain ⟨e, he, h⟩ := h1.newl x hx (by simp [hb])
      exact ⟨e, by simp [he], h⟩
  · intro pre e post h
    rcases List.append_eq_append_iff.1 h with ⟨m, h3, h4⟩ | ⟨m, h3, h4⟩
    · obtain ⟨f, hf, hp, ht, hd⟩ := h1.good m e post h4
      exact ⟨f, hf, hp, ht, hd⟩
    · cases m with
      | nil =>
        have h5 : l1 = [] ++ e :: post := by simpa using h4.symm
        obtain ⟨f, hf, hp, ht, hd⟩ := h1.good [] e post h5
        exact ⟨f, hf, hp, ht, hd⟩
      | cons e0 m =>
        rw [List.cons_append] at h4
        obtain ⟨rfl, h5⟩ := List.cons.inj h4
        obtain ⟨f, hf, hp, ht, hd⟩ := h2.good pre e m h3
        refine ⟨f, hf, hp, ht, fun x hx => ⟨(hd x hx).1, fun hn => ?_⟩⟩
        cases hb : b.env (envVar x) with
        | none =>
          obtain ⟨e', he', h6⟩ := (hd x hx).2 hb
          exact ⟨e', by rw [h5]; simp [he'], h6⟩
        | some v =>
          obtain ⟨e', he', h6⟩ := h1.newl _ hn (by simp [hb])
          exact ⟨e', by rw [h5]; simp [he'], h6⟩

theorem times_append (n : Str) (a b : List Start) :
    timesStarted n (a ++ b) = timesStarted n a + timesStarted n b := by simp [timesStarted]

theorem times_cons (n : Str) (e : Start) (b : List Start) :
    timesStarted n (e :: b) = (if e.proc = n then 1 else 0) + timesStarted n b := by
  by_cases h : e.proc = n <;> simp [timesStarted, h] <;> omega

theorem times_pos {n : Str} {l : List Start} (h : 0 < timesStarted n l) : ∃ e ∈ l, e.proc = n := by
  obtain ⟨e, he⟩ := List.exists_mem_of_length_pos h
  have := List.mem_filter.1 he
  exact ⟨e, this.1, by simpa using this.2⟩

theorem times_zero {n : Str} {l : List Start} (h : ∀ e ∈ l, e.proc ≠ n) : timesStarted n l = 0 := by
  rw [timesStarted, List.length_eq_zero_iff, List.filter_eq_nil_iff]
  simpa using h

/-- Everything in `l` is started at most once, and only if it had not been started before. -/
structure Fresh (sh : Shell) (l : List Start) : Prop where
  le : ∀ p, timesStarted p l ≤ 1
  set : ∀ p, sh.env (envVar p) ≠ none → timesStarted p l = 0

theorem getAll_ok {ds : List Decl} {s : Script} (c : Ctx ds s) {rank : Str → Nat} {r : Nat}
    {k : Str → Shell → Option (Nat × Shell)}
    (hk : ∀ f ∈ s.funcs, rank f.name < r → ∀ sh code sh', ArgsSet ds sh.env →
      k (funcName f.name) sh = some (code, sh') → code = 0 ∧ ∃ e l, Step s sh sh' (e :: l) ∧
        e.proc = f.name ∧ (∀ e ∈ l, rank e.proc < rank f.name) ∧ Fresh sh l) :
    ∀ (deps : List Str), (∀ x ∈ deps, Used ds x) → (∀ x ∈ deps, IsProc ds x → rank x < r) →
      ∀ (sh : Shell) (b : Bool) (sh' : Shell), ArgsSet ds sh.env →
      (∀ x ∈ deps, ¬ IsProc ds x → sh.env (envVar x) ≠ none) →
      getAll k deps sh = some (b, sh') →
      b = true ∧ (∀ x ∈ deps, sh'.env (envVar x) ≠ none) ∧
      ∃ l, Step s sh sh' l ∧ (∀ e ∈ l, rank e.proc < r) ∧ Fresh sh l := by
  intro deps
  induction deps with
  | nil =>
    intro _ _ sh b sh' _ _ h
    simp only [getAll, Option.some.injEq, Prod.mk.injEq] at h
    obtain ⟨rfl, rfl⟩ := h
    exact ⟨rfl, by simp, [], .refl _ _, by simp, ⟨fun p => by simp [timesStarted], fun p _ => rfl⟩⟩
  | cons d deps ih =>
    intro hu hr sh b sh' ha hargs h
    have ih := ih (fun x hx => hu x (List.mem_cons_of_mem _ hx)) fun x hx => hr x (List.mem_cons_of_mem _ hx)
    rw [getAll] at h
    split at h
    · rename_i hn
      have hp : IsProc ds d := Classical.byContradiction fun hp => hargs d (by simp) hp hn
      obtain ⟨f, hf, hfn⟩ := c.isProc.1 hp
      cases hc : k (funcName d) sh with
      | none => simp [hc] at h
      | some res =>
        obtain ⟨code, sh1⟩ := res
        have hlt : rank f.name < r := by rw [hfn]; exact hr d (by simp) hp
        rw [← hfn] at hc
        obtain ⟨rfl, e, l1, st, he, hl1, fr⟩ := hk f hf hlt _ _ _ ha hc
        rw [hfn] at hc
        simp only [hc] at h
        have ha1 : ArgsSet ds sh1.env := fun d hd x hx hp => st.mono _ (ha d hd x hx hp)
        obtain ⟨h1, h2, l2, st2, hl2, fr2⟩ := ih sh1 b sh' ha1
          (fun x hx hp => st.mono _ (hargs x (List.mem_cons_of_mem _ hx) hp)) h
        have hd1 : sh1.env (envVar d) ≠ none := by
          have := st.setl e (by simp)
          rwa [he, hfn] at this
        refine ⟨h1, ?_, l2 ++ e :: l1, st.trans st2, ?_, ?_⟩
        · intro x hx
          rcases List.mem_cons.1 hx with rfl | hx
          · exact st2.mono _ hd1
          · exact h2 x hx
        · intro e' he'
          rcases List.mem_append.1 he' with he' | he'
          · exact hl2 e' he'
          · rcases List.mem_cons.1 he' with rfl | he'
            · rw [he]; exact hlt
            · exact Nat.lt_trans (hl1 e' he') hlt
        · -- nothing is started twice
          have first : ∀ p, timesStarted p (e :: l1) ≤ 1 := by
            intro p
            rw [times_cons]
            split
            · rename_i hep
              have : timesStarted p l1 = 0 := times_zero fun e' he' heq => by
                have := hl1 e' he'
                rw [heq, ← hep, he] at this
                omega
              omega
            · have := fr.le p
              omega
          constructor
          · intro p
            rw [times_append]
            by_cases h0 : 0 < timesStarted p (e :: l1)
            · obtain ⟨e', he', hp'⟩ := times_pos h0
              have hs := st.setl e' he'
              rw [hp'] at hs
              have := fr2.set p hs
              have := first p
              omega
            · have := fr2.le p
              omega
          · intro p hs
            rw [times_append, fr2.set p (st.mono _ hs), times_cons, fr.set p hs]
            rw [if_neg]
            rintro rfl
            rw [he, hfn] at hs
            exact hs hn
    · rename_i hn
      obtain ⟨h1, h2, l, st, hl, fr⟩ := ih sh b sh' ha
        (fun x hx hp => hargs x (List.mem_cons_of_mem _ hx) hp) h
      refine ⟨h1, ?_, l, st, hl, fr⟩
      intro x hx
      rcases List.mem_cons.1 hx with rfl | hx
      · exact st.mono _ hn
      · exact h2 x hx

theorem Ctx.succeed {ds : List Decl} {s : Script} (c : Ctx ds s) {beh : Behaviour} (hb : Succeed ds beh)
    {f : Func} (hf : f ∈ s.funcs) (sh : Shell) : (beh f.body sh).1 = 0 ∧
      (beh f.body sh).2.1 (envVar f.name) ≠ none ∧
      ∀ x, x ≠ envVar f.name → (beh f.body sh).2.1 x = sh.env x := by
  obtain ⟨d, hd, h1, -, h3⟩ := c.decl hf
  rw [h1]
  exact hb d hd _ h3 sh

theorem Ctx.deps_rank {ds : List Decl} {s : Script} (c : Ctx ds s) {rank : Str → Nat}
    (hr : ∀ d ∈ ds, ∀ x ∈ d.deps, IsProc ds x → rank x < rank d.name) {f : Func} (hf : f ∈ s.funcs) :
    ∀ x ∈ f.deps, IsProc ds x → rank x < rank f.name := by
  obtain ⟨d, hd, h1, h2, -⟩ := c.decl hf
  intro x hx hp
  rw [h1]
  exact hr d hd x (h2 ▸ hx) hp

theorem call_ok {ds : List Decl} {s : Script} (c : Ctx ds s) {rank : Str → Nat}
    (hr : ∀ d ∈ ds, ∀ x ∈ d.deps, IsProc ds x → rank x < rank d.name) {beh : Behaviour}
    (hb : Succeed ds beh) (root : Str) :
    ∀ (fuel : Nat), ∀ f ∈ s.funcs, ∀ sh code sh', ArgsSet ds sh.env →
      call beh root s.funcs fuel (funcName f.name) sh = some (code, sh') → code = 0 ∧
      ∃ e l, Step s sh sh' (e :: l) ∧ e.proc = f.name ∧ (∀ e ∈ l, rank e.proc < rank f.name) ∧
        Fresh sh l := by
  intro fuel
  induction fuel with
  | zero => intro f _ sh code sh' _ h; simp [call] at h
  | succ fuel ih =>
    intro f hf sh code sh' ha h
    rw [call, c.lookup_func hf] at h
    simp only at h
    cases hga : getAll (call beh root s.funcs fuel) f.deps { sh with cwd := root } with
    | none => simp [hga] at h
    | some r =>
      obtain ⟨ok, sh1⟩ := r
      obtain ⟨rfl, hset, l, st, hl, fr⟩ := getAll_ok (r := rank f.name) c
        (fun g hg _ => ih g hg) f.deps (fun x hx => c.used hf hx) (c.deps_rank hr hf)
        { sh with cwd := root } ok sh1 ha (fun x hx hp => c.args_set ha hf hx hp) hga
      simp only [hga] at h
      obtain ⟨h0, h1, h2⟩ := c.succeed hb hf
        { sh1 with starts := ⟨f.name, f.body, sh1.env, sh1.cwd⟩ :: sh1.starts }
      rw [if_pos h0, if_neg h1] at h
      simp only [Option.some.injEq, Prod.mk.injEq] at h
      obtain ⟨rfl, rfl⟩ := h
      refine ⟨rfl, ⟨f.name, f.body, sh1.env, sh1.cwd⟩, l, ?_, rfl, hl, ⟨fr.le, fr.set⟩⟩
      have st0 : Step s sh sh1 l := ⟨st.starts, st.mono, st.setl, st.newl, st.good⟩
      refine st0.trans (l2 := [_]) ⟨rfl, ?_, ?_, ?_, ?_⟩
      · intro x hx
        by_cases he : x = envVar f.name
        · rw [he]; exact h1
        · exact fun h => hx ((h2 x he).symm.trans h)
      · intro e he
        cases List.mem_singleton.1 he
        exact h1
      · intro x hx hx'
        by_cases he : x = envVar f.name
        · exact ⟨_, List.mem_singleton.2 rfl, he.symm⟩
        · have : _ = _ := h2 x he
          exact absurd (this.trans hx) hx'
      · intro pre e post he
        cases pre with
        | nil =>
          obtain ⟨rfl, rfl⟩ := List.cons.inj he
          exact ⟨f, hf, rfl, rfl, fun x hx => ⟨hset x hx, fun hn => absurd hn (hset x hx)⟩⟩
        | cons a pre => simp at he

theorem callAll_ok {ds : List Decl} {s : Script} (c : Ctx ds s) {rank : Str → Nat}
    (hr : ∀ d ∈ ds, ∀ x ∈ d.deps, IsProc ds x → rank x < rank d.name) {beh : Behaviour}
    (hb : Succeed ds beh) (root : Str) (fuel : Nat) :
    ∀ (fs : List Func), (∀ f ∈ fs, f ∈ s.funcs) → (fs.map (·.name)).Nodup → ∀ sh sh', ArgsSet ds sh.env →
      callAll beh root s.funcs fuel fs sh = some sh' →
      ∃ l, Step s sh sh' l ∧
        (∀ f ∈ fs, 1 ≤ timesStarted f.name l ∧ timesStarted f.name l ≤ 2 ∧
          (sh.env (envVar f.name) ≠ none → timesStarted f.name l = 1)) ∧
        (∀ p, p ∉ fs.map (·.name) → timesStarted p l ≤ 1 ∧
          (sh.env (envVar p) ≠ none → timesStarted p l = 0)) := by
  intro fs
  induction fs with
  | nil =>
    intro _ _ sh sh' _ h
    simp only [callAll, Option.some.injEq] at h
    subst h
    exact ⟨[], .refl _ _, by simp, fun p _ => ⟨by simp [timesStarted], fun _ => rfl⟩⟩
  | cons f fs ih =>
    intro hfs hn sh sh' ha h
    rw [callAll] at h
    have hn' := List.nodup_cons.1 (show (f.name :: fs.map (·.name)).Nodup from hn)
    cases hc : call beh root s.funcs fuel (funcName f.name) sh with
    | none => simp [hc] at h
    | some r =>
      obtain ⟨code, sh1⟩ := r
      simp only [hc] at h
      obtain ⟨-, e, l1, st1, he, hl1, fr⟩ := call_ok c hr hb root fuel f (hfs f (by simp)) _ _ _ ha hc
      obtain ⟨l2, st2, hin, hout⟩ := ih (fun g hg => hfs g (List.mem_cons_of_mem _ hg)) hn'.2 sh1 sh'
        (fun d hd x hx hp => st1.mono _ (ha d hd x hx hp)) h
      have hf1 : timesStarted f.name l1 = 0 := times_zero fun e' he' heq => by
        have := hl1 e' he'
        rw [heq] at this
        omega
      have hset1 : sh1.env (envVar f.name) ≠ none := by
        have := st1.setl e (by simp)
        rwa [he] at this
      -- a process other than f
      have other : ∀ p, p ≠ f.name → timesStarted p (e :: l1) = timesStarted p l1 := by
        intro p hp
        rw [times_cons, if_neg, Nat.zero_add]
        rw [he]
        exact hp.symm
      have after : ∀ p, p ≠ f.name → timesStarted p l1 ≠ 0 → sh1.env (envVar p) ≠ none := by
        intro p _ h0
        obtain ⟨e', he', hp'⟩ := times_pos (Nat.pos_of_ne_zero h0)
        have := st1.setl e' (List.mem_cons_of_mem _ he')
        rwa [hp'] at this
      refine ⟨l2 ++ e :: l1, st1.trans st2, ?_, ?_⟩
      · intro g hg
        rcases List.mem_cons.1 hg with rfl | hg
        · rw [times_append, times_cons, if_pos he, hf1]
          have := (hout g.name hn'.1).2 hset1
          omega
        · have hne : g.name ≠ f.name := fun h => hn'.1 (h ▸ List.mem_map_of_mem hg)
          obtain ⟨i1, i2, i3⟩ := hin g hg
          rw [times_append, other _ hne]
          have hle := fr.le g.name
          refine ⟨by omega, ?_, fun hs => ?_⟩
          · by_cases h0 : timesStarted g.name l1 = 0
            · omega
            · have := i3 (after _ hne h0)
              omega
          · rw [fr.set _ hs, i3 (st1.mono _ hs)]
      · intro p hp
        have hne : p ≠ f.name := fun h => hp (by simp [h])
        obtain ⟨o1, o2⟩ := hout p fun h => hp (by rw [List.map_cons]; exact List.mem_cons_of_mem _ h)
        rw [times_append, other _ hne]
        have hle := fr.le p
        refine ⟨?_, fun hs => ?_⟩
        · by_cases h0 : timesStarted p l1 = 0
          · omega
          · have := o2 (after _ hne h0)
            omega
        · rw [fr.set _ hs, o2 (st1.mono _ hs)]

/-! ### Termination -/

theorem getAll_some {k : Str → Shell → Option (Nat × Shell)} : ∀ (deps : List Str) (sh : Shell),
    (∀ x ∈ deps, ∀ sh, k (funcName x) sh ≠ none) → getAll k deps sh ≠ none := by
  intro deps
  induction deps with
  | nil => intro sh _; simp [getAll]
  | cons d deps ih =>
    intro sh h
    have ih := fun sh => ih sh fun x hx => h x (List.mem_cons_of_mem _ hx)
    rw [getAll]
    split
    · cases hc : k (funcName d) sh with
      | none => exact absurd hc (h d (by simp) sh)
      | some r =>
        obtain ⟨code, sh1⟩ := r
        cases code with
        | zero => exact ih sh1
        | succ => simp
    · exact ih sh

theorem call_some {ds : List Decl} {s : Script} (c : Ctx ds s) {rank : Str → Nat}
    (hr : ∀ d ∈ ds, ∀ x ∈ d.deps, IsProc ds x → rank x < rank d.name) (beh : Behaviour) (root : Str) :
    ∀ (fuel : Nat), ∀ f ∈ s.funcs, rank f.name + 2 ≤ fuel → ∀ sh,
      call beh root s.funcs fuel (funcName f.name) sh ≠ none := by
  intro fuel
  induction fuel with
  | zero => intro f _ h; omega
  | succ fuel ih =>
    intro f hf hle sh
    rw [call, c.lookup_func hf]
    simp only
    have hg : getAll (call beh root s.funcs fuel) f.deps { sh with cwd := root } ≠ none := by
      refine getAll_some _ _ fun x hx sh => ?_
      rcases c.lookup (c.used hf hx) with ⟨g, hg, hgn, -⟩ | ⟨-, hl⟩
      · have := c.deps_rank hr hf x hx (c.isProc.2 ⟨g, hg, hgn⟩)
        rw [← hgn] at this ⊢
        exact ih g hg (by omega) sh
      · cases fuel with
        | zero => omega
        | succ fuel => simp [call, hl]
    cases hga : getAll (call beh root s.funcs fuel) f.deps { sh with cwd := root } with
    | none => exact absurd hga hg
    | some r =>
      obtain ⟨ok, sh1⟩ := r
      cases ok with
      | false => simp
      | true =>
        simp only
        split
        · split <;> simp
        · simp

theorem callAll_some {ds : List Decl} {s : Script} (c : Ctx ds s) {rank : Str → Nat}
    (hr : ∀ d ∈ ds, ∀ x ∈ d.deps, IsProc ds x → rank x < rank d.name) (beh : Behaviour) (root : Str)
    (fuel : Nat) (hfuel : ∀ f ∈ s.funcs, rank f.name + 2 ≤ fuel) : ∀ (fs : List Func),
      (∀ f ∈ fs, f ∈ s.funcs) → ∀ sh, callAll beh root s.funcs fuel fs sh ≠ none := by
  intro fs
  induction fs with
  | nil => intro _ sh; simp [callAll]
  | cons f fs ih =>
    intro hfs sh
    have hf := hfs f (by simp)
    rw [callAll]
    cases hc : call beh root s.funcs fuel (funcName f.name) sh with
    | none => exact absurd hc (call_some c hr beh root fuel f hf (hfuel f hf) sh)
    | some r => exact ih (fun g hg => hfs g (List.mem_cons_of_mem _ hg)) _

theorem bound (l : List Func) (rank : Str → Nat) : ∃ n, ∀ f ∈ l, rank f.name + 2 ≤ n := by
  induction l with
  | nil => exact ⟨0, by simp⟩
  | cons a l ih =>
    obtain ⟨n, hn⟩ := ih
    refine ⟨n + (rank a.name + 2), fun f hf => ?_⟩
    rcases List.mem_cons.1 hf with rfl | hf
    · omega
    · have := hn f hf; omega

/-! ### Processes in the order of their names -/

theorem callAll_once {ds : List Decl} {s : Script} (c : Ctx ds s) {beh : Behaviour}
    (hb : Succeed ds beh) (root : Str) (fuel : Nat)
    (hord : ∀ f ∈ s.funcs, ∀ x ∈ f.deps, IsProc ds x → x < f.name) :
    ∀ (fs pre : List Func), s.funcs = pre ++ fs → ∀ sh sh', ArgsSet ds sh.env →
      (∀ f ∈ pre, sh.env (envVar f.name) ≠ none) →
      callAll beh root s.funcs fuel fs sh = some sh' →
      ∃ l, sh'.starts = l ++ sh.starts ∧ l.reverse.map (·.proc) = fs.map (·.name) := by
  intro fs
  induction fs with
  | nil =>
    intro pre _ sh sh' _ _ h
    simp only [callAll, Option.some.injEq] at h
    exact ⟨[], by simp [h], rfl⟩
  | cons f fs ih =>
    intro pre hp sh sh' ha hset h
    have hf : f ∈ s.funcs := by rw [hp]; simp
    have hdeps : ∀ x ∈ f.deps, sh.env (envVar x) ≠ none := by
      intro x hx
      by_cases hx' : IsProc ds x
      · obtain ⟨g, hg, rfl⟩ := c.isProc.1 hx'
        have hlt := hord f hf _ hx hx'
        rw [hp] at hg
        rcases List.mem_append.1 hg with hg | hg
        · exact hset g hg
        · have hs := c.info.sorted
          rw [hp] at hs
          have hs := (List.pairwise_append.1 hs).2.1
          rcases List.mem_cons.1 hg with rfl | hg
          · exact absurd hlt Std.lt_irrefl
          · exact absurd (Std.lt_trans hlt ((List.pairwise_cons.1 hs).1 g hg)) Std.lt_irrefl
      · exact c.args_set ha hf hx hx'
    rw [callAll] at h
    cases fuel with
    | zero => simp [call] at h
    | succ fuel =>
      rw [call, c.lookup_func hf] at h
      simp only [getAll_set (sh := { sh with cwd := root }) hdeps] at h
      obtain ⟨h0, h1, h2⟩ := c.succeed hb hf
        { sh with cwd := root, starts := ⟨f.name, f.body, sh.env, root⟩ :: sh.starts }
      rw [if_pos h0, if_neg h1] at h
      simp only at h
      have hmono : ∀ x, sh.env x ≠ none → (beh f.body
          { sh with cwd := root, starts := ⟨f.name, f.body, sh.env, root⟩ :: sh.starts }).2.1 x ≠ none := by
        intro x hx
        by_cases he : x = envVar f.name
        · rw [he]; exact h1
        · rw [h2 x he]; exact hx
      have hset' : ∀ g ∈ pre ++ [f], (beh f.body
          { sh with cwd := root, starts := ⟨f.name, f.body, sh.env, root⟩ :: sh.starts }).2.1
            (envVar g.name) ≠ none := by
        intro g hg
        rcases List.mem_append.1 hg with hg | hg
        · exact hmono _ (hset g hg)
        · cases List.mem_singleton.1 hg
          exact h1
      obtain ⟨l, hl, hl'⟩ := ih (pre ++ [f]) (by rw [hp]; simp) _ sh'
        (fun d hd x hx hp => hmono _ (ha d hd x hx hp)) hset' h
      exact ⟨l ++ [⟨f.name, f.body, sh.env, root⟩], by rw [hl]; simp, by simp [hl']⟩

end Verif.Deploy.Run
