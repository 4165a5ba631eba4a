import Verif.Deploy.RunProps

/-
C63: the variables with which run.sh starts processes.
-/
namespace Verif.Deploy.Run
open Verif.Strings

/-- Variables of `V` are unchanged, now and in everything that was started. -/
structure Unchanged (V : Str → Prop) (sh sh' : Shell) : Prop where
  env : ∀ x, V x → sh'.env x = sh.env x
  starts : ∃ l, sh'.starts = l ++ sh.starts ∧ ∀ e ∈ l, ∀ x, V x → e.env x = sh.env x

theorem Unchanged.refl (V : Str → Prop) (sh : Shell) : Unchanged V sh sh := ⟨fun _ _ => rfl, [], rfl, by simp⟩

theorem Unchanged.trans {V : Str → Prop} {a b c : Shell} (h : Unchanged V a b) (h' : Unchanged V b c) : Unchanged V a c := by
  obtain ⟨l, h1, h2⟩ := h.starts
  obtain ⟨l', h3, h4⟩ := h'.starts
  refine ⟨fun x hx => (h'.env x hx).trans (h.env x hx), l' ++ l, by rw [h3, h1, List.append_assoc], ?_⟩
  intro e he x hx
  rcases List.mem_append.1 he with he | he
  · rw [h4 e he x hx, h.env x hx]
  · exact h2 e he x hx

theorem getAll_unchanged {V : Str → Prop} {k : Str → Shell → Option (Nat × Shell)}
    (hk : ∀ n sh code sh', k n sh = some (code, sh') → Unchanged V sh sh') :
    ∀ (deps : List Str) (sh : Shell) (b : Bool) (sh' : Shell), getAll k deps sh = some (b, sh') → Unchanged V sh sh' := by
  intro deps
  induction deps with
  | nil =>
    intro sh b sh' h
    simp only [getAll, Option.some.injEq, Prod.mk.injEq] at h
    rw [h.2]; exact .refl _ _
  | cons d ds ih =>
    intro sh b sh' h
    simp only [getAll] at h
    split at h
    · cases hc : k (funcName d) sh with
      | none => simp [hc] at h
      | some r =>
        obtain ⟨code, sh1⟩ := r
        have h1 := hk _ _ _ _ hc
        cases code with
        | zero =>
          simp only [hc] at h
          exact h1.trans (ih _ _ _ h)
        | succ c =>
          simp only [hc, Option.some.injEq, Prod.mk.injEq] at h
          rw [← h.2]; exact h1
    · exact ih _ _ _ h

theorem call_unchanged {ds : List Decl} {s : Script} (c : Ctx ds s) {beh : Behaviour} (hb : Succeed ds beh) (root : Str) :
    ∀ (fuel : Nat) (n : Str) (sh : Shell) (code : Nat) (sh' : Shell), call beh root s.funcs fuel n sh = some (code, sh') →
      Unchanged (fun x => ∀ d ∈ ds, x ≠ envVar d.name) sh sh' := by
  intro fuel
  induction fuel with
  | zero => intro n sh code sh' h; simp [call] at h
  | succ fuel ih =>
    intro n sh code sh' h
    simp only [call] at h
    cases hl : lookup s.funcs n with
    | none =>
      simp only [hl, Option.some.injEq, Prod.mk.injEq] at h
      rw [h.2]; exact .refl _ _
    | some f =>
      have hf : f ∈ s.funcs := by
        have := List.mem_of_find?_eq_some hl
        simpa using this
      obtain ⟨d, hd, h1, h2, h3⟩ := c.decl hf
      simp only [hl] at h
      cases hg : getAll (call beh root s.funcs fuel) f.deps { sh with cwd := root } with
      | none => simp [hg] at h
      | some r =>
        obtain ⟨b, sh1⟩ := r
        have hu := getAll_unchanged (V := fun x => ∀ d ∈ ds, x ≠ envVar d.name) (fun _ _ _ _ h => ih _ _ _ _ h) _ _ _ _ hg
        have hu' : Unchanged (fun x => ∀ d ∈ ds, x ≠ envVar d.name) sh sh1 := ⟨hu.env, hu.starts⟩
        rw [hg] at h
        cases b with
        | false =>
          simp only [Option.some.injEq, Prod.mk.injEq] at h
          rw [← h.2]; exact hu'
        | true =>
          simp only at h
          let sh2 : Shell := { sh1 with starts := ⟨f.name, f.body, sh1.env, sh1.cwd⟩ :: sh1.starts }
          obtain ⟨-, -, hs⟩ := hb d hd f.body h3 sh2
          have key : ∀ cwd, Unchanged (fun x => ∀ d ∈ ds, x ≠ envVar d.name) sh1 ⟨(beh f.body sh2).2.1, cwd, sh2.starts⟩ := by
            intro cwd
            refine ⟨fun x hx => hs x (hx d hd), [⟨f.name, f.body, sh1.env, sh1.cwd⟩], rfl, ?_⟩
            intro e he x _
            cases List.mem_singleton.1 he
            rfl
          have : sh' = ⟨(beh f.body sh2).2.1, (beh f.body sh2).2.2, sh2.starts⟩ := by
            split at h
            · split at h <;> · simp only [Option.some.injEq, Prod.mk.injEq] at h; exact h.2.symm
            · simp only [Option.some.injEq, Prod.mk.injEq] at h; exact h.2.symm
          rw [this]
          exact hu'.trans (key _)

/-- C63: if the start commands succeed, every process is started with the variables that the caller of the script has set, apart from the
variables of the processes themselves. -/
theorem C63_environment (ds : List Decl) (hw : WellFormed ds) (s : Script) (hg : Generated ds s) (beh : Behaviour)
    (hb : Succeed ds beh) (sh : Shell) (hempty : sh.starts = []) (status : Nat) (sh' : Shell) (h : Ends beh s sh status sh')
    (e : Start) (he : e ∈ sh'.starts) (x : Str) (hx : ∀ d ∈ ds, x ≠ envVar d.name) : e.env x = sh.env x := by
  have c := Ctx.mk' hw hg
  have all : ∀ (fuel : Nat) (fs : List Func) (root : Str) (sh sh' : Shell), callAll beh root s.funcs fuel fs sh = some sh' →
      Unchanged (fun x => ∀ d ∈ ds, x ≠ envVar d.name) sh sh' := by
    intro fuel fs root
    induction fs with
    | nil =>
      intro sh sh' h
      simp only [callAll, Option.some.injEq] at h
      rw [h]; exact .refl _ _
    | cons f fs ih =>
      intro sh sh' h
      simp only [callAll] at h
      cases hc : call beh root s.funcs fuel (funcName f.name) sh with
      | none => simp [hc] at h
      | some r =>
        simp only [hc] at h
        exact (call_unchanged c hb root _ _ _ _ _ hc).trans (ih _ _ h)
  obtain ⟨fuel, h⟩ := h
  unfold runAll at h
  split at h
  · simp only [Option.some.injEq, Prod.mk.injEq] at h
    rw [← h.2, hempty] at he
    cases he
  · cases hc : callAll beh sh.cwd s.funcs fuel s.funcs sh with
    | none => simp [hc] at h
    | some r =>
      simp only [hc, Option.some.injEq, Prod.mk.injEq] at h
      obtain ⟨l, h1, h2⟩ := (all _ _ _ _ _ hc).starts
      rw [← h.2, h1, hempty, List.append_nil] at he
      exact h2 e he x hx

end Verif.Deploy.Run
