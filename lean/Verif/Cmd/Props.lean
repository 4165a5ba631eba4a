import Verif.Cmd.Spec
/-
C122: compiling from the command line.
-/
namespace Verif.Cmd
variable {W IR E : Type}

theorem find_filter (r : List (SpecOption W E)) (s : SpecOption W E) (n : Name) (h : s.name ≠ n) :
    (r.filter (fun x => x.name != s.name)).find? (fun x => x.name == n) = r.find? (fun x => x.name == n) := by
  induction r with
  | nil => rfl
  | cons x r ih =>
    by_cases e : x.name = s.name
    · rw [List.filter_cons_of_neg (by simp [e]), ih, List.find?_cons_of_neg (by simp [e, h])]
    · rw [List.filter_cons_of_pos (by simp [e])]
      by_cases en : x.name = n
      · rw [List.find?_cons_of_pos (by simp [en]), List.find?_cons_of_pos (by simp [en])]
      · rw [List.find?_cons_of_neg (by simp [en]), List.find?_cons_of_neg (by simp [en]), ih]

theorem lookup_add (n : Name) : ∀ (specs reg : List (SpecOption W E)) (s : SpecOption W E),
    lookup (add reg specs) n = some s ↔ Selected specs n s ∨ (lookup reg n = some s ∧ ∀ t ∈ specs, t.name ≠ n)
  | [], reg, s => by simp [add, Selected]
  | x :: specs, reg, s => by
    show lookup (add (x :: reg.filter (fun y => y.name != x.name)) specs) n = some s ↔ _
    rw [lookup_add n specs _ s]
    have sel : Selected (x :: specs) n s ↔ Selected specs n s ∨ (s = x ∧ x.name = n ∧ ∀ t ∈ specs, t.name ≠ n) := by
      constructor
      · rintro ⟨a, b, e, h1, h2⟩
        cases a with
        | nil => simp at e; obtain ⟨rfl, rfl⟩ := e; exact .inr ⟨rfl, h1, h2⟩
        | cons y a => simp at e; obtain ⟨rfl, rfl⟩ := e; exact .inl ⟨a, b, rfl, h1, h2⟩
      · rintro (⟨a, b, e, h1, h2⟩ | ⟨rfl, h1, h2⟩)
        · exact ⟨x :: a, b, by rw [e]; rfl, h1, h2⟩
        · exact ⟨[], specs, rfl, h1, h2⟩
    rw [sel]
    by_cases hx : x.name = n
    · have : lookup (x :: reg.filter (fun y => y.name != x.name)) n = some x := by simp [lookup, hx]
      rw [this]
      simp only [Option.some.injEq, List.mem_cons, forall_eq_or_imp, hx, ne_eq, not_true_eq_false, false_and, and_false, or_false, true_and]
      constructor
      · rintro (h | ⟨h1, h2⟩)
        · exact .inl h
        · exact .inr ⟨h1.symm, h2⟩
      · rintro (h | ⟨h1, h2⟩)
        · exact .inl h
        · exact .inr ⟨h1.symm, h2⟩
    · have : lookup (x :: reg.filter (fun y => y.name != x.name)) n = lookup reg n := by
        unfold lookup
        rw [List.find?_cons_of_neg (by simp [hx])]
        exact find_filter reg x n hx
      rw [this]
      simp [hx]

theorem lookup_none (specs : List (SpecOption W E)) (n : Name) : lookup (add [] specs) n = none ↔ ∀ t ∈ specs, t.name ≠ n := by
  constructor
  · intro h t0 ht0 e0
    -- the last one with this name
    have : ∀ t ∈ specs, t.name = n → ∃ s, Selected specs n s := by
      clear h ht0 e0
      intro t ht e
      induction specs generalizing t with
      | nil => cases ht
      | cons x specs ih =>
        by_cases hs : ∃ t ∈ specs, t.name = n
        · obtain ⟨t, ht, e⟩ := hs
          obtain ⟨s, a, b, e', h⟩ := ih t ht e
          exact ⟨s, x :: a, b, by rw [e']; rfl, h⟩
        · rcases List.mem_cons.1 ht with rfl | ht
          · exact ⟨t, [], specs, rfl, e, fun u hu e => hs ⟨u, hu, e⟩⟩
          · exact absurd ⟨t, ht, e⟩ hs
    obtain ⟨s, hs⟩ := this t0 ht0 e0
    rw [(lookup_add n specs [] s).2 (.inl hs)] at h
    cases h
  · intro h
    cases hl : lookup (add [] specs) n with
    | none => rfl
    | some s =>
      rcases (lookup_add n specs [] s).1 hl with ⟨a, b, e, h1, h2⟩ | ⟨h1, _⟩
      · exact absurd h1 (h s (by rw [e]; simp))
      · cases h1

theorem analyse_ok (w : W) : ∀ (ps : List (W → IR → Except E IR)) (a b : IR), analyse w ps a = .ok b ↔ Analysed w ps a b
  | [], a, b => by
    constructor
    · intro h
      injection h with h
      rw [h]
      exact .nil b
    · intro h
      cases h
      rfl
  | p :: ps, a, b => by
    unfold analyse
    constructor
    · intro h
      cases hp : p w a with
      | error e => rw [hp] at h; cases h
      | ok c => rw [hp] at h; exact .cons hp ((analyse_ok w ps c b).1 h)
    · intro h
      cases h with
      | cons hp h => rw [hp]; exact (analyse_ok w ps _ b).2 h

theorem build_ok (env : Env W IR E) (passes : List (W → IR → Except E IR)) (s : SpecOption W E) (f : Flags) :
    (∀ ir, Compiles env passes s ir → build env passes s f = (env.generate f.output ir,
      (.registerDefaults :: if f.env then [.assignPorts (startPort f)] else []) ++ [.generate f.output ir])) ∧
    ((∀ ir, ¬ Compiles env passes s ir) → ∃ e, build env passes s f = (some e,
      .registerDefaults :: if f.env then [.assignPorts (startPort f)] else [])) := by
  constructor
  · rintro ir ⟨w, nodes, first, h1, h2, h3⟩
    unfold build
    simp only [h1, h2, (analyse_ok w passes first ir).2 h3]
  · intro h
    unfold build
    cases h1 : s.build env.new with
    | error e => exact ⟨e, rfl⟩
    | ok r =>
      obtain ⟨w, nodes⟩ := r
      simp only
      cases h2 : env.buildIR w nodes with
      | error e => exact ⟨e, rfl⟩
      | ok first =>
        simp only
        cases h3 : analyse w passes first with
        | error e => exact ⟨e, rfl⟩
        | ok ir => exact absurd ⟨w, nodes, first, h1, h2, (analyse_ok w passes first ir).1 h3⟩ (h ir)

/-- C122: the program ends with status 1, and has done nothing, exactly if there is no output directory, no spec is selected, or none has
the name that is selected. -/
theorem C122_refused (env : Env W IR E) (passes : List (W → IR → Except E IR)) (specs : List (SpecOption W E)) (f : Flags) :
    ((run env passes specs f).1 = 1 ↔ f.output = [] ∨ f.spec = [] ∨ ∀ s ∈ specs, s.name ≠ f.spec) ∧
    ((run env passes specs f).1 = 1 → (run env passes specs f).2 = []) := by
  unfold run
  cases hv : validate (add [] specs) f with
  | none =>
    refine ⟨⟨fun _ => ?_, fun _ => rfl⟩, fun _ => rfl⟩
    unfold validate at hv
    split at hv
    · next h => exact .inl h
    · split at hv
      · next h => exact .inr (.inl h)
      · exact .inr (.inr ((lookup_none specs f.spec).1 hv))
  | some s =>
    unfold validate at hv
    have no : ¬ (f.output = [] ∨ f.spec = [] ∨ ∀ s ∈ specs, s.name ≠ f.spec) := by
      split at hv
      · cases hv
      · next h1 =>
        split at hv
        · cases hv
        · next h2 =>
          rintro (h | h | h)
          · exact h1 h
          · exact h2 h
          · rw [(lookup_none specs f.spec).2 h] at hv
            cases hv
    simp only
    cases hb : build env passes s f with
    | mk e l => cases e <;> simp [no]

theorem validate_selected {specs : List (SpecOption W E)} {f : Flags} {s : SpecOption W E} (ho : f.output ≠ []) (hs : f.spec ≠ [])
    (h : Selected specs f.spec s) : validate (add [] specs) f = some s := by
  unfold validate
  rw [if_neg ho, if_neg hs]
  exact (lookup_add f.spec specs [] s).2 (.inl h)

/-- C122: otherwise the spec of that name that was given last is compiled.  If it compiles, after all passes, the artifacts of exactly this
IR are generated in the output directory, as the last thing, and the status is 0 if that succeeds and 2 if not; if it does not compile the
status is 2 and nothing is generated. -/
theorem C122_compiles (env : Env W IR E) (passes : List (W → IR → Except E IR)) (specs : List (SpecOption W E)) (f : Flags)
    (s : SpecOption W E) (ho : f.output ≠ []) (hs : f.spec ≠ []) (h : Selected specs f.spec s) :
    (∀ ir, Compiles env passes s ir →
      ((run env passes specs f).1 = 0 ↔ env.generate f.output ir = none) ∧
      ((run env passes specs f).1 = 2 ↔ env.generate f.output ir ≠ none) ∧
      ∃ before, (run env passes specs f).2 = before ++ [.generate f.output ir] ∧ ∀ d i, .generate d i ∉ before) ∧
    ((∀ ir, ¬ Compiles env passes s ir) → (run env passes specs f).1 = 2 ∧ ∀ d i, .generate d i ∉ (run env passes specs f).2) := by
  have hv := validate_selected ho hs h
  obtain ⟨b1, b2⟩ := build_ok env passes s f
  constructor
  · intro ir hc
    have hb := b1 ir hc
    cases hg : env.generate f.output ir with
    | none =>
      rw [hg] at hb
      simp only [run, hv, hb]
      refine ⟨by simp, by simp, _, (List.append_assoc _ _ _).symm, fun d i hm => ?_⟩
      cases f.quiet <;> cases f.env <;> simp at hm
    | some e =>
      rw [hg] at hb
      simp only [run, hv, hb]
      refine ⟨by simp, by simp, _, (List.append_assoc _ _ _).symm, fun d i hm => ?_⟩
      cases f.quiet <;> cases f.env <;> simp at hm
  · intro hc
    obtain ⟨e, hb⟩ := b2 hc
    simp only [run, hv, hb]
    refine ⟨trivial, fun d i hm => ?_⟩
    cases f.quiet <;> cases f.env <;> simp at hm

/-- C122: ports are assigned, from the given one on, exactly if that is not switched off.
Missing from the full property: ports that do not exist (`C122_port_refuted`). -/
theorem C122_ports_partial (env : Env W IR E) (passes : List (W → IR → Except E IR)) (specs : List (SpecOption W E)) (f : Flags)
    (s : SpecOption W E) (ho : f.output ≠ []) (hs : f.spec ≠ []) (h : Selected specs f.spec s) (hp : f.port < 65536) (p : Nat) :
    .assignPorts p ∈ (run env passes specs f).2 ↔ f.env = true ∧ p = f.port := by
  have hv := validate_selected ho hs h
  obtain ⟨b1, b2⟩ := build_ok env passes s f
  have hsp : startPort f = f.port := Nat.mod_eq_of_lt hp
  by_cases hc : ∃ ir, Compiles env passes s ir
  · obtain ⟨ir, hc⟩ := hc
    have hb := b1 ir hc
    cases hg : env.generate f.output ir <;> rw [hg] at hb <;> simp only [run, hv, hb, hsp] <;> cases f.quiet <;> cases f.env <;> simp
  · obtain ⟨e, hb⟩ := b2 fun ir h => hc ⟨ir, h⟩
    simp only [run, hv, hb, hsp]
    cases f.quiet <;> cases f.env <;> simp

/-- C122: a port that does not exist is not refused: another one is used. -/
theorem C122_port_refuted (f : Flags) (k : Nat) (h : f.port = 65536 + k) (hk : k < 65536) : startPort f = k ∧ startPort f ≠ f.port := by
  unfold startPort
  omega

/-- C122: two specs of the same name are not refused: the first one cannot be compiled. -/
theorem C122_duplicate_refuted (env : Env W IR E) (passes : List (W → IR → Except E IR)) (s t : SpecOption W E) (f : Flags)
    (h : s.name = t.name) : run env passes [s, t] f = run env passes [t] f := by
  simp [run, add, h]

/-! ### A concrete case -/

def exSpecs : List (SpecOption Nat Unit) :=
  [⟨"a".toList, [], fun w => .ok (w + 1, [])⟩, ⟨"b".toList, [], fun _ => .error ()⟩, ⟨"a".toList, [], fun w => .ok (w + 2, [])⟩]
def exEnv : Env Nat Nat Unit := ⟨0, fun w _ => .ok (10 * w), fun _ ir => if ir = 21 then none else some ()⟩

example : run exEnv [fun _ ir => .ok (ir + 1)] exSpecs ⟨"out".toList, "a".toList, true, true, 70000⟩ =
    (0, [.suppressLogging, .registerDefaults, .assignPorts 4464, .generate "out".toList 21]) := by decide +kernel
example : run exEnv [] exSpecs ⟨"out".toList, "b".toList, false, false, 12345⟩ = (2, [.registerDefaults]) := by decide +kernel
example : run exEnv [] exSpecs ⟨"out".toList, "c".toList, false, false, 12345⟩ = (1, []) := by decide +kernel
example : Selected exSpecs "a".toList ⟨"a".toList, [], fun w => .ok (w + 2, [])⟩ := ⟨exSpecs.take 2, [], rfl, rfl, nofun⟩

end Verif.Cmd
