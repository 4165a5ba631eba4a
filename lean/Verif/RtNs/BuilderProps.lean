import Verif.RtNs.BuilderModel
/-
C11: where a runtime namespace takes its configuration from.
-/
namespace Verif.RtNs

/-- Specification: the last explicit definition a program gives to a name. -/
def lastDef : List Op → Name → Option Src
  | [], _ => none
  | op :: ops, n =>
    match lastDef ops n with
    | some d => some d
    | none =>
      match op with
      | .define m f => if m = n then some (.defined f) else none
      | .set m v => if m = n then some (.value v) else none
      | _ => none

/-- Specification: the flag, or else the environment variable. -/
def given (w : World) (n : Name) : Option Src :=
  if w.flag n ≠ "" then some (.value (w.flag n))
  else if envOf w n ≠ "" then some (.value (envOf w n))
  else none

/-- Specification: explicit definition, then flag, then environment variable, then (for
optional arguments) a definition that fails when it is used. -/
def expected (w : World) (ops : List Op) (n : Name) : Option Src :=
  match lastDef ops n with
  | some d => some d
  | none =>
    if .required n ∈ ops then given w n
    else if .optional n ∈ ops then (given w n).orElse fun _ => some (.unset n)
    else none

/-- The names a program declares as arguments, in order. -/
def declared : List Op → List Name
  | [] => []
  | .required n :: ops => n :: declared ops
  | .optional n :: ops => n :: declared ops
  | _ :: ops => declared ops

theorem mem_declared {ops : List Op} {n : Name} :
    n ∈ declared ops ↔ .required n ∈ ops ∨ .optional n ∈ ops := by
  induction ops with
  | nil => simp [declared]
  | cons op ops ih => cases op <;> simp [declared, ih, or_assoc, or_left_comm]

theorem run_spec : ∀ (ops : List Op) (reg : List Name) (b : Builder),
    (∀ r, Builder.run reg b ops = some r →
      (∀ n, r.2.defs n = match lastDef ops n with
        | some d => some d
        | none => b.defs n) ∧
      (∃ l, r.2.required = b.required ++ l ∧ (∀ n, n ∈ l ↔ .required n ∈ ops) ∧ l.Nodup) ∧
      (∃ l, r.2.optional = b.optional ++ l ∧ (∀ n, n ∈ l ↔ .optional n ∈ ops) ∧ l.Nodup) ∧
      (∀ n, ¬ (.required n ∈ ops ∧ .optional n ∈ ops)) ∧
      (∀ n, n ∈ r.1 ↔ n ∈ reg ∨ n ∈ declared ops) ∧ r.2.parsed = b.parsed) ∧
    (Builder.run reg b ops = none ↔ ¬ (declared ops).Nodup ∨ ∃ n ∈ declared ops, n ∈ reg) := by
  intro ops
  induction ops with
  | nil =>
    intro reg b
    refine ⟨?_, by simp [Builder.run, declared]⟩
    intro r h
    simp only [Builder.run, Option.some.injEq] at h
    subst h
    exact ⟨fun _ => rfl, ⟨[], by simp⟩, ⟨[], by simp⟩, by simp, by simp [declared], rfl⟩
  | cons op ops ih =>
    intro reg b
    cases op with
    | define n f =>
      have := ih reg (b.define n (.defined f))
      simp only [Builder.run, Builder.step, declared] at this ⊢
      refine ⟨fun r h => ?_, this.2⟩
      obtain ⟨h1, h2, h3, h4, h5, h6⟩ := this.1 r h
      refine ⟨?_, ?_, ?_, ?_, h5, h6⟩
      · intro m
        rw [h1 m]
        simp only [lastDef]
        cases lastDef ops m with
        | some d => rfl
        | none =>
          by_cases hm : n = m
          · simp [hm, Builder.define]
          · simp [hm, Builder.define, Ne.symm hm]
      · simpa [Builder.define] using h2
      · simpa [Builder.define] using h3
      · simpa using h4
    | set n v =>
      have := ih reg (b.define n (.value v))
      simp only [Builder.run, Builder.step, declared] at this ⊢
      refine ⟨fun r h => ?_, this.2⟩
      obtain ⟨h1, h2, h3, h4, h5, h6⟩ := this.1 r h
      refine ⟨?_, ?_, ?_, ?_, h5, h6⟩
      · intro m
        rw [h1 m]
        simp only [lastDef]
        cases lastDef ops m with
        | some d => rfl
        | none =>
          by_cases hm : n = m
          · simp [hm, Builder.define]
          · simp [hm, Builder.define, Ne.symm hm]
      · simpa [Builder.define] using h2
      · simpa [Builder.define] using h3
      · simpa using h4
    | required n =>
      by_cases hn : n ∈ reg
      · simp [Builder.run, Builder.step, hn, declared]
      · have := ih (n :: reg) { b with required := b.required ++ [n] }
        have hstep : Builder.run reg b (.required n :: ops) =
            Builder.run (n :: reg) { b with required := b.required ++ [n] } ops := by
          simp [Builder.run, Builder.step, hn]
        rw [hstep]
        refine ⟨fun r h => ?_, ?_⟩
        · obtain ⟨h1, ⟨l, h2, h2', h2''⟩, ⟨l', h3, h3', h3''⟩, h4, h5, h6⟩ := this.1 r h
          have hnot := mt this.2.2 (by rw [h]; simp)
          simp only [not_or, not_exists, not_and, Classical.not_not] at hnot
          have hnd : n ∉ declared ops := fun hd => hnot.2 n hd (by simp)
          rw [mem_declared] at hnd
          simp only [not_or] at hnd
          refine ⟨?_, ⟨n :: l, ?_, ?_, ?_⟩, ⟨l', h3, ?_, h3''⟩, ?_, ?_, h6⟩
          · intro m
            rw [h1 m]
            simp only [lastDef]
            cases lastDef ops m <;> rfl
          · simp [h2]
          · intro m; simp [h2']
          · exact List.nodup_cons.2 ⟨by rw [h2']; exact hnd.1, h2''⟩
          · intro m; simp [h3']
          · intro m
            simp only [List.mem_cons, Op.required.injEq, reduceCtorEq, false_or]
            rintro ⟨rfl | h, h'⟩
            · exact hnd.2 h'
            · exact h4 m ⟨h, h'⟩
          · intro m
            rw [h5 m]
            simp only [declared, List.mem_cons]
            constructor
            · rintro ((h | h) | h) <;> simp [h]
            · rintro (h | h | h) <;> simp [h]
        · rw [this.2]
          simp only [declared, List.nodup_cons, List.mem_cons]
          constructor
          · rintro (h | ⟨m, hm, rfl | hr⟩)
            · exact .inl fun h' => h h'.2
            · exact .inl fun h' => h'.1 hm
            · exact .inr ⟨m, .inr hm, hr⟩
          · rintro (h | ⟨m, rfl | hm, hr⟩)
            · by_cases hd : n ∈ declared ops
              · exact .inr ⟨n, hd, .inl rfl⟩
              · exact .inl fun h' => h ⟨hd, h'⟩
            · exact absurd hr hn
            · exact .inr ⟨m, hm, .inr hr⟩
    | optional n =>
      by_cases hn : n ∈ reg
      · simp [Builder.run, Builder.step, hn, declared]
      · have := ih (n :: reg) { b with optional := b.optional ++ [n] }
        have hstep : Builder.run reg b (.optional n :: ops) =
            Builder.run (n :: reg) { b with optional := b.optional ++ [n] } ops := by
          simp [Builder.run, Builder.step, hn]
        rw [hstep]
        refine ⟨fun r h => ?_, ?_⟩
        · obtain ⟨h1, ⟨l, h2, h2', h2''⟩, ⟨l', h3, h3', h3''⟩, h4, h5, h6⟩ := this.1 r h
          have hnot := mt this.2.2 (by rw [h]; simp)
          simp only [not_or, not_exists, not_and, Classical.not_not] at hnot
          have hnd : n ∉ declared ops := fun hd => hnot.2 n hd (by simp)
          rw [mem_declared] at hnd
          simp only [not_or] at hnd
          refine ⟨?_, ⟨l, h2, ?_, h2''⟩, ⟨n :: l', ?_, ?_, ?_⟩, ?_, ?_, h6⟩
          · intro m
            rw [h1 m]
            simp only [lastDef]
            cases lastDef ops m <;> rfl
          · intro m; simp [h2']
          · simp [h3]
          · intro m; simp [h3']
          · exact List.nodup_cons.2 ⟨by rw [h3']; exact hnd.2, h3''⟩
          · intro m
            simp only [List.mem_cons, Op.optional.injEq, reduceCtorEq, false_or]
            rintro ⟨hq, rfl | h'⟩
            · exact hnd.1 hq
            · exact h4 m ⟨hq, h'⟩
          · intro m
            rw [h5 m]
            simp only [declared, List.mem_cons]
            constructor
            · rintro ((h | h) | h) <;> simp [h]
            · rintro (h | h | h) <;> simp [h]
        · rw [this.2]
          simp only [declared, List.nodup_cons, List.mem_cons]
          constructor
          · rintro (h | ⟨m, hm, rfl | hr⟩)
            · exact .inl fun h' => h h'.2
            · exact .inl fun h' => h'.1 hm
            · exact .inr ⟨m, .inr hm, hr⟩
          · rintro (h | ⟨m, rfl | hm, hr⟩)
            · by_cases hd : n ∈ declared ops
              · exact .inr ⟨n, hd, .inl rfl⟩
              · exact .inl fun h' => h ⟨hd, h'⟩
            · exact absurd hr hn
            · exact .inr ⟨m, hm, .inr hr⟩

theorem parseRequired_defs (w : World) (b : Builder) (n m : Name) :
    (b.parseRequired w n).defs m =
      if m = n then (b.defs n).orElse (fun _ => given w n) else b.defs m := by
  unfold Builder.parseRequired given
  by_cases hm : m = n
  · subst hm
    cases hd : b.defs m with
    | some d => simp [hd]
    | none =>
      by_cases h1 : w.flag m = "" <;> by_cases h2 : envOf w m = "" <;>
        simp [hd, h1, h2, Builder.define]
  · by_cases h0 : (b.defs n).isSome <;> by_cases h1 : w.flag n = "" <;>
      by_cases h2 : envOf w n = "" <;> simp [h0, h1, h2, Builder.define, hm]

theorem parseOptional_defs (w : World) (b : Builder) (n m : Name) :
    (b.parseOptional w n).defs m =
      if m = n then (b.defs n).orElse (fun _ => (given w n).orElse fun _ => some (.unset n))
      else b.defs m := by
  unfold Builder.parseOptional given
  by_cases hm : m = n
  · subst hm
    cases hd : b.defs m with
    | some d => simp [hd]
    | none =>
      by_cases h1 : w.flag m = "" <;> by_cases h2 : envOf w m = "" <;>
        simp [hd, h1, h2, Builder.define]
  · by_cases h0 : (b.defs n).isSome <;> by_cases h1 : w.flag n = "" <;>
      by_cases h2 : envOf w n = "" <;> simp [h0, h1, h2, Builder.define, hm]

theorem foldRequired_defs (w : World) : ∀ (l : List Name) (b : Builder) (m : Name),
    (l.foldl (Builder.parseRequired w) b).defs m =
      if m ∈ l then (b.defs m).orElse (fun _ => given w m) else b.defs m := by
  intro l
  induction l with
  | nil => simp
  | cons n l ih =>
    intro b m
    rw [List.foldl_cons, ih, parseRequired_defs]
    by_cases hm : m = n
    · subst hm
      cases b.defs m <;> cases given w m <;> simp
    · simp [hm]

theorem foldOptional_defs (w : World) : ∀ (l : List Name) (b : Builder) (m : Name),
    (l.foldl (Builder.parseOptional w) b).defs m =
      if m ∈ l then (b.defs m).orElse (fun _ => (given w m).orElse fun _ => some (.unset m))
      else b.defs m := by
  intro l
  induction l with
  | nil => simp
  | cons n l ih =>
    intro b m
    rw [List.foldl_cons, ih, parseOptional_defs]
    by_cases hm : m = n
    · subst hm
      cases b.defs m <;> cases given w m <;> simp
    · simp [hm]

/-- The definitions after the flags have been parsed are the expected ones. -/
theorem parse_defs (w : World) {reg reg' : List Name} {ops : List Op} {b : Builder}
    (hr : Builder.run reg .new ops = some (reg', b)) {ro oo : List Name}
    (hro : ro.Perm b.required) (hoo : oo.Perm b.optional) (n : Name) :
    (b.parseFlags w ro oo).defs n = expected w ops n := by
  obtain ⟨h1, ⟨l, h2, h2', -⟩, ⟨l', h3, h3', -⟩, h4, -, h6⟩ := (run_spec ops reg .new).1 _ hr
  simp only [Builder.new, List.nil_append] at h1 h2 h3 h6
  have e1 : n ∈ ro ↔ .required n ∈ ops := by rw [hro.mem_iff, h2, h2']
  have e2 : n ∈ oo ↔ .optional n ∈ ops := by rw [hoo.mem_iff, h3, h3']
  unfold Builder.parseFlags
  rw [h6]
  simp only [Bool.false_eq_true, if_false]
  rw [foldOptional_defs, foldRequired_defs]
  simp only [e1, e2, h1 n, expected]
  cases hd : lastDef ops n with
  | some d => simp
  | none =>
    by_cases hrq : Op.required n ∈ ops
    · have : Op.optional n ∉ ops := fun h => h4 n ⟨hrq, h⟩
      simp [hrq, this]
    · simp [hrq]

/-- C11: configuration calls panic exactly when an argument is declared twice, by this
builder or by any other builder of the process. -/
theorem C11_redeclared_panics (reg : List Name) (ops : List Op) :
    Builder.run reg .new ops = none ↔
      ¬ (declared ops).Nodup ∨ ∃ n, (.required n ∈ ops ∨ .optional n ∈ ops) ∧ n ∈ reg := by
  rw [(run_spec ops reg .new).2]
  simp only [mem_declared]

/-- C11: Build.  Whatever the order in which Go ranges over the arguments: if it
succeeds, every name is defined as expected; it fails exactly when a required argument
has neither definition nor flag nor environment variable, and the error names all of
these and nothing else, each once. -/
theorem C11_build (w : World) {reg reg' : List Name} {ops : List Op} {b : Builder}
    (hr : Builder.run reg .new ops = some (reg', b)) {ro oo rc : List Name}
    (hro : ro.Perm b.required) (hoo : oo.Perm b.optional) (hrc : rc.Perm b.required) :
    match (b.build w ro oo rc).2 with
    | .ok defs => (∀ n, defs n = expected w ops n) ∧
        ∀ n, .required n ∈ ops → expected w ops n ≠ none
    | .missing names => names ≠ [] ∧ names.Nodup ∧
        ∀ n, n ∈ names ↔ .required n ∈ ops ∧ lastDef ops n = none ∧ w.flag n = "" ∧ envOf w n = "" := by
  obtain ⟨-, ⟨l, h2, h2', h2''⟩, -, -, -, -⟩ := (run_spec ops reg .new).1 _ hr
  simp only [Builder.new, List.nil_append] at h2
  have hmem : ∀ n, n ∈ (b.parseFlags w ro oo).missing rc (fun _ => false) ↔
      .required n ∈ ops ∧ expected w ops n = none := by
    intro n
    simp only [Builder.missing, List.mem_filter, hrc.mem_iff, h2, h2', parse_defs w hr hro hoo]
    cases expected w ops n <;> simp
  have hnd : ((b.parseFlags w ro oo).missing rc (fun _ => false)).Nodup := by
    refine List.filter_sublist.nodup ?_
    rw [hrc.nodup_iff, h2]; exact h2''
  have hexp : ∀ n, .required n ∈ ops →
      (expected w ops n = none ↔ lastDef ops n = none ∧ w.flag n = "" ∧ envOf w n = "") := by
    intro n hq
    unfold expected given
    cases lastDef ops n with
    | some d => simp
    | none =>
      by_cases h1 : w.flag n = "" <;> by_cases h2 : envOf w n = "" <;> simp [hq, h1, h2]
  unfold Builder.build
  simp only []
  cases hm : (b.parseFlags w ro oo).missing rc (fun _ => false) with
  | nil =>
    refine ⟨fun n => parse_defs w hr hro hoo n, fun n hq he => ?_⟩
    have := (hmem n).2 ⟨hq, he⟩
    rw [hm] at this
    simp at this
  | cons m ms =>
    rw [hm] at hmem hnd
    refine ⟨by simp, hnd, fun n => ?_⟩
    rw [hmem]
    constructor
    · rintro ⟨a, c⟩; exact ⟨a, (hexp n a).1 c⟩
    · rintro ⟨a, c⟩; exact ⟨a, (hexp n a).2 c⟩

/-- C11: an unset optional argument never makes Build fail. -/
theorem C11_optional_never_missing (w : World) {reg reg' : List Name} {ops : List Op} {b : Builder}
    (hr : Builder.run reg .new ops = some (reg', b)) {ro oo rc : List Name}
    (hro : ro.Perm b.required) (hoo : oo.Perm b.optional) (hrc : rc.Perm b.required)
    (n : Name) (hn : .optional n ∈ ops) {b' : Builder} {names : List Name}
    (hb : b.build w ro oo rc = (b', .missing names)) : n ∉ names := by
  have h := C11_build w hr hro hoo hrc
  rw [hb] at h
  intro hin
  exact ((run_spec ops reg .new).1 _ hr).2.2.2.1 n ⟨((h.2.2 n).1 hin).1, hn⟩

/-- C11: building again gives the same result, whatever flags and environment have
become (flags are parsed once). -/
theorem C11_build_again (w w' : World) {b : Builder} {ro oo rc ro' oo' rc' : List Name}
    (hrc : rc.Perm rc') :
    ∀ b' defs, b.build w ro oo rc = (b', .ok defs) →
      (b'.build w' ro' oo' rc').2 = .ok defs := by
  intro b' defs h
  have hp : (b.parseFlags w ro oo).parsed = true := by
    unfold Builder.parseFlags
    cases hb : b.parsed with
    | true => simp [hb]
    | false =>
      simp only [Bool.false_eq_true, if_false]
      have f1 : ∀ (l : List Name) (c : Builder), c.parsed = true →
          (l.foldl (Builder.parseRequired w) c).parsed = true := by
        intro l
        induction l with
        | nil => intro c h; exact h
        | cons x l ih =>
          intro c h
          refine ih _ ?_
          unfold Builder.parseRequired
          split <;> (try split) <;> (try split) <;> exact h
      have f2 : ∀ (l : List Name) (c : Builder), c.parsed = true →
          (l.foldl (Builder.parseOptional w) c).parsed = true := by
        intro l
        induction l with
        | nil => intro c h; exact h
        | cons x l ih =>
          intro c h
          refine ih _ ?_
          unfold Builder.parseOptional
          split <;> (try split) <;> (try split) <;> exact h
      exact f2 _ _ (f1 _ _ rfl)
  unfold Builder.build at h
  cases hm : (b.parseFlags w ro oo).missing rc (fun _ => false) with
  | cons m ms => simp [hm] at h
  | nil =>
    simp only [hm, Prod.mk.injEq, Outcome.ok.injEq] at h
    obtain ⟨rfl, rfl⟩ := h
    have e : (b.parseFlags w ro oo).parseFlags w' ro' oo' = b.parseFlags w ro oo := by
      generalize b.parseFlags w ro oo = c at hp
      unfold Builder.parseFlags
      simp [hp]
    have hm' : (b.parseFlags w ro oo).missing rc' (fun _ => false) = [] := by
      unfold Builder.missing at hm ⊢
      rw [List.filter_eq_nil_iff] at hm ⊢
      intro a ha
      exact hm a (hrc.mem_iff.2 ha)
    unfold Builder.build
    simp only [e, hm']

/-- C11: BuildWithParent looks at neither flags nor environment: it fails exactly when
some required argument is neither defined explicitly nor known to the parent, and names
all of these. -/
theorem C11_with_parent {reg reg' : List Name} {ops : List Op} {b : Builder}
    (hr : Builder.run reg .new ops = some (reg', b)) {rc : List Name} (hrc : rc.Perm b.required)
    (has : Name → Bool) :
    match b.buildWithParent rc has with
    | .ok defs => (∀ n, defs n = lastDef ops n) ∧
        ∀ n, .required n ∈ ops → lastDef ops n ≠ none ∨ has n = true
    | .missing names => names ≠ [] ∧ names.Nodup ∧
        ∀ n, n ∈ names ↔ .required n ∈ ops ∧ lastDef ops n = none ∧ has n = false := by
  obtain ⟨h1, ⟨l, h2, h2', h2''⟩, -, -, -, -⟩ := (run_spec ops reg .new).1 _ hr
  simp only [Builder.new, List.nil_append] at h1 h2
  have hd : ∀ n, b.defs n = lastDef ops n := by
    intro n; rw [h1 n]; cases lastDef ops n <;> rfl
  have hmem : ∀ n, n ∈ b.missing rc has ↔
      .required n ∈ ops ∧ lastDef ops n = none ∧ has n = false := by
    intro n
    simp only [Builder.missing, List.mem_filter, hrc.mem_iff, h2, h2', hd]
    cases lastDef ops n <;> simp
  have hnd : (b.missing rc has).Nodup := by
    refine List.filter_sublist.nodup ?_
    rw [hrc.nodup_iff, h2]; exact h2''
  unfold Builder.buildWithParent
  cases hm : b.missing rc has with
  | nil =>
    refine ⟨hd, fun n hq => ?_⟩
    have := mt (hmem n).2 (by rw [hm]; simp)
    cases hl : lastDef ops n with
    | some d => simp
    | none =>
      cases hh : has n with
      | true => simp
      | false => exact absurd ⟨hq, hl, hh⟩ this
  | cons m ms =>
    rw [hm] at hmem hnd
    exact ⟨by simp, hnd, hmem⟩

/-- A program with explicit definitions, flags and environment in use at once. -/
def demoOps : List Op :=
  [.required "a.addr", .required "b.addr", .optional "c.addr", .optional "d.addr", .define "x" 1,
    .set "a.addr" "explicit:1"]

def demoWorld : World :=
  ⟨fun n => if n = "a.addr" then "flag:1" else if n = "b.addr" then "flag:2" else "",
   fun v => if v = "B_ADDR".toList then "env:2" else if v = "C_ADDR".toList then "env:3" else ""⟩

example : ∃ reg b, Builder.run [] .new demoOps = some (reg, b) ∧
    b.required = ["a.addr", "b.addr"] ∧ b.optional = ["c.addr", "d.addr"] ∧
    expected demoWorld demoOps "a.addr" = some (.value "explicit:1") ∧
    expected demoWorld demoOps "b.addr" = some (.value "flag:2") ∧
    expected demoWorld demoOps "c.addr" = some (.value "env:3") ∧
    expected demoWorld demoOps "d.addr" = some (.unset "d.addr") ∧
    expected demoWorld demoOps "x" = some (.defined 1) ∧
    expected demoWorld demoOps "y" = none :=
  ⟨_, _, rfl, rfl, rfl, by decide, by decide, by decide, by decide, by decide, by decide⟩

/-- C11 fails in part: two arguments whose names differ only in punctuation read the same
environment variable. -/
theorem C11_shared_variable_refuted : ∃ n m : Name, n ≠ m ∧ ∀ w, envOf w n = envOf w m :=
  ⟨"a.addr", "a_addr", by decide, fun w => by
    show w.env _ = w.env _
    rw [show Verif.Strings.envVar "a.addr".toList = Verif.Strings.envVar "a_addr".toList from by decide]⟩

/-- C11 fails in part: a child namespace cannot require an argument that its parent
declares: registering the flag a second time panics, although BuildWithParent is
documented to take required nodes from the parent. -/
theorem C11_child_argument_refuted : ∃ (pops cops : List Op) (reg : List Name) (pb : Builder) (n : Name),
    Builder.run [] .new pops = some (reg, pb) ∧ .required n ∈ pops ∧ cops = [.required n] ∧
    Builder.run reg .new cops = none :=
  ⟨[.required "addr"], [.required "addr"], _, _, "addr", rfl, by decide, rfl, rfl⟩

end Verif.RtNs
