import Verif.Deploy.RunLemmas

namespace Verif.Deploy.Run
open Verif.Strings

/-- C63: a script is generated for all well-formed declarations. -/
theorem C63_generates (ds : List Decl) (hw : WellFormed ds) : ∃ s, Generated ds s := by
  have key : ∀ (ds : List Decl) (s : Script), (∀ d ∈ ds, ∃ text, text ≠ [] ∧ HasBody d.runfunc text) →
      ∃ s', s.declareAll ds = some s' := by
    intro ds
    induction ds with
    | nil => intro s _; exact ⟨s, rfl⟩
    | cons d ds ih =>
      intro s h
      obtain ⟨text, hne, hb⟩ := h d (by simp)
      have hg : getFuncBody d.runfunc = some text := by
        rw [getFuncBody_of hb]
        cases text with
        | nil => exact absurd rfl hne
        | cons => rfl
      rw [Script.declareAll, Script.declare, hg]
      exact ih _ fun d hd => h d (List.mem_cons_of_mem _ hd)
  exact key ds _ hw.body

/-- C63: no script is generated if a process does not provide a function. -/
theorem C63_function_required (ds : List Decl) (d : Decl) (hd : d ∈ ds)
    (hb : '}' ∉ d.runfunc ∨ HasBody d.runfunc []) : ∀ s, ¬ Generated ds s := by
  have hg : getFuncBody d.runfunc = none := by
    rcases hb with hb | hb
    · have h : ∀ l : Str, l <:+ d.runfunc → '}' ∉ l := fun l hl h => hb (hl.subset h)
      simp only [getFuncBody]
      rw [if_neg]
      split
      · exact h _ ((List.drop_suffix _ _).trans (List.dropWhile_suffix _))
      · exact hb
    · rw [getFuncBody_of hb]; rfl
  have key : ∀ (ds : List Decl) (s : Script), d ∈ ds → s.declareAll ds = none := by
    intro ds
    induction ds with
    | nil => intro s h; cases h
    | cons a ds ih =>
      intro s h
      rw [Script.declareAll]
      rcases List.mem_cons.1 h with rfl | h
      · simp [Script.declare, hg]
      · cases s.declare a with
        | none => rfl
        | some s => exact ih s h
  intro s h
  have := key ds ⟨[], []⟩ hd
  rw [Generated, this] at h
  cases h

theorem Ctx.no_arg_missing {ds : List Decl} {s : Script} (c : Ctx ds s) (env : Env) :
    (s.args.any fun n => env (envVar n) = none) = true ↔ ¬ ArgsSet ds env := by
  rw [List.any_eq_true]
  have hb : ∀ d ∈ ds, getFuncBody d.runfunc ≠ none := fun d hd => by
    obtain ⟨t, -, h⟩ := c.body d hd
    simp [h]
  constructor
  · rintro ⟨n, hn, he⟩ ha
    obtain ⟨⟨d, hd, hx⟩, hp⟩ := (mem_args c.info hb n).1 hn
    exact ha d hd n hx hp (by simpa using he)
  · intro ha
    apply Classical.byContradiction
    intro hno
    apply ha
    intro d hd x hx hp he
    exact hno ⟨x, (mem_args c.info hb x).2 ⟨⟨d, hd, hx⟩, hp⟩, by simpa using he⟩

/-- C63: if a variable is missing that a process needs and that no process provides, the
script starts nothing and reports failure. -/
theorem C63_missing (ds : List Decl) (hw : WellFormed ds) (s : Script) (hg : Generated ds s)
    (beh : Behaviour) (sh : Shell) (d : Decl) (hd : d ∈ ds) (x : Str) (hx : x ∈ d.deps)
    (hp : ¬ IsProc ds x) (hmiss : sh.env (envVar x) = none) :
    Ends beh s sh 1 sh ∧ ∀ status sh', Ends beh s sh status sh' → status = 1 ∧ sh'.starts = sh.starts := by
  have c := Ctx.mk' hw hg
  have h : ∀ fuel, runAll beh fuel s sh = some (1, sh) := by
    intro fuel
    rw [runAll, if_pos ((c.no_arg_missing sh.env).2 fun ha => ha d hd x hx hp hmiss)]
  refine ⟨⟨0, h 0⟩, ?_⟩
  rintro status sh' ⟨fuel, h'⟩
  rw [h fuel] at h'
  cases h'
  exact ⟨rfl, rfl⟩

theorem Ctx.run {ds : List Decl} {s : Script} (c : Ctx ds s) {beh : Behaviour} {sh : Shell}
    {status : Nat} {sh' : Shell} (ha : ArgsSet ds sh.env) (h : Ends beh s sh status sh') :
    status = 0 ∧ ∃ fuel, callAll beh sh.cwd s.funcs fuel s.funcs sh = some sh' := by
  obtain ⟨fuel, h⟩ := h
  rw [runAll, if_neg (fun h => (c.no_arg_missing sh.env).1 h ha)] at h
  cases hc : callAll beh sh.cwd s.funcs fuel s.funcs sh with
  | none => simp [hc] at h
  | some r =>
    simp only [hc, Option.some.injEq, Prod.mk.injEq] at h
    exact ⟨h.1.symm, fuel, by rw [hc, h.2]⟩

/-- C63: the script ends, whatever the start commands do, if no process depends on itself. -/
theorem C63_ends (ds : List Decl) (hw : WellFormed ds) (hac : Acyclic ds) (s : Script)
    (hg : Generated ds s) (beh : Behaviour) (sh : Shell) : ∃ status sh', Ends beh s sh status sh' := by
  have c := Ctx.mk' hw hg
  obtain ⟨rank, hr⟩ := hac
  obtain ⟨fuel, hfuel⟩ := bound s.funcs rank
  cases h : runAll beh fuel s sh with
  | some r => exact ⟨r.1, r.2, fuel, h⟩
  | none =>
    rw [runAll] at h
    split at h
    · cases h
    · cases hc : callAll beh sh.cwd s.funcs fuel s.funcs sh with
      | none => exact absurd hc (callAll_some c hr beh sh.cwd fuel hfuel s.funcs (fun _ h => h) sh)
      | some r => simp [hc] at h

/-- C63, in part: if the start commands succeed, every process is started, with its own
command and with everything set that it depends on; a process it depends on was started
earlier, unless its variable was set by the caller.  Missing: it is not started again after
that.  It is started at most twice; C63_twice_refuted shows that this happens. -/
theorem C63_started_partial (ds : List Decl) (hw : WellFormed ds) (hac : Acyclic ds) (s : Script)
    (hg : Generated ds s) (beh : Behaviour) (hb : Succeed ds beh) (sh : Shell)
    (hempty : sh.starts = []) (ha : ArgsSet ds sh.env) (status : Nat) (sh' : Shell)
    (h : Ends beh s sh status sh') :
    status = 0 ∧
    (∀ d ∈ ds, 1 ≤ timesStarted d.name sh'.starts ∧ timesStarted d.name sh'.starts ≤ 2) ∧
    (∀ later e earlier, sh'.starts = later ++ e :: earlier → ∃ d ∈ ds, e.proc = d.name ∧
      HasBody d.runfunc e.text ∧ ∀ x ∈ d.deps, e.env (envVar x) ≠ none ∧
        (sh.env (envVar x) = none → ∃ e' ∈ earlier, e'.proc = x)) := by
  have c := Ctx.mk' hw hg
  obtain ⟨h0, fuel, hc⟩ := c.run ha h
  obtain ⟨rank, hr⟩ := hac
  obtain ⟨l, st, hin, -⟩ := callAll_ok c hr hb sh.cwd fuel s.funcs (fun _ h => h) c.info.sorted.nodup
    sh sh' ha hc
  have hl : sh'.starts = l := by rw [st.starts, hempty, List.append_nil]
  refine ⟨h0, ?_, ?_⟩
  · intro d hd
    obtain ⟨f, hf, hn, -⟩ := c.func hd
    have := hin f hf
    rw [hl, ← hn]
    exact ⟨this.1, this.2.1⟩
  · intro later e earlier he
    obtain ⟨f, hf, hp, ht, hdeps⟩ := st.good later e earlier (hl.symm.trans he)
    obtain ⟨d, hd, h1, h2, h3⟩ := c.decl hf
    refine ⟨d, hd, hp.trans h1, ht ▸ h3, fun x hx => ?_⟩
    rw [← h2] at hx
    refine ⟨(hdeps x hx).1, fun hn => ?_⟩
    obtain ⟨e', he', hx'⟩ := (hdeps x hx).2 hn
    refine ⟨e', he', c.wf.vars _ _ ?_ (c.used hf hx) hx'⟩
    obtain ⟨a, b, hab⟩ := List.append_of_mem he'
    obtain ⟨g, hg', hgp, -⟩ := st.good (later ++ e :: a) e' b (by rw [← hl, he, hab]; simp)
    exact .inl (c.isProc.2 ⟨g, hg', hgp.symm⟩)

/-- C63, in part: if the start commands succeed and every process has a name that comes after
those of the processes it depends on, every process is started exactly once.  Missing: other
names. -/
theorem C63_once_partial (ds : List Decl) (hw : WellFormed ds) (s : Script)
    (hg : Generated ds s) (beh : Behaviour) (hb : Succeed ds beh) (sh : Shell)
    (hempty : sh.starts = []) (ha : ArgsSet ds sh.env)
    (hord : ∀ d ∈ ds, ∀ x ∈ d.deps, IsProc ds x → x < d.name) (status : Nat) (sh' : Shell)
    (h : Ends beh s sh status sh') : ∀ d ∈ ds, timesStarted d.name sh'.starts = 1 := by
  have c := Ctx.mk' hw hg
  obtain ⟨-, fuel, hc⟩ := c.run ha h
  obtain ⟨l, hl, hl'⟩ := callAll_once c hb sh.cwd fuel (fun f hf x hx hp => by
      obtain ⟨d, hd, h1, h2, -⟩ := c.decl hf
      rw [h1]
      exact hord d hd x (h2 ▸ hx) hp) s.funcs [] rfl sh sh' ha (by simp) hc
  rw [hempty, List.append_nil] at hl
  intro d hd
  obtain ⟨f, hf, hn, -⟩ := c.func hd
  have hnd : (l.reverse.map (·.proc)).Nodup := hl' ▸ c.info.sorted.nodup
  have hm : d.name ∈ l.reverse.map (·.proc) := by
    rw [hl', ← hn]
    exact List.mem_map_of_mem hf
  rw [List.map_reverse, List.mem_reverse] at hm
  rw [List.map_reverse] at hnd
  have hnd := List.pairwise_reverse.1 hnd
  have hnd : (l.map (·.proc)).Nodup := hnd.imp fun h => Ne.symm h
  rw [hl]
  have count : ∀ l : List Start, timesStarted d.name l = (l.map (·.proc)).count d.name := by
    intro l
    induction l with
    | nil => rfl
    | cons e l ih =>
      rw [times_cons, ih, List.map_cons, List.count_cons]
      by_cases h : e.proc = d.name <;> simp [h] <;> omega
  rw [count]
  have h1 := List.nodup_iff_count.1 hnd d.name
  have h2 := List.count_pos_iff.2 hm
  omega

/-- C63, in part: whatever the start commands do (as long as they unset nothing), a process
is never started with a dependency missing, if the processes it depends on depend on no
further processes.  Missing: longer chains, see C63_failed_dependency_refuted. -/
theorem C63_failed_dependency_partial (ds : List Decl) (hw : WellFormed ds) (s : Script)
    (hg : Generated ds s) (beh : Behaviour) (hb : UnsetNothing beh) (sh : Shell)
    (hempty : sh.starts = []) (ha : ArgsSet ds sh.env) (status : Nat) (sh' : Shell)
    (h : Ends beh s sh status sh') (e : Start) (he : e ∈ sh'.starts) :
    ∃ d ∈ ds, e.proc = d.name ∧ HasBody d.runfunc e.text ∧
      ((∀ x ∈ d.deps, ∀ d' ∈ ds, d'.name = x → ∀ y ∈ d'.deps, ¬ IsProc ds y) →
        ∀ x ∈ d.deps, e.env (envVar x) ≠ none) := by
  have c := Ctx.mk' hw hg
  obtain ⟨-, fuel, hc⟩ := c.run ha h
  obtain ⟨-, l, hl, hgood⟩ := callAll_grows c hb sh.cwd fuel s.funcs sh sh' ha hc
  rw [hempty, List.append_nil] at hl
  obtain ⟨f, hf, hp, ht, -, hd⟩ := hgood e (hl ▸ he)
  obtain ⟨d, hd', h1, h2, h3⟩ := c.decl hf
  refine ⟨d, hd', hp.trans h1, ht ▸ h3, fun hsh => ?_⟩
  rw [← h2]
  refine hd fun x hx g hg' hgn y hy => ?_
  obtain ⟨d', hd'', g1, g2, -⟩ := c.decl hg'
  exact hsh x (h2 ▸ hx) d' hd'' (g1.symm.trans hgn) y (g2 ▸ hy)

/-- C63, in part: whatever the start commands do (as long as they unset nothing), a process
that depends on no other process is started in the directory in which the script was started.
Missing: the other processes, see C63_directory_refuted. -/
theorem C63_directory_partial (ds : List Decl) (hw : WellFormed ds) (s : Script)
    (hg : Generated ds s) (beh : Behaviour) (hb : UnsetNothing beh) (sh : Shell)
    (hempty : sh.starts = []) (ha : ArgsSet ds sh.env) (status : Nat) (sh' : Shell)
    (h : Ends beh s sh status sh') (d : Decl) (hd : d ∈ ds) (hdeps : ∀ x ∈ d.deps, ¬ IsProc ds x)
    (e : Start) (he : e ∈ sh'.starts) (hp : e.proc = d.name) : e.cwd = sh.cwd := by
  have c := Ctx.mk' hw hg
  obtain ⟨-, fuel, hc⟩ := c.run ha h
  obtain ⟨-, l, hl, hgood⟩ := callAll_grows c hb sh.cwd fuel s.funcs sh sh' ha hc
  rw [hempty, List.append_nil] at hl
  obtain ⟨f, hf, hp', -, hcwd, -⟩ := hgood e (hl ▸ he)
  refine hcwd fun x hx => ?_
  obtain ⟨g, hg', h1, h2, -⟩ := c.func hd
  have : f = g := c.inj hf hg' (hp'.symm.trans (hp.trans h1.symm))
  rw [this, h2] at hx
  exact hdeps x hx

theorem callAll_attempts {ds : List Decl} {s : Script} (c : Ctx ds s) {beh : Behaviour}
    (hb : UnsetNothing beh) (root : Str) (fuel : Nat) : ∀ (fs : List Func), (∀ f ∈ fs, f ∈ s.funcs) →
      ∀ (sh sh' : Shell), ArgsSet ds sh.env → callAll beh root s.funcs fuel fs sh = some sh' →
      ∀ f ∈ fs, Shallow ds f.deps → ∃ e ∈ sh'.starts, e.proc = f.name := by
  intro fs
  induction fs with
  | nil => simp
  | cons g fs ih =>
    intro hfs sh sh' ha h f hf hsh
    rw [callAll] at h
    cases hc : call beh root s.funcs fuel (funcName g.name) sh with
    | none => simp [hc] at h
    | some r =>
      obtain ⟨code, sh1⟩ := r
      simp only [hc] at h
      have g1 := (call_grows c hb root fuel _ _ _ _ ha hc).1
      have ha1 := ha.grows _ _ g1
      have hfs' : ∀ f ∈ fs, f ∈ s.funcs := fun f hf => hfs f (List.mem_cons_of_mem _ hf)
      rcases List.mem_cons.1 hf with rfl | hf
      · obtain ⟨-, l, hl, -⟩ := callAll_grows c hb root fuel fs sh1 sh' ha1 h
        have : ∃ e ∈ sh1.starts, e.proc = f.name := by
          cases fuel with
          | zero => simp [call] at hc
          | succ fuel =>
            have hf' := hfs f (by simp)
            rw [call, c.lookup_func hf'] at hc
            simp only [getAll_set (sh := { sh with cwd := root })
              fun x hx => c.args_set ha hf' hx (hsh x hx)] at hc
            split at hc
            · split at hc
              · simp only [Option.some.injEq, Prod.mk.injEq] at hc
                rw [← hc.2]
                exact ⟨_, List.mem_cons_self .., rfl⟩
              · simp only [Option.some.injEq, Prod.mk.injEq] at hc
                rw [← hc.2]
                exact ⟨_, List.mem_cons_self .., rfl⟩
            · simp only [Option.some.injEq, Prod.mk.injEq] at hc
              rw [← hc.2]
              exact ⟨_, List.mem_cons_self .., rfl⟩
        obtain ⟨e, he, hp⟩ := this
        exact ⟨e, by rw [hl]; exact List.mem_append_right _ he, hp⟩
      · exact ih hfs' sh1 sh' ha1 h f hf hsh

/-- C63: a process that depends on no other process is started, whatever becomes of the
other processes. -/
theorem C63_failures_do_not_spread (ds : List Decl) (hw : WellFormed ds) (s : Script)
    (hg : Generated ds s) (beh : Behaviour) (hb : UnsetNothing beh) (sh : Shell)
    (ha : ArgsSet ds sh.env) (status : Nat) (sh' : Shell)
    (h : Ends beh s sh status sh') (d : Decl) (hd : d ∈ ds) (hdeps : ∀ x ∈ d.deps, ¬ IsProc ds x) :
    ∃ e ∈ sh'.starts, e.proc = d.name := by
  have c := Ctx.mk' hw hg
  obtain ⟨-, fuel, hc⟩ := c.run ha h
  obtain ⟨f, hf, h1, h2, -⟩ := c.func hd
  rw [← h1]
  exact callAll_attempts c hb sh.cwd fuel s.funcs (fun _ h => h) sh sh' ha hc f hf
    fun x hx => hdeps x (h2 ▸ hx)

/-! ### Concrete cases -/

/-- A declaration whose body is the process's name. -/
def exDecl (name : String) (deps : List String) : Decl :=
  ⟨name.toList, "f() {".toList ++ name.toList ++ "}".toList, deps.map String.toList⟩

/-- A front end that needs a service, which needs a database, and an address. -/
def exDs : List Decl := [exDecl "front" ["user", "port"], exDecl "user" ["db"], exDecl "db" []]

/-- Go processes: the text of `exDecl` is the name. -/
def exGo : Behaviour := fun text sh => goproc text "123".toList sh

/-- All commands fail. -/
def exFail : Behaviour := fun _ sh => (1, sh.env, sh.cwd)

def exShell : Shell := ⟨fun x => if x = "PORT".toList then some "80".toList else none, "/w".toList, []⟩

theorem exDecl_body (n : String) (ds : List String) :
    HasBody (exDecl n ds).runfunc n.toList := by
  refine ⟨"f() ".toList, [], ?_, by decide, by simp⟩
  show "f() {".toList ++ n.toList ++ "}".toList = _
  have e1 : "f() {".toList = "f() ".toList ++ ['{'] := by decide
  have e2 : "}".toList = ['}'] := by decide
  rw [e1, e2]
  simp

theorem exDs_wf : WellFormed exDs := by
  refine ⟨by decide, ?_, ?_⟩
  · have hmem : ∀ x, Used exDs x → x ∈ ["front".toList, "user".toList, "db".toList, "port".toList] := by
      rintro x (⟨d, hd, rfl⟩ | ⟨d, hd, hx⟩)
      · have : ∀ d ∈ exDs, d.name ∈ ["front".toList, "user".toList, "db".toList, "port".toList] := by decide
        exact this d hd
      · have : ∀ d ∈ exDs, ∀ x ∈ d.deps, x ∈ ["front".toList, "user".toList, "db".toList, "port".toList] := by
          decide
        exact this d hd x hx
    have hinj : ∀ x ∈ ["front".toList, "user".toList, "db".toList, "port".toList],
        ∀ y ∈ ["front".toList, "user".toList, "db".toList, "port".toList], envVar x = envVar y → x = y := by
      decide +kernel
    exact fun x y hx hy => hinj x (hmem x hx) y (hmem y hy)
  · intro d hd
    simp only [exDs, List.mem_cons, List.not_mem_nil, or_false] at hd
    rcases hd with rfl | rfl | rfl
    · exact ⟨_, by decide, exDecl_body _ _⟩
    · exact ⟨_, by decide, exDecl_body _ _⟩
    · exact ⟨_, by decide, exDecl_body _ _⟩

theorem exDs_acyclic : Acyclic exDs := by
  refine ⟨fun n => if n = "front".toList then 2 else if n = "user".toList then 1 else 0, ?_⟩
  have h : ∀ d ∈ exDs, ∀ x ∈ d.deps, (∃ d ∈ exDs, d.name = x) →
      (if x = "front".toList then 2 else if x = "user".toList then 1 else 0) <
      (if d.name = "front".toList then 2 else if d.name = "user".toList then 1 else 0) := by
    decide +kernel
  exact h

theorem exDs_args : ArgsSet exDs exShell.env := by
  have h : ∀ d ∈ exDs, ∀ x ∈ d.deps, (¬ ∃ d ∈ exDs, d.name = x) → exShell.env (envVar x) ≠ none := by
    decide +kernel
  exact h

theorem exGo_succeeds : Succeed exDs exGo := by
  intro d hd text ht sh
  have : text = d.name := by
    simp only [exDs, List.mem_cons, List.not_mem_nil, or_false] at hd
    rcases hd with rfl | rfl | rfl
    · exact (hasBody_unique (exDecl_body _ _) ht (by decide)).symm
    · exact (hasBody_unique (exDecl_body _ _) ht (by decide)).symm
    · exact (hasBody_unique (exDecl_body _ _) ht (by decide)).symm
  subst this
  refine ⟨rfl, ?_, fun x hx => ?_⟩
  · simp [exGo, goproc]
  · simp [exGo, goproc, hx]

/-- The script of the example. -/
def exScript : Script := ((Script.declareAll ⟨[], []⟩ exDs).getD ⟨[], []⟩)

theorem exScript_gen : Generated exDs exScript := by
  show Script.declareAll ⟨[], []⟩ exDs = some ((Script.declareAll ⟨[], []⟩ exDs).getD ⟨[], []⟩)
  decide +kernel

/-- What an execution starts: process, variable of interest and directory, latest first. -/
def summary (var : Str) (r : Option (Nat × Shell)) : Option (Nat × List (Str × Option Str × Str)) :=
  r.map fun r => (r.1, r.2.starts.map fun e => (e.proc, e.env var, e.cwd))

instance : DecidableEq (Str × Option Str × Str) := inferInstance
instance : DecidableEq (List (Str × Option Str × Str)) := inferInstance
instance : DecidableEq (Option (Nat × List (Str × Option Str × Str))) := inferInstance

/-- The example meets the hypotheses of the theorems above; this is what it starts. -/
theorem exRun : summary "USER".toList (runAll exGo 5 exScript exShell) = some (0,
    [("user".toList, some "123".toList, "/w".toList),
     ("front".toList, some "123".toList, "/w/user".toList),
     ("user".toList, none, "/w".toList),
     ("db".toList, none, "/w".toList)]) := by decide +kernel

/-- If nothing can be started. -/
theorem exRunFail : summary "USER".toList (runAll exFail 5 exScript exShell) = some (0,
    [("db".toList, none, "/w".toList),
     ("front".toList, none, "/w".toList),
     ("db".toList, none, "/w".toList),
     ("db".toList, none, "/w".toList)]) := by decide +kernel

theorem exDs_wf' : ¬ IsProc exDs "port".toList ∧ (exDecl "front" ["user", "port"]) ∈ exDs := by
  have h : (¬ ∃ d ∈ exDs, d.name = "port".toList) ∧ (exDecl "front" ["user", "port"]) ∈ exDs := by
    decide +kernel
  exact h

/-- Without PORT the script stops (an instance of C63_missing). -/
example (beh : Behaviour) : Ends beh exScript ⟨fun _ => none, [], []⟩ 1 ⟨fun _ => none, [], []⟩ :=
  (C63_missing exDs exDs_wf exScript exScript_gen beh ⟨fun _ => none, [], []⟩ _ exDs_wf'.2 "port".toList
    (by decide) exDs_wf'.1 rfl).1

theorem summary_some {var : Str} {r : Option (Nat × Shell)} {n : Nat} {l : List (Str × Option Str × Str)}
    (h : summary var r = some (n, l)) : ∃ sh, r = some (n, sh) ∧
      sh.starts.map (fun e => (e.proc, e.env var, e.cwd)) = l := by
  cases r with
  | none => simp [summary] at h
  | some r =>
    simp only [summary, Option.map_some, Option.some.injEq, Prod.mk.injEq] at h
    exact ⟨r.2, by rw [← h.1], h.2⟩

/-- C63 refuted: a process is started twice if one with a smaller name depends on it. -/
theorem C63_twice_refuted : ∃ ds s beh sh sh', WellFormed ds ∧ Acyclic ds ∧ Generated ds s ∧
    Succeed ds beh ∧ sh.starts = [] ∧ ArgsSet ds sh.env ∧ Ends beh s sh 0 sh' ∧
    ∃ d ∈ ds, timesStarted d.name sh'.starts = 2 := by
  obtain ⟨sh', h1, h2⟩ := summary_some exRun
  refine ⟨exDs, exScript, exGo, exShell, sh', exDs_wf, exDs_acyclic, exScript_gen, exGo_succeeds, rfl,
    exDs_args, ⟨5, h1⟩, exDecl "user" ["db"], by decide, ?_⟩
  have key : ∀ l : List Start, timesStarted "user".toList l =
      ((l.map fun e => (e.proc, e.env "USER".toList, e.cwd)).filter fun e => e.1 = "user".toList).length := by
    intro l
    rw [timesStarted, List.filter_map, List.length_map]
    rfl
  show timesStarted "user".toList sh'.starts = 2
  rw [key, h2]
  decide

/-- C63 refuted: the script reports success although no process could be started. -/
theorem C63_status_refuted : ∃ ds s beh sh sh', WellFormed ds ∧ Acyclic ds ∧ Generated ds s ∧
    UnsetNothing beh ∧ (∀ text sh, (beh text sh).1 ≠ 0) ∧ sh.starts = [] ∧ ArgsSet ds sh.env ∧ ds ≠ [] ∧
    Ends beh s sh 0 sh' := by
  obtain ⟨sh', h1, -⟩ := summary_some exRunFail
  exact ⟨exDs, exScript, exFail, exShell, sh', exDs_wf, exDs_acyclic, exScript_gen, fun _ _ _ h => h,
    fun _ _ => by simp [exFail], rfl, exDs_args, by decide, ⟨5, h1⟩⟩

/-- C63 refuted: if a process fails, a process that depends on it reports success without
being started, and a third process that depends on that one is started without it. -/
theorem C63_failed_dependency_refuted : ∃ ds s beh sh sh' status, WellFormed ds ∧ Acyclic ds ∧
    Generated ds s ∧ UnsetNothing beh ∧ sh.starts = [] ∧ ArgsSet ds sh.env ∧
    Ends beh s sh status sh' ∧ ∃ e ∈ sh'.starts, ∃ d ∈ ds, e.proc = d.name ∧ ∃ x ∈ d.deps,
      e.env (envVar x) = none := by
  obtain ⟨sh', h1, h2⟩ := summary_some exRunFail
  refine ⟨exDs, exScript, exFail, exShell, sh', 0, exDs_wf, exDs_acyclic, exScript_gen, fun _ _ _ h => h,
    rfl, exDs_args, ⟨5, h1⟩, ?_⟩
  have hm : ("front".toList, (none : Option Str), "/w".toList) ∈
      sh'.starts.map fun e => (e.proc, e.env "USER".toList, e.cwd) := by rw [h2]; decide
  obtain ⟨e, he, heq⟩ := List.mem_map.1 hm
  simp only [Prod.mk.injEq] at heq
  refine ⟨e, he, exDecl "front" ["user", "port"], by decide, heq.1, "user".toList, by decide, ?_⟩
  have : envVar "user".toList = "USER".toList := by decide +kernel
  rw [this]
  exact heq.2.1

/-- C63 refuted: a process is started in the directory of the process that was started for
it, where its own directory cannot be found. -/
theorem C63_directory_refuted : ∃ ds s beh sh sh', WellFormed ds ∧ Acyclic ds ∧ Generated ds s ∧
    Succeed ds beh ∧ sh.starts = [] ∧ ArgsSet ds sh.env ∧ Ends beh s sh 0 sh' ∧
    ∃ e ∈ sh'.starts, e.cwd ≠ sh.cwd := by
  obtain ⟨sh', h1, h2⟩ := summary_some exRun
  refine ⟨exDs, exScript, exGo, exShell, sh', exDs_wf, exDs_acyclic, exScript_gen, exGo_succeeds, rfl,
    exDs_args, ⟨5, h1⟩, ?_⟩
  have hm : ("front".toList, some "123".toList, "/w/user".toList) ∈
      sh'.starts.map fun e => (e.proc, e.env "USER".toList, e.cwd) := by rw [h2]; decide
  obtain ⟨e, he, heq⟩ := List.mem_map.1 hm
  simp only [Prod.mk.injEq] at heq
  refine ⟨e, he, ?_⟩
  rw [heq.2.2]
  decide

/-- C63 refuted: a process whose variable is also set by the system, such as `user`, is taken
for started, so that a process that depends on it is started before it. -/
theorem C63_system_variable_refuted : ∃ ds s beh sh sh', WellFormed ds ∧ Acyclic ds ∧ Generated ds s ∧
    Succeed ds beh ∧ sh.starts = [] ∧ ArgsSet ds sh.env ∧ Ends beh s sh 0 sh' ∧
    ∃ later e earlier, sh'.starts = later ++ e :: earlier ∧ ∃ d ∈ ds, e.proc = d.name ∧
      ∃ x ∈ d.deps, IsProc ds x ∧ ∀ e' ∈ earlier, e'.proc ≠ x := by
  let sh : Shell := ⟨fun x => if x = "PORT".toList then some "80".toList else
    if x = "USER".toList then some "me".toList else none, "/w".toList, []⟩
  have hr : summary "USER".toList (runAll exGo 5 exScript sh) = some (0,
      [("user".toList, some "me".toList, "/w".toList),
       ("front".toList, some "me".toList, "/w".toList),
       ("db".toList, some "me".toList, "/w".toList)]) := by decide +kernel
  have ha : ∀ d ∈ exDs, ∀ x ∈ d.deps, (¬ ∃ d ∈ exDs, d.name = x) → sh.env (envVar x) ≠ none := by
    decide +kernel
  obtain ⟨sh', h1, h2⟩ := summary_some hr
  refine ⟨exDs, exScript, exGo, sh, sh', exDs_wf, exDs_acyclic, exScript_gen, exGo_succeeds, rfl,
    ha, ⟨5, h1⟩, ?_⟩
  match hs : sh'.starts, h2 with
  | [], h2 => simp at h2
  | [a], h2 => simp at h2
  | [a, b], h2 => simp at h2
  | [a, b, c], h2 =>
    simp only [List.map_cons, List.map_nil, List.cons.injEq, Prod.mk.injEq, and_true] at h2
    refine ⟨[a], b, [c], rfl, exDecl "front" ["user", "port"], by decide, h2.2.1.1, "user".toList, by decide,
      ⟨exDecl "user" ["db"], by decide, rfl⟩, ?_⟩
    intro e' he'
    cases List.mem_singleton.1 he'
    rw [h2.2.2.1]
    decide
  | a :: b :: c :: d :: l, h2 => simp at h2

/-- C63 needs processes that do not depend on themselves: otherwise the generated functions
call each other forever. -/
theorem C63_cycle_refuted : ∃ ds s, WellFormed ds ∧ Generated ds s ∧
    ∀ beh sh, sh.env "A".toList = none → sh.env "B".toList = none →
      ∀ status sh', ¬ Ends beh s sh status sh' := by
  let ds := [exDecl "a" ["b"], exDecl "b" ["a"]]
  let s : Script := ⟨[⟨"a".toList, ["b".toList], "a".toList⟩, ⟨"b".toList, ["a".toList], "b".toList⟩],
    ["b".toList, "a".toList]⟩
  have hgen : Script.declareAll ⟨[], []⟩ ds = some s := by decide +kernel
  refine ⟨ds, s, ⟨by decide, ?_, ?_⟩, hgen, ?_⟩
  · have hmem : ∀ x, Used ds x → x ∈ ["a".toList, "b".toList] := by
      rintro x (⟨d, hd, rfl⟩ | ⟨d, hd, hx⟩)
      · have : ∀ d ∈ ds, d.name ∈ ["a".toList, "b".toList] := by decide
        exact this d hd
      · have : ∀ d ∈ ds, ∀ x ∈ d.deps, x ∈ ["a".toList, "b".toList] := by decide
        exact this d hd x hx
    have hinj : ∀ x ∈ ["a".toList, "b".toList], ∀ y ∈ ["a".toList, "b".toList],
        envVar x = envVar y → x = y := by decide +kernel
    exact fun x y hx hy => hinj x (hmem x hx) y (hmem y hy)
  · intro d hd
    simp only [ds, List.mem_cons, List.not_mem_nil, or_false] at hd
    rcases hd with rfl | rfl
    · exact ⟨_, by decide, exDecl_body _ _⟩
    · exact ⟨_, by decide, exDecl_body _ _⟩
  · intro beh sh hA hB status sh' ⟨fuel, h⟩
    have n1 : funcName "a".toList = "a".toList ∧ funcName "b".toList = "b".toList ∧
      envVar "a".toList = "A".toList ∧ envVar "b".toList = "B".toList := by decide +kernel
    have l1 : lookup s.funcs "a".toList = some ⟨"a".toList, ["b".toList], "a".toList⟩ := by decide +kernel
    have l2 : lookup s.funcs "b".toList = some ⟨"b".toList, ["a".toList], "b".toList⟩ := by decide +kernel
    have key : ∀ (fuel : Nat) (root : Str) (sh : Shell), sh.env "A".toList = none → sh.env "B".toList = none →
        call beh root s.funcs fuel "a".toList sh = none ∧ call beh root s.funcs fuel "b".toList sh = none := by
      intro fuel
      induction fuel with
      | zero => intro root sh _ _; exact ⟨rfl, rfl⟩
      | succ fuel ih =>
        intro root sh hA hB
        constructor
        · have := (ih root { sh with cwd := root } hA hB).2
          simp only [call, l1, getAll, n1, hB, if_true, this]
        · have := (ih root { sh with cwd := root } hA hB).1
          simp only [call, l2, getAll, n1, hA, if_true, this]
    rw [runAll] at h
    have hargs : s.args = [] := by decide +kernel
    rw [hargs] at h
    simp only [List.any_nil, Bool.false_eq_true, if_false] at h
    have : callAll beh sh.cwd s.funcs fuel s.funcs sh = none := by
      show (match call beh sh.cwd s.funcs fuel (funcName "a".toList) sh with
        | none => none
        | some (_, sh') => _) = none
      rw [n1.1, (key fuel _ sh hA hB).1]
    rw [this] at h
    cases h

end Verif.Deploy.Run
