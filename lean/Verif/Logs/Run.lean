import Verif.Logs.Build
/-
C133 in the running process, and from the wiring spec to the running process.
-/
namespace Verif.Logs
open Verif.Wiring (Name)
open Verif.Wiring.Ns (St Prog exec History)

/-- **C133**, one statement: each logger of the plugins leaves exactly one record of a log statement that it is to show, with its priority and
its message, and none of others.  (`Logf` on the console is left out; see C133_logf_refuted.) -/
theorem C133_statements_partial {l : Logger} (hl : l ≠ .errorOut) (c : Ctx) (m : Method) (msg : String) (hm : l = .stdout → ∀ p, m ≠ .logf p) :
    ∃ outs, l.log c m msg = some outs ∧ (Shows l c m.prio → ∃ o, outs = [o] ∧ Records l m.prio msg o) ∧ (¬ Shows l c m.prio → outs = []) := by
  cases l with
  | errorOut => exact absurd rfl hl
  | stdout =>
    have hm := hm rfl
    cases m with
    | logf p => exact absurd rfl (hm p)
    | _ => simp [Logger.log, slogger, slogWrite, Shows, Method.prio, Records, slogLevel]
  | ot =>
    cases hs : c.span <;> cases m <;> simp [Logger.log, otLog, hs, Shows, Method.prio, Records]
  | xtrace =>
    cases hs : c.task <;> cases m <;> simp [Logger.log, xtLog, hs, Shows, Method.prio, Records, Prio.string]
  | govec =>
    cases m <;> simp [Logger.log, vecLog, Shows, Method.prio, Records, Prio.num]

/-- C133 fails for `Logf` on the console: backend's priorities 0 to 3 are taken as slog's levels, where they are Info and what is just above
Info.  Every statement is written, also those for debugging, and always with a wrong level: errors look like information. -/
theorem C133_logf_refuted (c : Ctx) (p : Prio) (msg : String) :
    ∃ o, Logger.stdout.log c (.logf p) msg = some [o] ∧ ¬ Records .stdout p msg o := by
  cases p <;> simp [Logger.log, slogger, slogWrite, Prio.num, Records, slogLevel]

/-- **C133**, tags: X-Trace reports have the tag Error exactly if they come from `Error`; errors that are logged with `Logf` are not found by
that tag. -/
theorem C133_tags {c : Ctx} {m : Method} {msg msg' : String} {tags : List String} (h : Logger.xtrace.log c m msg = some [.report msg' tags]) :
    (m = .error → tags = ["Error"]) ∧ (m ≠ .error → tags = []) := by
  simp only [Logger.log, xtLog] at h
  cases hc : c.task <;> cases m <;> simp [hc] at h <;> simp [h.2]

/-! ### The running process -/

/-- The process's logger is `k`, and has written everything that was said. -/
def Inv (k : Logger) (s : Proc) : Prop := s.logger = k ∧ s.out = written k s.said

/-- No other logger than `k` is set. -/
def Only (k : Logger) (as : List Act) : Prop := ∀ l, .setLogger l ∈ as → l = k

theorem Behaves.only {k : Logger} {as : List Act} (h : Behaves as) : Only k as := fun l hl => absurd hl (h l)

theorem log_some {k : Logger} (hk : k ≠ .errorOut) (c : Ctx) (m : Method) (msg : String) : ∃ o, k.log c m msg = some o := by
  cases k with
  | errorOut => exact absurd rfl hk
  | _ => exact ⟨_, rfl⟩

theorem runActs_inv {k : Logger} (hk : k ≠ .errorOut) : ∀ (as : List Act) (s : Proc), Only k as → Inv k s →
    Inv k (runActs as s).1 ∧ (runActs as s).2 ≠ .fatal ∧ (s.metric = true → (runActs as s).1.metric = true) ∧
      (s.metric = true → .fail ∉ as → (runActs as s).2 = .ok)
  | [], s, _, h => ⟨h, by simp [runActs], fun h => h, fun _ _ => rfl⟩
  | .log c m msg :: as, s, ho, h => by
    obtain ⟨o, e⟩ := log_some hk c m msg
    rw [runActs]
    simp only [h.1, e]
    have x := runActs_inv hk as { s with logger := k, out := s.out ++ o, said := s.said ++ [(c, m, msg)] }
      (fun l hl => ho l (List.mem_cons_of_mem _ hl)) ⟨rfl, by
        simp only [written, List.flatMap_append, List.flatMap_cons, List.flatMap_nil, List.append_nil, e, Option.getD_some]
        rw [h.2]
        rfl⟩
    have h1 := h.1
    simp only [← h1] at x ⊢
    exact ⟨x.1, x.2.1, x.2.2.1, fun a b => x.2.2.2 a fun hb => b (List.mem_cons_of_mem _ hb)⟩
  | .meter :: as, s, ho, h => by
    rw [runActs]
    split
    · exact (runActs_inv hk as _ (fun l hl => ho l (List.mem_cons_of_mem _ hl)) h).imp id
        fun x => ⟨x.1, x.2.1, fun a b => x.2.2 a fun hb => b (List.mem_cons_of_mem _ hb)⟩
    · rename_i hs
      exact ⟨h, by simp, fun h => h, fun hs' => absurd hs' hs⟩
  | .setLogger l :: as, s, ho, h => by
    rw [runActs]
    have := ho l (by simp)
    subst this
    have x := runActs_inv hk as { s with logger := l } (fun l hl => ho l (List.mem_cons_of_mem _ hl)) ⟨rfl, h.2⟩
    exact ⟨x.1, x.2.1, x.2.2.1, fun a b => x.2.2.2 a fun hb => b (List.mem_cons_of_mem _ hb)⟩
  | .setMetric :: as, s, ho, h => by
    rw [runActs]
    have x := runActs_inv hk as { s with metric := true } (fun l hl => ho l (List.mem_cons_of_mem _ hl)) h
    exact ⟨x.1, x.2.1, fun _ => x.2.2.1 rfl, fun _ b => x.2.2.2 rfl fun hb => b (List.mem_cons_of_mem _ hb)⟩
  | .fail :: as, s, _, h => ⟨h, by simp [runActs], fun h => h, fun _ hb => absurd (by simp) hb⟩

theorem getAll_inv {k : Logger} (hk : k ≠ .errorOut) {look : Name → Option RNode} (hb : ∀ n r, look n = some r → Only k r.acts) :
    ∀ (fuel : Nat) (s : Proc) (ns : List Name) (s' : Proc) (e : End), Inv k s → getAll look fuel s ns = some (s', e) →
      Inv k s' ∧ e ≠ .fatal ∧ (s.metric = true → s'.metric = true) ∧
      (s.metric = true → (∀ n r, look n = some r → .fail ∉ r.acts ∧ ∀ d ∈ r.deps, look d ≠ none) → (∀ n ∈ ns, look n ≠ none) → e = .ok) := by
  intro fuel
  induction fuel with
  | zero =>
    intro s ns s' e h he
    cases ns with
    | nil => rw [getAll] at he; obtain ⟨rfl, rfl⟩ := Prod.mk.inj (Option.some.inj he); exact ⟨h, by simp, fun h => h, fun _ _ _ => rfl⟩
    | cons n ns => rw [getAll] at he; cases he
  | succ fuel ih =>
    intro s ns s' e h he
    cases ns with
    | nil => rw [getAll] at he; obtain ⟨rfl, rfl⟩ := Prod.mk.inj (Option.some.inj he); exact ⟨h, by simp, fun h => h, fun _ _ _ => rfl⟩
    | cons n ns =>
      rw [getAll] at he
      split at he
      · obtain ⟨a, b, c, d⟩ := ih s ns s' e h he
        exact ⟨a, b, c, fun h1 h2 h3 => d h1 h2 fun n hn => h3 n (List.mem_cons_of_mem _ hn)⟩
      · cases hl : look n with
        | none =>
          simp only [hl] at he
          obtain ⟨rfl, rfl⟩ := Prod.mk.inj (Option.some.inj he)
          exact ⟨h, by simp, fun h => h, fun _ _ h3 => absurd hl (h3 n (by simp))⟩
        | some r =>
          simp only [hl] at he
          cases hg : getAll look fuel s r.deps with
          | none => rw [hg] at he; cases he
          | some x =>
            obtain ⟨s1, e1⟩ := x
            rw [hg] at he
            obtain ⟨a1, b1, c1, d1⟩ := ih s r.deps s1 e1 h hg
            cases e1 with
            | ok =>
              simp only at he
              obtain ⟨a2, b2, c2, d2⟩ := runActs_inv hk r.acts s1 (hb n r hl) a1
              generalize runActs r.acts s1 = q at he a2 b2 c2 d2
              obtain ⟨s2, e2⟩ := q
              cases e2 with
              | ok =>
                simp only at he
                obtain ⟨a3, b3, c3, d3⟩ := ih { s2 with built := n :: s2.built } ns s' e a2 he
                exact ⟨a3, b3, fun hm => c3 (c2 (c1 hm)), fun h1 h2 h3 => d3 (c2 (c1 h1)) h2 fun n hn => h3 n (List.mem_cons_of_mem _ hn)⟩
              | error =>
                simp only at he
                obtain ⟨rfl, rfl⟩ := Prod.mk.inj (Option.some.inj he)
                exact ⟨a2, b2, fun hm => c2 (c1 hm), fun h1 h2 h3 => d2 (c1 h1) (h2 n r hl).1⟩
              | fatal => exact absurd rfl b2
            | error =>
              simp only at he
              obtain ⟨rfl, rfl⟩ := Prod.mk.inj (Option.some.inj he)
              exact ⟨a1, b1, c1, fun h1 h2 h3 => d1 h1 h2 (h2 n r hl).2⟩
            | fatal => exact absurd rfl b1

theorem serve_inv {k : Logger} (hk : k ≠ .errorOut) : ∀ (rs : List (List Act)) (s : Proc), (∀ r ∈ rs, Only k r) → Inv k s →
    Inv k (serve rs s).1 ∧ (serve rs s).2 = .ok
  | [], _, _, h => ⟨h, rfl⟩
  | r :: rs, s, hr, h => by
    rw [serve]
    obtain ⟨a, b, -⟩ := runActs_inv hk r s (hr r (by simp)) h
    generalize runActs r s = q at a b
    obtain ⟨s', e⟩ := q
    cases e with
    | fatal => exact absurd rfl b
    | _ => exact serve_inv hk rs s' (fun r hr' => hr r (List.mem_cons_of_mem _ hr')) a

/-- Nodes that do nothing are built without anything happening. -/
theorem getAll_quiet {look : Name → Option RNode} : ∀ (fuel : Nat) (s : Proc) (ns : List Name) (s' : Proc) (e : End),
    (∀ n ∈ ns, ∀ r, look n = some r → r.deps = [] ∧ r.acts = []) → getAll look fuel s ns = some (s', e) →
    s'.logger = s.logger ∧ s'.metric = s.metric ∧ s'.out = s.out ∧ s'.said = s.said ∧ e ≠ .fatal ∧ ((∀ n ∈ ns, look n ≠ none) → e = .ok) := by
  intro fuel
  induction fuel with
  | zero =>
    intro s ns s' e _ he
    cases ns with
    | nil => rw [getAll] at he; obtain ⟨rfl, rfl⟩ := Prod.mk.inj (Option.some.inj he); simp
    | cons n ns => rw [getAll] at he; cases he
  | succ fuel ih =>
    intro s ns s' e hq he
    cases ns with
    | nil => rw [getAll] at he; obtain ⟨rfl, rfl⟩ := Prod.mk.inj (Option.some.inj he); simp
    | cons n ns =>
      rw [getAll] at he
      have hq' : ∀ n ∈ ns, ∀ r, look n = some r → r.deps = [] ∧ r.acts = [] := fun n hn => hq n (List.mem_cons_of_mem _ hn)
      split at he
      · obtain ⟨a, b, c, d, f, g⟩ := ih s ns s' e hq' he
        exact ⟨a, b, c, d, f, fun h => g fun n hn => h n (List.mem_cons_of_mem _ hn)⟩
      · cases hl : look n with
        | none =>
          simp only [hl] at he
          obtain ⟨rfl, rfl⟩ := Prod.mk.inj (Option.some.inj he)
          exact ⟨rfl, rfl, rfl, rfl, by simp, fun h => absurd hl (h n (by simp))⟩
        | some r =>
          obtain ⟨hd, ha⟩ := hq n (by simp) r hl
          simp only [hl, hd, ha] at he
          have e0 : getAll look fuel s [] = some (s, .ok) := by cases fuel <;> rfl
          simp only [e0, runActs] at he
          obtain ⟨a, b, c, d, f, g⟩ := ih _ ns s' e hq' he
          exact ⟨a, b, c, d, f, fun h => g fun n hn => h n (List.mem_cons_of_mem _ hn)⟩

theorem written_nil (k : Logger) : written k [] = [] := rfl

/-- How a process starts whose first nodes are its collector and its logger. -/
theorem start_cases {look : Name → Option RNode} {k : Logger} {okay : Bool} {m l : Name} {deps : List Name}
    (hm : look m = some (metricNode okay)) (hl : look l = some (loggerNode k deps))
    (hd : ∀ d ∈ deps, ∀ r, look d = some r → r.deps = [] ∧ r.acts = []) (hne : m ≠ l)
    {fuel : Nat} {rest : List Name} {s : Proc} {e : End} (hs : start look fuel (m :: l :: rest) = some (s, e)) :
    (e = .error ∧ s.out = [] ∧ s.said = [] ∧ (okay = true → (∀ d ∈ deps, look d ≠ none) → False)) ∨
      ∃ s0 f, Inv k s0 ∧ s0.metric = true ∧ getAll look f s0 rest = some (s, e) := by
  unfold start at hs
  cases fuel with
  | zero => rw [getAll] at hs; cases hs
  | succ fuel =>
    have e0 : ∀ (f : Nat) (s : Proc), getAll look f s [] = some (s, .ok) := by intro f s; cases f <;> rfl
    rw [getAll] at hs
    rw [if_neg (by simp [Proc.init])] at hs
    simp only [hm, metricNode, e0] at hs
    cases okay with
    | false =>
      simp only [Bool.false_eq_true, if_false, runActs] at hs
      obtain ⟨rfl, rfl⟩ := Prod.mk.inj (Option.some.inj hs)
      exact Or.inl ⟨rfl, rfl, rfl, fun h => absurd h (by simp)⟩
    | true =>
      simp only [if_true, runActs] at hs
      cases fuel with
      | zero => rw [getAll] at hs; cases hs
      | succ fuel =>
        rw [getAll] at hs
        rw [if_neg (by simp [Proc.init, Ne.symm hne])] at hs
        simp only [hl, loggerNode] at hs
        cases hg : getAll look fuel { Proc.init with metric := true, built := m :: Proc.init.built } deps with
        | none =>
          exfalso
          simp only [hg] at hs
          cases hs
        | some x =>
          obtain ⟨s1, e1⟩ := x
          obtain ⟨a, b, c, d, f, g⟩ := getAll_quiet fuel _ deps s1 e1 hd hg
          simp only [hg] at hs
          cases e1 with
          | fatal => exact absurd rfl f
          | error =>
            simp only at hs
            obtain ⟨rfl, rfl⟩ := Prod.mk.inj (Option.some.inj hs)
            exact Or.inl ⟨rfl, c, d, fun _ h => absurd (g h) (by simp)⟩
          | ok =>
            simp only [runActs] at hs
            refine Or.inr ⟨_, _, ⟨rfl, ?_⟩, ?_, hs⟩
            · show s1.out = written k s1.said
              rw [c, d]; rfl
            · exact b

/-- **C133**, at run time: in a process whose first nodes are its metric collector and its logger, whatever the constructors of the
other nodes do and whatever requests do later, except replacing the logger, no log statement ends the process, and everything that was
said, by constructors as by requests, was written by this logger, once and in this order. -/
theorem C133_running {look : Name → Option RNode} {k : Logger} (hk : k ≠ .errorOut) {okay : Bool} {m l : Name} {deps : List Name}
    (hm : look m = some (metricNode okay)) (hl : look l = some (loggerNode k deps))
    (hd : ∀ d ∈ deps, ∀ r, look d = some r → r.deps = [] ∧ r.acts = []) (hne : m ≠ l)
    (hb : ∀ n r, look n = some r → n ≠ l → Behaves r.acts)
    {fuel : Nat} {rest : List Name} {s : Proc} {e : End} (hs : start look fuel (m :: l :: rest) = some (s, e)) :
    e ≠ .fatal ∧ s.out = written k s.said ∧
    (e = .ok → ∀ reqs, (∀ r ∈ reqs, Behaves r) → (serve reqs s).2 ≠ .fatal ∧ (serve reqs s).1.out = written k (serve reqs s).1.said) := by
  have ho : ∀ n r, look n = some r → Only k r.acts := by
    intro n r hn
    by_cases h : n = l
    · subst h
      rw [hl] at hn
      injection hn with hn
      subst hn
      intro l' h'
      simpa [loggerNode] using h'
    · exact (hb n r hn h).only
  rcases start_cases hm hl hd hne hs with ⟨rfl, h1, h2, -⟩ | ⟨s0, f, hi, -, hg⟩
  · exact ⟨by simp, by rw [h1, h2]; rfl, fun h => absurd h (by simp)⟩
  · obtain ⟨a, b, -⟩ := getAll_inv hk ho f s0 rest s e hi hg
    refine ⟨b, a.2, fun _ reqs hr => ?_⟩
    obtain ⟨x, y⟩ := serve_inv hk reqs s (fun r h => (hr r h).only) a
    exact ⟨by rw [y]; simp, x.2⟩

/-- **C133**, meters: in such a process no constructor fails because there is no metric collector.  If no constructor has an error of its
own, the process starts. -/
theorem C133_meters {look : Name → Option RNode} {k : Logger} (hk : k ≠ .errorOut) {m l : Name} {deps : List Name}
    (hm : look m = some (metricNode true)) (hl : look l = some (loggerNode k deps))
    (hd : ∀ d ∈ deps, ∀ r, look d = some r → r.deps = [] ∧ r.acts = []) (hne : m ≠ l)
    (hb : ∀ n r, look n = some r → n ≠ l → Behaves r.acts)
    (hf : ∀ n r, look n = some r → .fail ∉ r.acts ∧ ∀ d ∈ r.deps, look d ≠ none)
    {fuel : Nat} {rest : List Name} (hrest : ∀ n ∈ rest, look n ≠ none) {s : Proc} {e : End}
    (hs : start look fuel (m :: l :: rest) = some (s, e)) : e = .ok ∧ s.metric = true := by
  have ho : ∀ n r, look n = some r → Only k r.acts := by
    intro n r hn
    by_cases h : n = l
    · subst h
      rw [hl] at hn
      injection hn with hn
      subst hn
      intro l' h'
      simpa [loggerNode] using h'
    · exact (hb n r hn h).only
  rcases start_cases hm hl hd hne hs with ⟨-, -, -, h⟩ | ⟨s0, f, hi, hme, hg⟩
  · exact (h rfl (hf l _ hl).2).elim
  · obtain ⟨-, -, c, d⟩ := getAll_inv hk ho f s0 rest s e hi hg
    exact ⟨d hme hf hrest, c hme⟩

theorem quietActs : ∀ (as : List Act) (s : Proc), Behaves as → s.logger = .errorOut → s.said = [] → s.out = [] →
    (runActs as s).1.logger = .errorOut ∧ (runActs as s).1.out = [] ∧ ((runActs as s).2 ≠ .fatal → (runActs as s).1.said = [])
  | [], s, _, h1, h2, h3 => ⟨h1, h3, fun _ => h2⟩
  | .log c m msg :: as, s, _, h1, h2, h3 => by
    rw [runActs]
    simp only [h1, Logger.log]
    exact ⟨trivial, h3, fun h => absurd rfl h⟩
  | .meter :: as, s, hb, h1, h2, h3 => by
    rw [runActs]
    split
    · exact quietActs as s (fun l hl => hb l (List.mem_cons_of_mem _ hl)) h1 h2 h3
    · exact ⟨h1, h3, fun _ => h2⟩
  | .setLogger l :: as, s, hb, _, _, _ => absurd (by simp) (hb l)
  | .setMetric :: as, s, hb, h1, h2, h3 => by
    rw [runActs]
    exact quietActs as _ (fun l hl => hb l (List.mem_cons_of_mem _ hl)) h1 h2 h3
  | .fail :: as, s, _, h1, h2, h3 => ⟨h1, h3, fun _ => h2⟩

theorem quietGet {look : Name → Option RNode} (hb : ∀ n r, look n = some r → Behaves r.acts) : ∀ (fuel : Nat) (s : Proc) (ns : List Name)
    (s' : Proc) (e : End), s.logger = .errorOut → s.said = [] → s.out = [] → getAll look fuel s ns = some (s', e) →
    s'.logger = .errorOut ∧ s'.out = [] ∧ (e ≠ .fatal → s'.said = []) := by
  intro fuel
  induction fuel with
  | zero =>
    intro s ns s' e h1 h2 h3 he
    cases ns with
    | nil => rw [getAll] at he; obtain ⟨rfl, rfl⟩ := Prod.mk.inj (Option.some.inj he); exact ⟨h1, h3, fun _ => h2⟩
    | cons n ns => rw [getAll] at he; cases he
  | succ fuel ih =>
    intro s ns s' e h1 h2 h3 he
    cases ns with
    | nil => rw [getAll] at he; obtain ⟨rfl, rfl⟩ := Prod.mk.inj (Option.some.inj he); exact ⟨h1, h3, fun _ => h2⟩
    | cons n ns =>
      rw [getAll] at he
      split at he
      · exact ih s ns s' e h1 h2 h3 he
      · cases hl : look n with
        | none =>
          simp only [hl] at he
          obtain ⟨rfl, rfl⟩ := Prod.mk.inj (Option.some.inj he)
          exact ⟨h1, h3, fun _ => h2⟩
        | some r =>
          simp only [hl] at he
          cases hg : getAll look fuel s r.deps with
          | none => rw [hg] at he; cases he
          | some x =>
            obtain ⟨s1, e1⟩ := x
            rw [hg] at he
            obtain ⟨a1, b1, c1⟩ := ih s r.deps s1 e1 h1 h2 h3 hg
            cases e1 with
            | ok =>
              simp only at he
              obtain ⟨a2, b2, c2⟩ := quietActs r.acts s1 (hb n r hl) a1 (c1 (by simp)) b1
              generalize runActs r.acts s1 = q at he a2 b2 c2
              obtain ⟨s2, e2⟩ := q
              cases e2 with
              | ok =>
                simp only at he
                exact ih { s2 with built := n :: s2.built } ns s' e a2 (c2 (by simp)) b2 he
              | error =>
                simp only at he
                obtain ⟨rfl, rfl⟩ := Prod.mk.inj (Option.some.inj he)
                exact ⟨a2, b2, c2⟩
              | fatal =>
                simp only at he
                obtain ⟨rfl, rfl⟩ := Prod.mk.inj (Option.some.inj he)
                exact ⟨a2, b2, c2⟩
            | error =>
              simp only at he
              obtain ⟨rfl, rfl⟩ := Prod.mk.inj (Option.some.inj he)
              exact ⟨a1, b1, c1⟩
            | fatal =>
              simp only at he
              obtain ⟨rfl, rfl⟩ := Prod.mk.inj (Option.some.inj he)
              exact ⟨a1, b1, c1⟩

/-- C133 fails for processes that CreateProcess did not make: services that are in no process and are put into the default one
(plugins/goproc/defaults.go), and client processes (CreateClientProcess).  They have no logger: in any such process nothing that is said is
ever written, and the first log statement, of a constructor or of a request, ends the process. -/
theorem C133_floating_refuted {look : Name → Option RNode} (hb : ∀ n r, look n = some r → Behaves r.acts) {fuel : Nat} {nodes : List Name}
    {s : Proc} {e : End} (hs : start look fuel nodes = some (s, e)) :
    s.out = [] ∧ (s.said ≠ [] → e = .fatal) ∧
    (e = .ok → ∀ c m msg as reqs, (serve ((.log c m msg :: as) :: reqs) s).2 = .fatal) := by
  obtain ⟨a, b, c⟩ := quietGet hb fuel Proc.init nodes s e rfl rfl rfl hs
  refine ⟨b, fun h => ?_, fun _ c m msg as reqs => ?_⟩
  · cases e with
    | fatal => rfl
    | _ => exact absurd (c (by simp)) h
  · rw [serve, runActs]
    simp [a, Logger.log]

/-- **C133**, from the wiring spec to the running process: compile any wiring spec in which process `p` has metric collector `m` and logger
`l`, chosen last; start a process with the nodes that its namespace has in the end, in their order.  Then every log statement, from the
first constructor on, is written by that logger. -/
theorem C133_whole_partial {calls : List Call} {p m l : Name} {other : Nat → Nat → Prog Ty} (h : ∀ o, .other o ∈ calls → LeavesAlone p o)
    (cm : lastChoice (Call.collector p) calls = some m) (cl : lastChoice (Call.logger p) calls = some l)
    (hm : Plain (specOf calls) m) (hl : Plain (specOf calls) l) (hne : m ≠ l)
    {st : St Ty} (hr : History (lookOf (specOf calls) other) St.init st) {ns : Nat} (hns : ns < st.size) (hc : st.children ns p = none)
    {look : Name → Option RNode} {k : Logger} (hk : k ≠ .errorOut) {okay : Bool}
    (rm : look m = some (metricNode okay)) (rl : look l = some (loggerNode k [])) (hb : ∀ n r, look n = some r → n ≠ l → Behaves r.acts) :
    ∃ fuel st' node, exec (lookOf (specOf calls) other) fuel st (.prog (fnOf (specOf calls) other (.process p) ns)) = some (st', .ok node) ∧
      ∀ st'', History (lookOf (specOf calls) other) st' st'' → ∀ fuel s e, start look fuel (nodesOf st.size st''.log) = some (s, e) →
        e ≠ .fatal ∧ s.out = written k s.said ∧
        (e = .ok → ∀ reqs, (∀ r ∈ reqs, Behaves r) → (serve reqs s).2 ≠ .fatal ∧ (serve reqs s).1.out = written k (serve reqs s).1.said) := by
  obtain ⟨fuel, st', node, he, hall⟩ := C133_first h cm cl hm hl hne hr hns hc
  refine ⟨fuel, st', node, he, fun st'' hh fuel s e hs => ?_⟩
  obtain ⟨rest, er⟩ := hall st'' hh
  rw [er] at hs
  exact C133_running hk rm rl (by simp) hne hb hs

/-- C133 fails for loggers that are chosen before the process is created: CreateProcess sets its default logger whatever was chosen before, so
after `opentelemetry.Logger(spec, p)` and then `goproc.CreateProcess(spec, p, …)` the process logs to the console. -/
theorem C133_early_refuted {before after : List Call} {p : Name} {children : List Name}
    (h : ∀ o, .other o ∈ before ++ .createProcess p children :: after → LeavesAlone p o) (ha : ∀ c ∈ after, c.logger p = none) (n : Name) :
    (specOf (before ++ .createProcess p children :: after)).getProperty p "logger" = .value (.str n) ↔ n = p ++ ".logger" := by
  have e : lastChoice (Call.logger p) (before ++ .createProcess p children :: after) = some (p ++ ".logger") := by
    have : after.filterMap (Call.logger p) = [] := List.filterMap_eq_nil_iff.2 ha
    unfold lastChoice
    rw [List.filterMap_append, List.filterMap_cons]
    simp [Call.logger, this]
  rw [(C133_chosen h n).1, e, Option.some.injEq]
  exact eq_comm

end Verif.Logs
