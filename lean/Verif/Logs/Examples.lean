import Verif.Logs.Run
/-
Concrete cases of C133.
-/
namespace Verif.Logs.Examples
open Verif.Logs Verif.Wiring.Ns

/-- A process with two services that logs to traces. -/
def calls : List Call :=
  [.other (.define "user_service" .golang (.other 1) .stack), .createProcess "user_proc" ["user_service", "order_service"],
   .other (.define "order_service" .golang (.other 2) .stack), .otLogger "user_proc"]

theorem calls_alone : ∀ o, .other o ∈ calls → LeavesAlone "user_proc" o := by
  intro o h
  simp only [calls, List.mem_cons, Call.other.injEq, reduceCtorEq, List.not_mem_nil, or_false, false_or] at h
  rcases h with rfl | rfl <;> exact trivial

theorem calls_metric : lastChoice (Call.collector "user_proc") calls = some "user_proc.stdoutmetriccollector" := by decide +kernel
theorem calls_logger : lastChoice (Call.logger "user_proc") calls = some "user_proc_ottrace_logger" := by decide +kernel

theorem plain_metric : Plain (specOf calls) "user_proc.stdoutmetriccollector" :=
  ⟨_, rfl, by decide +kernel, by decide +kernel⟩

theorem plain_logger : Plain (specOf calls) "user_proc_ottrace_logger" :=
  ⟨_, rfl, by decide +kernel, by decide +kernel⟩

/-- The services of the example. -/
def other (i ns : Nat) : Prog Ty := plainFn (if i = 1 then "user_service" else "order_service") ns

/-- The hypotheses of C133_first hold at the beginning of a compilation. -/
example : ∃ fuel st' node, exec (lookOf (specOf calls) other) fuel St.init (.prog (fnOf (specOf calls) other (.process "user_proc") 0)) =
      some (st', .ok node) ∧
    ∀ st'', History (lookOf (specOf calls) other) st' st'' →
      ∃ rest, nodesOf 1 st''.log = "user_proc.stdoutmetriccollector" :: "user_proc_ottrace_logger" :: rest :=
  C133_first calls_alone calls_metric calls_logger plain_metric plain_logger (by decide) (History.refl _) (by decide) rfl

/-- A service that logs in its constructor and uses a meter, another that depends on it, and their process's own nodes. -/
def look (n : Verif.Wiring.Name) : Option RNode :=
  if n = "m" then some (metricNode true)
  else if n = "l" then some (loggerNode .ot [])
  else if n = "user_service" then some ⟨[], [.log ⟨true, false⟩ .info "started", .meter]⟩
  else if n = "order_service" then some ⟨["user_service"], [.log ⟨true, false⟩ (.logf .warn) "late"]⟩
  else none

/-- The process starts and has written two events. -/
example : (start look 9 ["m", "l", "order_service", "user_service"]).map (fun x => (x.1.out, x.2)) =
    some ([.event "INFO" "started", .event "WARN" "late"], .ok) := by decide +kernel

/-- It meets the hypothesis of C133_running on other nodes. -/
theorem look_behaves : ∀ n r, look n = some r → n ≠ "l" → Behaves r.acts := by
  intro n r h hl
  unfold look at h
  rw [if_neg hl] at h
  repeat' split at h
  all_goals first
    | (cases h; intro l; simp [metricNode]; done)
    | cases h

example {fuel : Nat} {s : Proc} {e : End} (hs : start look fuel ["m", "l", "order_service", "user_service"] = some (s, e)) :
    e ≠ .fatal ∧ s.out = written .ot s.said :=
  let h := C133_running (k := .ot) (by decide) (okay := true) (deps := []) (look := look) (m := "m") (l := "l") rfl rfl (by simp) (by decide)
    look_behaves hs
  ⟨h.1, h.2.1⟩

/-- The same services without the process's own nodes: the first log statement ends the process. -/
example : (start look 9 ["user_service"]).map (fun x => (x.1.out, x.2)) = some ([], .fatal) := by decide +kernel

/-- An error on the console, and the same with Logf. -/
example : Logger.stdout.log ⟨false, false⟩ .error "x" = some [.line 8 "x"] ∧ Logger.stdout.log ⟨false, false⟩ (.logf .error) "x" = some [.line 3 "x"] :=
  by decide +kernel

/-- Two errors in a trace; only one has the tag. -/
example : Logger.xtrace.log ⟨false, true⟩ .error "x" = some [.report "ERROR: x" ["Error"]] ∧
    Logger.xtrace.log ⟨false, true⟩ (.logf .error) "x" = some [.report "ERROR: x" []] := by decide +kernel

/-- A logger chosen too early. -/
example (n : Verif.Wiring.Name) : (specOf ([.otLogger "p"] ++ .createProcess "p" [] :: [])).getProperty "p" "logger" = .value (.str n) ↔
    n = "p" ++ ".logger" :=
  C133_early_refuted (by simp) (by simp) n

end Verif.Logs.Examples
