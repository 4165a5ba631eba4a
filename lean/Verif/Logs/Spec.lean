import Verif.Logs.Model
/-
Which logger and metric collector a wiring spec means, and what log statements should leave behind.
-/
namespace Verif.Logs
open Verif.Wiring (Name)

/-- The logger that a call chooses for process `p`: CreateProcess the default, and the Logger functions of plugins theirs. -/
def Call.logger (p : Name) : Call → Option Name
  | .createProcess q _ => if q = p then some (p ++ ".logger") else none
  | .setLogger q n => if q = p then some n else none
  | .otLogger q => if q = p then some (p ++ "_ottrace_logger") else none
  | .xtLogger q => if q = p then some "xtrace_logger" else none
  | .vecLogger q => if q = p then some (p ++ ".goveclogger") else none
  | _ => none

/-- The metric collector that a call chooses for process `p`. -/
def Call.collector (p : Name) : Call → Option Name
  | .createProcess q _ => if q = p then some (p ++ ".stdoutmetriccollector") else none
  | .setMetricCollector q n => if q = p then some n else none
  | _ => none

/-- The last choice counts. -/
def lastChoice (choice : Call → Option Name) (calls : List Call) : Option Name := (calls.filterMap choice).getLast?

/-- Other calls of the wiring spec do not choose loggers or collectors of `p` behind the plugin's back, nor make `p` an alias. -/
def LeavesAlone (p : Name) : WOp → Prop
  | .alias a _ => a ≠ p
  | .setProperty n k _ => n = p → k ≠ "logger" ∧ k ≠ "metricCollector"
  | .addProperty n k _ => n = p → k ≠ "logger" ∧ k ≠ "metricCollector"
  | .define .. => True

/-- The name is defined as a node without arguments. -/
def Plain (s : WSpec) (n : Name) : Prop := ∃ d, s.defs.get n = some d ∧ d.nodeType = some .golang ∧ d.build = some (.plain n)

/-- The priority of a log statement. -/
def Method.prio : Method → Prio
  | .debug => .debug
  | .info => .info
  | .warn => .warn
  | .error => .error
  | .logf p => p

/-- Whether a logger is to show log statements of this priority: on the console, those that are not for debugging; in traces, those
made while there is a trace. -/
def Shows (l : Logger) (c : Ctx) (p : Prio) : Prop :=
  match l with
  | .errorOut => False
  | .stdout => p ≠ .debug
  | .ot => c.span = true
  | .xtrace => c.task = true
  | .govec => True

/-- slog's level of a priority. -/
def slogLevel : Prio → Int
  | .debug => -4
  | .info => 0
  | .warn => 4
  | .error => 8

/-- The record of a log statement, with its priority and message. -/
def Records (l : Logger) (p : Prio) (msg : String) : Out → Prop
  | .line lv m => l = .stdout ∧ lv = slogLevel p ∧ m = msg
  | .event pr m => l = .ot ∧ pr = p.string ∧ m = msg
  | .report m _ => l = .xtrace ∧ m = p.string ++ ": " ++ msg
  | .local_ n m => l = .govec ∧ n = p.num ∧ m = msg

/-- What a logger leaves behind for log statements, in their order. -/
def written (l : Logger) (said : List Stmt) : List Out := said.flatMap fun x => (l.log x.1 x.2.1 x.2.2).getD []

/-- Workflow code does not replace the process's logger. -/
def Behaves (as : List Act) : Prop := ∀ l, .setLogger l ∉ as

end Verif.Logs
