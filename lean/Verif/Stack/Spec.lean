import Verif.Stack.Model
/-!
# What users expect of stacks of plugins
-/

namespace Verif.Stack

/-- Plugins that change every method's signature on the wire. -/
def Tracer (m : Mod) : Prop := m = .xtrace ∨ m = .govec ∨ m = .ot

/-- The signature of method `n`, if the interface has it. -/
def sig (i : Iface) (n : Str) : Option Func := i.methods.lookup n

/-- The signature the caller should see: that of the service, plus the health check method if there is one. -/
def expected (ms : List Mod) (i : Iface) (n : Str) : Option Func :=
  if n = ['H', 'e', 'a', 'l', 't', 'h'] ∧ Mod.health ∈ ms then some ⟨[], [⟨[], ['s', 't', 'r', 'i', 'n', 'g']⟩]⟩
  else sig i n

/-- The types of a signature, which is what Go compares. -/
def types (f : Func) : List Str × List Str := (f.args.map Var.type, f.rets.map Var.type)

/-- A tracing plugin was applied before a health checker. -/
def TracerBeforeHealth (ms : List Mod) : Prop := ∃ a b c t, ms = a ++ t :: b ++ Mod.health :: c ∧ Tracer t

end Verif.Stack
