import Verif.Cmd.Model
/-
Which wiring spec is compiled, and into what.
-/
namespace Verif.Cmd

/-- The spec with this name that was given last. -/
def Selected {W E : Type} (specs : List (SpecOption W E)) (n : Name) (s : SpecOption W E) : Prop :=
  ∃ before after, specs = before ++ s :: after ∧ s.name = n ∧ ∀ t ∈ after, t.name ≠ n

/-- The passes are run one after the other, each on what the one before left. -/
inductive Analysed {W IR E : Type} (w : W) : List (W → IR → Except E IR) → IR → IR → Prop where
  | nil (ir : IR) : Analysed w [] ir ir
  | cons {p : W → IR → Except E IR} {ps : List (W → IR → Except E IR)} {a b c : IR} : p w a = .ok b → Analysed w ps b c → Analysed w (p :: ps) a c

/-- The spec compiles to the IR. -/
def Compiles {W IR E : Type} (env : Env W IR E) (passes : List (W → IR → Except E IR)) (s : SpecOption W E) (ir : IR) : Prop :=
  ∃ w nodes first, s.build env.new = .ok (w, nodes) ∧ env.buildIR w nodes = .ok first ∧ Analysed w passes first ir

end Verif.Cmd
