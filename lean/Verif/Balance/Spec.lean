import Verif.Balance.Model
/-
Which way a call should take, by the definitions of the wiring spec.
-/
namespace Verif.Balance
open Verif.Wiring (Name)

/-- By its definition a call of `n` passes the wrappers `p` and ends at `d`. -/
inductive Means (defs : Name → Option Def) : Name → List Name → Dest → Prop where
  | same {n m p d} : defs n = some (.same m) → Means defs m p d → Means defs n p d
  | handler {n i refs} : defs n = some (.node .handler i refs) → Means defs n [] .balancer
  | service {n i refs} : defs n = some (.node .service i refs) → Means defs n [] (.service i)
  | remote {n i refs} : defs n = some (.node .rpcClient i refs) → Means defs n [] (.remote i)
  | client {n i m p d} : defs n = some (.node .client i [m]) → Means defs m p d → Means defs n p d
  | wrap {n i m p d} : defs n = some (.node .wrap i [m]) → Means defs m p d → Means defs n (i :: p) d
  | server {n i m p d} : defs n = some (.node .rpcServer i [m]) → Means defs m p d → Means defs n p d

/-- Two definitions that the process has gotten do not make nodes with the same name. -/
def Distinct (defs : Name → Option Def) (s : St) : Prop :=
  ∀ d₁ d₂ t₁ t₂ k₁ k₂ i r₁ r₂, (d₁, t₁) ∈ s.seen → (d₂, t₂) ∈ s.seen → defs d₁ = some (.node k₁ i r₁) → defs d₂ = some (.node k₂ i r₂) → d₁ = d₂

/-- What a process has after it has gotten some nodes, one after the other. -/
inductive Reached (defs : Name → Option Def) : St → Prop where
  | init : Reached defs St.init
  | step {s fuel ds s' ts} : Reached defs s → getAll defs fuel s ds = some (s', ts) → Reached defs s'

/-- All definitions but `a` make nodes with different names, and these are the only ones with their names. -/
def DistinctBut (a : Name) (table : List (Name × Def)) : Prop :=
  (table.map (·.1)).Nodup ∧
  ∀ d₁ d₂ k₁ k₂ i r₁ r₂, d₁ ≠ a → d₂ ≠ a → (d₁, Def.node k₁ i r₁) ∈ table → (d₂, Def.node k₂ i r₂) ∈ table → d₁ = d₂

end Verif.Balance
