/-
Model of address handling in /repo/blueprint/pkg/coreplugins/address/{portassignment,wiring}.go.
-/
namespace Verif.Address

/-- A `BindConfig`, reduced to the fields that port assignment uses.  Ports are 16-bit numbers; 0 means
"not assigned".  Simplification: the nodes in a list are different objects. -/
structure Bind where
  name : String
  port : Nat
  preferred : Nat
deriving DecidableEq, Repr

/-- Number of values of a Go `uint16`. -/
def portSpace : Nat := 65536

/-- First loop of `AssignPorts` (portassignment.go lines 53-64): the ports already assigned, or `none` if
one of them is assigned twice. -/
def collect (used : List Nat) : List Bind → Option (List Nat)
  | [] => some used
  | b :: bs =>
    if b.port ≠ 0 then
      if b.port ∈ used then none else collect (b.port :: used) bs
    else collect used bs

/-- The search loop (lines 72-79).  `candidatePort++` wraps around.  After `portSpace` rounds every port
has been tried: the Go loop then never ends, which is `none`. -/
def search (used : List Nat) : (fuel candidate : Nat) → Option Nat
  | 0, _ => none
  | fuel + 1, candidate =>
    if candidate ∈ used then search used fuel ((candidate + 1) % portSpace) else some candidate

/-- First candidate (lines 68-71). -/
def startPort (b : Bind) : Nat := if b.preferred = 0 then 2000 else b.preferred

/-- Second loop (lines 67-80), on all nodes in order; nodes that already have a port are left alone. -/
def assign (used : List Nat) : List Bind → Option (List Bind)
  | [] => some []
  | b :: bs =>
    if b.port ≠ 0 then (assign used bs).map (b :: ·)
    else
      match search used portSpace (startPort b) with
      | none => none
      | some p => (assign (p :: used) bs).map ({ b with port := p } :: ·)

/-- How `AssignPorts` ends. -/
inductive Result where
  /-- it returns an error; the nodes afterwards -/
  | conflict (binds : List Bind)
  /-- it never returns -/
  | diverges
  /-- it succeeds: the nodes afterwards, and the positions of the nodes in the returned lists
  `preassigned` and `assigned` -/
  | ok (binds : List Bind) (preassigned assigned : List Nat)
deriving Repr

/-- `AssignPorts` (portassignment.go lines 49-87). -/
def assignPorts (binds : List Bind) : Result :=
  match collect [] binds with
  | none => .conflict binds                                          -- no node was written before line 58
  | some used =>
    match assign used binds with
    | none => .diverges
    | some bs =>
      .ok (bs.map fun b => { b with preferred := b.port })          -- lines 83-85
        ((binds.zipIdx.filter (fun x => decide (x.1.port ≠ 0))).map (·.2))
        ((binds.zipIdx.filter (fun x => decide (x.1.port = 0))).map (·.2))

/-- `strings.CutSuffix`. -/
def cutSuffix (s suffix : List Char) : Option (List Char) :=
  if suffix.isSuffixOf s then some (s.take (s.length - suffix.length)) else none

/-- `stringutil.ReplaceSuffix` (/repo/blueprint/pkg/blueprint/stringutil/name.go lines 39-44). -/
def replaceSuffix (s suffix replacement : List Char) : List Char :=
  match cutSuffix s suffix with
  | some before => before ++ replacement
  | none => s ++ ['.'] ++ replacement

/-- `bind` and `dial` (wiring.go lines 109-115). -/
def bindName (a : List Char) : List Char := replaceSuffix a "addr".toList "bind_addr".toList
def dialName (a : List Char) : List Char := replaceSuffix a "addr".toList "dial_addr".toList

end Verif.Address
