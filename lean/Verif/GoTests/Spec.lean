import Verif.GoTests.Model
import Verif.GoCode.Spec
import Verif.Registry.Spec
/-
Specification for C111: which services can be tested through which registries, and what a test gets from its registry.
-/
namespace Verif.GoTests
open Verif.GoCode (Name Ty Iface SameSignature)

/-- The registry can hold clients of the service: it is for the service's own type, or for an interface all of whose methods the
service has. -/
def Fits (s : Service) (r : Reg) : Prop :=
  s.type = r.type ∨ ∃ i, r.iface = some i ∧ ∀ name f, i.get name = some f → ∃ g, s.iface.get name = some g ∧ SameSignature f g

/-- The statements of a file about a variable. -/
def Stmt.about (var : Name) : Stmt → Prop
  | .register v _ _ => v = var
  | .setDefault v _ => v = var

/-- No file says anything about the variable before the generated one: the files other than tests that do have later names.  In a
package of tests (all of whose files but the documentation end in `_test.go`) this is so. -/
def FirstInOrder (var : Name) (files : List File) : Prop :=
  ∀ f ∈ files, f.test = false → f.name ≤ clientsFile → ∀ st ∈ f.init, ¬ st.about var

/-- What a test gets from the registry in a variable when it asks for the first time: the build function that is run (numbered by
`code`), if any. -/
def firstGet (code : Build → Nat) (var : Name) (files : List File) : Registry.Ret Nat × Option Nat :=
  ((Registry.run (Registry.init Nat) (opsOf Nat code var (initStmts files) ++ [.get id])).2.head?).getD (.noClients, none)

end Verif.GoTests
