import Verif.GoTests.Refuted
/-
C111: a concrete test package, as examples/sockshop/tests/userservice_test.go has it.
-/
namespace Verif.GoTests.Examples
open Verif.GoCode (Name Ty Iface)

def userType : Ty := .user "github.com/blueprint-uservices/blueprint/examples/sockshop/workflow/user".toList "UserService".toList
def userIface : Iface := ⟨[], by simp⟩
def own : File := ⟨"userservice_test.go".toList, true, [⟨"userServiceRegistry".toList,
  [.call (.index (.sel (.ident registryIdent) newRegistryIdent) (.sel (.ident "user".toList) "UserService".toList)) [.other]]⟩],
  [.register "userServiceRegistry".toList "local".toList (.own 7)]⟩
def pkg : Pkg := ⟨"sockshop/tests".toList, "sockshop/tests".toList, "tests".toList, [own]⟩
def types : Types := ⟨fun _ _ => userType, fun _ => none⟩
def reg : Reg := ⟨pkg, "userServiceRegistry".toList, userType, none⟩
def svc : Service := ⟨"user_service".toList, "user_service.http_client".toList, userType, userIface⟩

/-- The registry is found. -/
example : reg ∈ findRegistries types [pkg] :=
  (C111_found _ _ _).2 ⟨pkg, List.mem_singleton.2 rfl, own, List.mem_singleton.2 rfl, _, List.mem_singleton.2 rfl, _, _, rfl, rfl⟩

/-- It is the only one, and the service fits it: the hypotheses of `C111_uses_client_partial` hold, and the test gets the client. -/
example (code : Build → Nat) : ∃ ws bs, generate ({}, []) [reg] [svc] = some (ws, bs) ∧
    firstGet code reg.var (outputFiles bs reg.pkg) = (.built (code (.client svc.node)), some (code (.client svc.node))) := by
  obtain ⟨ws, h⟩ := one_registry reg svc rfl
  refine ⟨ws, _, h, C111_uses_client_partial {} ws [reg] [svc] _ h (by simp) (by simp) reg (by simp) svc [] ?_ ?_ ?_ ?_ code⟩
  · have : Fits svc reg := Or.inl rfl
    simp [this]
  · intro f hf ht
    cases List.mem_singleton.1 hf; cases ht
  · intro f hf name h
    cases List.mem_singleton.1 hf; cases List.mem_singleton.1 h
  · intro f hf b h
    cases List.mem_singleton.1 hf
    have h : "user_service".toList = "local".toList := congrArg (fun | Stmt.register _ n _ => n | _ => []) (List.mem_singleton.1 h)
    exact absurd h (by decide +kernel)

/-- In the source, without the generated file, the test uses its own instance. -/
example : firstGet (fun | .own k => k | .client _ => 0) reg.var pkg.files = (.built 7, some 7) := by decide +kernel

/-- Two test modules in directories `a/tests` and `b/tests`: the hypotheses of `C111_same_subdir_refuted` hold. -/
example : generate ({}, []) [reg, ⟨⟨"other/tests".toList, "other/tests".toList, "tests".toList, [own]⟩, "r".toList, userType, none⟩] [svc] = none :=
  C111_same_subdir_refuted {} _ _ svc (Or.inl rfl) (Or.inl rfl) (by decide +kernel) (by decide +kernel) rfl rfl rfl rfl

/-- A file `backends.go` sorts before the generated file: the hypotheses of `C111_early_file_refuted` can be met. -/
example : "backends.go".toList ≤ clientsFile ∧ "backends.go".toList ≠ clientsFile := by decide +kernel

end Verif.GoTests.Examples
