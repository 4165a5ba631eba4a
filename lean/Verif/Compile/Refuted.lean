import Verif.Compile.Model
/-
Wiring specs that are not covered by C112, because compilation fails or builds something else.
-/
namespace Verif.Compile
open Verif.Wiring (Name)

def declShared : List Decl := [
  .service "db" [] [], .service "a" [false] ["db"], .space "pa" 1, .addTo 1 "pa" "a", .service "b" [false] ["db"], .space "pb" 1, .addTo 1 "pb" "b"]

/-- A service without RPC that is put into no process can be used by the services of one process, but not by those of two: each
compilation that asks for one of the processes succeeds, the compilation that asks for both fails. -/
theorem C112_shared_refuted :
    (compile (Wired.run declShared).env 20 ["pa"]).map (·.2) = some .success ∧
    (compile (Wired.run declShared).env 20 ["pb"]).map (·.2) = some .success ∧
    (compile (Wired.run declShared).env 20 ["pa", "pb"]).map (·.2) = some .failed := by
  decide +kernel

def declNoRpc : List Decl := [
  .service "b" [] [], .space "pb" 1, .addTo 1 "pb" "b", .service "a" [false] ["b"], .space "pa" 1, .addTo 1 "pa" "a"]

/-- A service without RPC in one process can not be called from another: the compilation fails, whichever process is asked for first. -/
theorem C112_no_rpc_refuted :
    (compile (Wired.run declNoRpc).env 20 ["pa", "pb"]).map (·.2) = some .failed ∧
    (compile (Wired.run declNoRpc).env 20 ["pb", "pa"]).map (·.2) = some .failed := by
  decide +kernel

def declLate (d : Decl) : List Decl := [.service "b" [] [], .rpc .grpc "b", d, .space "pb" 1, .addTo 1 "pb" "b", .service "a" [false] ["b"], .rpc .grpc "a",
  .space "pa" 1, .addTo 1 "pa" "a"]

/-- Wrappers have to be declared before RPC: a wrapper of the clients or of the service that is declared afterwards makes the compilation
of the services' processes fail. -/
theorem C112_late_wrapper_refuted :
    (compile (Wired.run (declLate (.wrapClient "b" "retries"))).env 30 ["pa", "pb"]).map (·.2) = some .failed ∧
    (compile (Wired.run (declLate (.wrapServer "b" "ot"))).env 30 ["pa", "pb"]).map (·.2) = some .failed := by
  decide +kernel

def declEarly : List Decl := [.service "b" [] [], .space "pb" 1, .addTo 1 "pb" "b", .rpc .grpc "b"]

/-- RPC has to be declared before the service is put into a process: otherwise the compilation of the process succeeds, but the process
has no RPC server. -/
theorem C112_early_process_refuted :
    (compile (Wired.run declEarly).env 20 ["pb"]).map (fun r => (r.2, (r.1.nodes ["pb"]).map Tree.name)) = some (.success, ["b"]) := by
  decide +kernel

def declString : List Decl := [.service "500" [] [], .service "a" [true] ["500"], .space "pa" 1, .addTo 1 "pa" "a"]

/-- A string argument of a constructor that happens to be the name of a service is not passed as a string: the service is built and its
client is passed. -/
theorem C112_string_refuted :
    (compile (Wired.run declString).env 20 ["pa"]).map (fun r => (r.2, (r.1.nodes ["pa"]).map Tree.name)) =
      some (.success, ["500", "500.client", "a"]) := by
  decide +kernel

def declMixed : List Decl := [
  .service "a" [false] ["b"], .rpc .grpc "a", .space "pa" 1, .addTo 1 "pa" "a", .space "ca" 2, .addTo 2 "ca" "a",
  .service "b" [] [], .rpc .grpc "b", .addTo 1 "pb" "b", .space "pb" 1]

/-- A process that is put into no container is built inside the container of the process that calls it, if that is compiled first. -/
theorem C112_mixed_refuted :
    (compile (Wired.run declMixed).env 30 ["ca"]).map (fun r => (r.2, (r.1.nodes ["ca"]).map Tree.name)) =
      some (.success, ["pa", "pb"]) := by
  decide +kernel

/-! ### Services that depend on themselves -/

def declCycle : List Decl := [.service "c" [false] ["c"]]

/-- A state in which nothing of `c` has been finished. -/
structure Fresh (s : St) : Prop where
  seen : ∀ n ∈ ["c", "c.src", "c.client", "c.client.ptr.src.next", "c.dst", "c.handler.uniqueness_check", "c.handler"], s.seen [] n = none
  vis : s.seen [] "c.handler.visibility" = none ∨ s.seen [] "c.handler.visibility" = some (some (.visibility "c.handler.visibility"))
  owner : s.owner "c.handler.visibility" = none

theorem alias_stuck {env : Env} {f : Nat} {s : St} {sp : Space} {e : Bool} {n dn : Name} {ty : Ty} {k : Kind} (hs : s.seen sp n = none)
    (hl : env.look n = some (dn, ty, some k)) (hne : dn ≠ n) (h : ∀ g < f, exec env g s (.get sp e dn) = none) :
    exec env f s (.get sp e n) = none := by
  cases f with
  | zero => rw [exec]
  | succ f => rw [exec]; simp only [hs, hl, if_pos hne, h f (by omega)]

theorem build_stuck {env : Env} {f : Nat} {s : St} {e : Bool} {n : Name} {ty : Ty} {k : Kind} (hs : s.seen [] n = none)
    (hl : env.look n = some (n, ty, some k)) (h : ∀ g < f, exec env g s (.build [] n k) = none) :
    exec env f s (.get [] e n) = none := by
  cases f with
  | zero => rw [exec]
  | succ f => rw [exec]; simp [hs, hl, St.accepts, h f (by omega)]

theorem cycle_stuck (env : Env) (look : env = (Wired.run declCycle).env) : ∀ (f : Nat) (s : St), Fresh s → exec env f s (.get [] true "c") = none := by
  have l1 : env.look "c" = some ("c", .level 0, some .ptr) := by subst look; decide +kernel
  have l2 : env.look "c.src" = some ("c.client", .level 0, some (.client "c.client.ptr.src.next")) := by subst look; decide +kernel
  have l3 : env.look "c.client" = some ("c.client", .level 0, some (.client "c.client.ptr.src.next")) := by subst look; decide +kernel
  have l4 : env.look "c.client.ptr.src.next" =
      some ("c.handler.uniqueness_check", .level 0, some (.check "c.handler.visibility" "c.handler")) := by subst look; decide +kernel
  have l5 : env.look "c.handler.uniqueness_check" =
      some ("c.handler.uniqueness_check", .level 0, some (.check "c.handler.visibility" "c.handler")) := by subst look; decide +kernel
  have l6 : env.look "c.handler.visibility" = some ("c.handler.visibility", .app, some .visibility) := by subst look; decide +kernel
  have l7 : env.look "c.handler" = some ("c.handler", .level 0, some (.handler "c" [false] ["c"])) := by subst look; decide +kernel
  have l8 : (env.ptr "c").map (·.srcHead) = some "c.src" := by subst look; decide +kernel
  clear look
  intro f
  induction f using Nat.strongRecOn with
  | ind f ih =>
    intro s hs
    refine build_stuck (hs.seen _ (by simp)) l1 fun f1 h1 => ?_
    cases f1 with
    | zero => rw [exec]
    | succ f1 =>
    rw [exec]
    cases hp : env.ptr "c" with
    | none => rw [hp] at l8; cases l8
    | some p =>
    rw [hp] at l8
    simp only [Option.map_some, Option.some.injEq] at l8
    simp only [l8]
    have hs' : Fresh { s with queue := s.queue ++ [.dst [] "c"] } := ⟨hs.seen, hs.vis, hs.owner⟩
    revert hs'
    generalize ({ s with queue := s.queue ++ [Job.dst [] "c"] } : St) = s'
    intro hs'
    refine alias_stuck (hs'.seen _ (by simp)) l2 (by decide) fun f2 h2 => ?_
    refine build_stuck (hs'.seen _ (by simp)) l3 fun f3 h3 => ?_
    cases f3 with
    | zero => rw [exec]
    | succ f3 =>
    rw [exec]
    have : exec env f3 s' (.get [] true "c.client.ptr.src.next") = none := by
      refine alias_stuck (hs'.seen _ (by simp)) l4 (by decide) fun f4 h4 => ?_
      refine build_stuck (hs'.seen _ (by simp)) l5 fun f5 h5 => ?_
      cases f5 with
      | zero => rw [exec]
      | succ f5 =>
      rw [exec]
      have hv : exec env f5 s' (.get [] true "c.handler.visibility") = none ∨
          ∃ s2, exec env f5 s' (.get [] true "c.handler.visibility") = some (s2, .ok (.visibility "c.handler.visibility")) ∧ Fresh s2 := by
        cases f5 with
        | zero => left; rw [exec]
        | succ f5 =>
        rw [exec]
        rcases hs'.vis with hv | hv
        · cases f5 with
          | zero => left; simp [hv, l6, St.accepts, exec]
          | succ f5 =>
            right
            refine ⟨_, by simp [hv, l6, St.accepts, exec]; rfl, ⟨?_, .inr ?_, ?_⟩⟩
            · intro n hn
              have h0 := hs'.seen n hn
              have hn : n ≠ "c.handler.visibility" := by rintro rfl; simp at hn
              simp only [St.afterBuild, St.setSeen]
              rw [if_neg (by simp [hn])]
              split <;> (try split) <;> exact h0
            · simp [St.afterBuild, St.setSeen]
            · simp only [St.afterBuild, St.setSeen]
              split <;> (try split) <;> exact hs'.owner
        · right; exact ⟨s', by simp [hv], hs'⟩
      rcases hv with hv | ⟨s2, hv, hs2⟩
      · simp only [hv]
      · simp only [hv, hs2.owner, Option.isSome_none, Bool.false_eq_true, if_false]
        have : exec env f5 s2 (.get [] true "c.handler") = none := by
          refine build_stuck (hs2.seen _ (by simp)) l7 fun f6 h6 => ?_
          cases f6 with
          | zero => rw [exec]
          | succ f6 =>
          rw [exec]
          simp only [List.length_cons, List.length_nil, ne_eq, not_true_eq_false, if_false, List.zip_cons_cons, List.zip_nil_right]
          cases f6 with
          | zero => rw [exec]
          | succ f6 =>
          rw [exec]
          simp only [Bool.false_and, Bool.false_eq_true, if_false, ih f6 (by omega) s2 hs2]
        simp only [this]
    simp only [this]

/-- A service whose constructor is given a client of the service itself, without RPC in between, is accepted by the wiring spec, but its
compilation never ends. -/
theorem C112_cycle_refuted (fuel : Nat) : compile (Wired.run declCycle).env fuel ["c"] = none := by
  unfold compile
  cases fuel with
  | zero => rw [runQueue]
  | succ f =>
    rw [runQueue]
    simp only [List.map_cons, List.map_nil, List.reverse_cons, List.reverse_nil, List.nil_append, runJob]
    rw [cycle_stuck _ rfl f _ ⟨fun _ _ => rfl, .inl rfl, rfl⟩]

/-! ### Backends -/

def declTwoDeployments : List Decl := [
  .backend "db", .service "a" [false] ["db"], .rpc .grpc "a", .addTo 1 "pa" "a", .space "pa" 1, .addTo 2 "ca" "a", .space "ca" 2, .addTo 3 "d" "a",
  .space "d" 3, .service "b" [false] ["db"], .rpc .grpc "b", .addTo 1 "pb" "b", .space "pb" 1, .addTo 2 "cb" "b", .space "cb" 2, .addTo 3 "e" "b",
  .space "e" 3]

/-- A backend that is put into no deployment but used from two is built in one of them, and in which depends on the order in which the
deployments are asked for. -/
theorem C126_two_deployments_refuted :
    (compile (Wired.run declTwoDeployments).env 60 ["d", "e"]).map (fun r => (r.2, (r.1.nodes ["d"]).map Tree.name, (r.1.nodes ["e"]).map Tree.name)) =
      some (.success, ["ca"], ["cb", "db.ctr"]) ∧
    (compile (Wired.run declTwoDeployments).env 60 ["e", "d"]).map (fun r => (r.2, (r.1.nodes ["d"]).map Tree.name, (r.1.nodes ["e"]).map Tree.name)) =
      some (.success, ["ca", "db.ctr"], ["cb"]) := by
  decide +kernel

def declBackendInContainer : List Decl := [.backend "db", .addTo 2 "c" "db", .space "c" 2]

/-- A backend that is put into a container is built outside of it; the compilation succeeds, and the container is empty. -/
theorem C126_in_container_refuted :
    (compile (Wired.run declBackendInContainer).env 30 ["c"]).map (fun r => (r.2, (r.1.nodes ["c"]).map Tree.name,
      (r.1.nodes []).map Tree.name)) = some (.success, [], ["c", "db.addr", "db.bind_addr", "db.ctr"]) := by
  decide +kernel

def declWrappedBackend : List Decl := [
  .backend "db", .wrapClient "db" "retries", .service "a" [false] ["db"], .rpc .grpc "a", .addTo 1 "pa" "a", .space "pa" 1]

/-- The clients of a backend can not be wrapped, for example to retry: the compilation fails. -/
theorem C126_wrapped_refuted : (compile (Wired.run declWrappedBackend).env 30 ["pa"]).map (·.2) = some .failed := by
  decide +kernel

end Verif.Compile
