import Verif.Live.Connected
import Verif.Compile.Examples
/-
Applications and processes that meet the hypotheses of C113.
-/
namespace Verif.Live
open Verif.Wiring (Name)
open Verif.Compile
open Verif.Strings (cleanName envVar)
open Verif.Deploy.Compose (Workspace)

/-! ### A process -/

/-- A service with a logger and a runnable background worker; it is called through a retrying client and over gRPC. -/
def exHandler : Tree := .handler "svc" [.wrap "worker.client" (.handler "worker" []), .value "50"]

def exProc : Proc := ⟨[.handler "worker" [], .wrap "worker.client" (.handler "worker" []), exHandler, .grpcClient "b.grpc_client" "b.addr",
  .grpcServer "svc.grpc_server" exHandler "svc.addr"], [.dial (dialName "b.addr"), .bind (bindName "svc.addr")]⟩

def exClient (n : Name) : Bool := n == "worker.client"

theorem ex_closed : exProc.Closed := by
  refine ⟨by decide +kernel, ?_, ?_, ?_⟩
  · intro t ht
    simp only [exProc, List.mem_cons, List.not_mem_nil, or_false] at ht
    rcases ht with rfl | rfl | rfl | rfl | rfl
    · exact .inl ⟨_, _, rfl⟩
    · exact .inr (.inl ⟨_, _, rfl⟩)
    · exact .inl ⟨_, _, rfl⟩
    · exact .inr (.inr (.inl ⟨_, _, rfl⟩))
    · exact .inr (.inr (.inr ⟨_, _, _, rfl⟩))
  · intro t ht
    simp only [exProc, List.mem_cons, List.not_mem_nil, or_false] at ht
    rcases ht with rfl | rfl
    · exact .inr ⟨_, rfl⟩
    · exact .inl ⟨_, rfl⟩
  · intro t ht u hu
    simp only [exProc, List.mem_cons, List.not_mem_nil, or_false] at ht
    rcases ht with rfl | rfl | rfl | rfl | rfl <;> simp [parts, exHandler] at hu
    · subst hu; simp [exProc]
    · subst hu; simp [exProc]
    · subst hu; simp [exProc]
    · rcases hu with rfl | rfl <;> simp [exProc, exHandler]

def exWorld (x y : String) : RtNs.World := ⟨fun n => if n = dialName "b.addr" then x else y, fun _ => ""⟩

example : ∃ r, (∃ fuel, exProc.start exClient (· == "worker") (exWorld "cb:2000" "0.0.0.0:80") fuel = some (.running r)) ∧
    .made "b.grpc_client" [.str "cb:2000"] ∈ r.log ∧ .made "svc" [.made "worker" [], .str "50"] ∈ r.log ∧ madeCount "worker" r.log = 1 ∧
    2 ≤ ranCount "worker" r.log := by
  have hn : ∀ n, given (exWorld "cb:2000" "0.0.0.0:80") n = if n = dialName "b.addr" then "cb:2000" else "0.0.0.0:80" := by
    intro n
    unfold given exWorld
    simp only
    split <;> simp
  obtain ⟨r, h1, -, up⟩ := C113_starts ex_closed exClient (· == "worker") (exWorld "cb:2000" "0.0.0.0:80") (by
    intro e he
    rw [hn]
    split <;> decide)
  refine ⟨r, h1, (up.calls _ _).2 ⟨.grpcClient "b.grpc_client" "b.addr", by simp [exProc], trivial, rfl, ?_⟩,
    (up.calls _ _).2 ⟨exHandler, by simp [exProc], trivial, rfl, ?_⟩, up.once (.handler "worker" []) (by simp [exProc]) trivial,
    C113_run_twice_refuted ex_closed up (n := "worker.client") (t := .handler "worker" []) (by simp [exProc]) rfl (by simp [exProc])
      trivial rfl⟩
  · simp [obj, hn]
  · simp [obj, objs, exHandler, exClient]

/-- Without the address of `b`. -/
example : ∃ names, (∀ fuel, exProc.start exClient (· == "worker") (exWorld "" "0.0.0.0:80") fuel = some (.missing names)) ∧
    dialName "b.addr" ∈ names ∧ bindName "svc.addr" ∉ names := by
  have h1 : given (exWorld "" "0.0.0.0:80") (dialName "b.addr") = "" := by simp [given, exWorld, RtNs.envOf]
  have h2 : given (exWorld "" "0.0.0.0:80") (bindName "svc.addr") ≠ "" := by
    have : bindName "svc.addr" ≠ dialName "b.addr" := by decide +kernel
    simp [given, exWorld, this]
  obtain ⟨names, h, hn⟩ := C113_missing ex_closed exClient (· == "worker") (exWorld "" "0.0.0.0:80")
    ⟨.dial (dialName "b.addr"), by simp [exProc], h1⟩
  refine ⟨names, h, (hn _).2 ⟨.dial (dialName "b.addr"), by simp [exProc], rfl, h1⟩, fun hx => ?_⟩
  obtain ⟨_, _, _, h⟩ := (hn _).1 hx
  exact h2 h

/-! ### An application: two containers that call each other -/

def exOuter : List Name := ["pa", "ca", "pb", "cb", bindName (addrN .grpc "a"), dialName (addrN .grpc "a"), bindName (addrN .thrift "b"), dialName (addrN .thrift "b")]

def exImage (_ : Name) : Image := ⟨6379, []⟩

theorem ex_outer {x : Name} (h : Outer exApp x) : x ∈ exOuter := by
  rcases h with ⟨l, h⟩ | ⟨S, hS, hr, h⟩
  · simp only [exApp, List.mem_cons, Prod.mk.injEq, List.not_mem_nil, or_false] at h
    rcases h with ⟨rfl, _⟩ | ⟨rfl, _⟩ | ⟨rfl, _⟩ | ⟨rfl, _⟩ <;> simp [exOuter]
  · simp only [exApp, List.mem_cons, List.not_mem_nil, or_false] at hS
    rcases hS with rfl | rfl | rfl
    · rcases h with rfl | rfl | ⟨h, _⟩ <;> first | (cases h; done) | simp [exOuter, exA, Svc.addrN]
    · rcases h with rfl | rfl | ⟨h, _⟩ <;> first | (cases h; done) | simp [exOuter, exB, Svc.addrN]
    · simp [exDb] at hr

theorem ex_deployable : Deployable exApp [] exImage := by
  have front : ∀ S ∈ exApp.svcs, S.back = false := by
    intro S hS
    simp only [exApp, List.mem_cons, List.not_mem_nil, or_false] at hS
    rcases hS with rfl | rfl | rfl <;> rfl
  refine ⟨?_, fun S hS h => (by rw [front S hS] at h; cases h), ?_, ?_, by simp [exApp], fun _ _ _ => by simp [exImage]⟩
  · intro S hS _
    simp only [exApp, List.mem_cons, List.not_mem_nil, or_false] at hS
    rcases hS with rfl | rfl | rfl
    · exact ⟨_, _, rfl⟩
    · exact ⟨_, _, rfl⟩
    · exact ⟨_, _, rfl⟩
  · intro x y hx hy
    exact (by decide +kernel : ∀ x ∈ exOuter, ∀ y ∈ exOuter, envVar x.toList = envVar y.toList → x = y) x (ex_outer hx) y (ex_outer hy)
  · intro x hx
    exact (by decide +kernel : ∀ x ∈ exOuter, ' ' ∉ x.toList ∧ '\n' ∉ x.toList ∧ '=' ∉ x.toList ∧ cleanName x.toList ≠ []) x (ex_outer hx)

/-- In the application of `Compile/Examples.lean` the process of `a` dials the container `cb`, in the docker-compose file's environment and
with the start commands of run.sh, and `b` listens there on the same port, after its database was made. -/
example : ∃ (port : Svc → Nat) (fuel : Nat) (s : St), compile (Wired.run exDecls).env fuel ["ca"] = some (s, .success) ∧ port exB ≠ 0 ∧
    ∃ image host inst script beh sh, Deploy.Run.Ends beh script ⟨containerEnv image host inst, [], []⟩ 0 sh ∧
      ∃ e ∈ sh.starts, e.proc = "pb".toList ∧
      ∃ fuel r, Proc.start (isClient exApp) (fun _ => false) ⟨s.nodes ["pb", "cb"], s.edges ["pb", "cb"]⟩
        (processWorld e.text e.env fun _ => "") fuel = some (.running r) ∧
        .made (rpcClientN .grpc "a") [.str ("ca:" ++ toString (port exA))] ∈ r.log ∧ madeCount "db" r.log = 1 ∧
        ∃ o, .made (serverN .thrift "b") [o, .str ("0.0.0.0:" ++ toString (port exB))] ∈ r.log := by
  obtain ⟨fuel, s, hc, w, hw, h⟩ := C113_connected ex_fits ex_declared ex_requests ex_deployable
  obtain ⟨file, hp, hf, port, h1, -, -, h2⟩ := h w.args w.args (List.Perm.refl _) (List.Perm.refl _)
  have hA : exApp.Active ["ca"] exA := .space (x := "ca") (by simp [exApp]) (by simp) (by simp [exA])
  have hB : exApp.Active ["ca"] exB := .called (S := exA) (str := false) hA (by simp [exA, exB]) (by simp [exApp])
  have hC : exApp.Calls ["ca"] ["pb", "cb"] exA := ⟨by simp [exApp], .inr ⟨exB, false, hB, rfl, by simp [exA, exB]⟩⟩
  obtain ⟨inst, hi, -, script, hg, ⟨beh, hb⟩, h3⟩ := h2 exB hB rfl "pb" "cb" rfl
  obtain ⟨⟨status, sh, hends⟩, h4⟩ := h3 (fun _ => none) (fun _ => none) beh [] hb
  obtain ⟨rfl, hone, h5⟩ := h4 status sh hends
  have : sh.starts.filter (fun e => e.proc = "pb".toList) ≠ [] := by
    intro e
    unfold Deploy.Run.timesStarted at hone
    rw [e] at hone
    simp at hone
  obtain ⟨e, he⟩ := List.exists_mem_of_ne_nil _ this
  obtain ⟨he, hep⟩ := List.mem_filter.1 he
  have hep := of_decide_eq_true hep
  obtain ⟨r, ⟨fl, hr⟩, -, sv⟩ := (h5 e he hep).2 (fun _ => "") (fun _ => false)
  obtain ⟨args, -, -, -, hserv⟩ := sv.services exB hB rfl
  obtain ⟨_, -, -, hdb, -⟩ := sv.services exDb ex_active rfl
  refine ⟨port, fuel, s, hc, (h1 exB hB rfl).1, _, _, inst, script, beh, sh, hends, e, he, hep, fl, r, hr, ?_, hdb, _, (hserv rfl).1⟩
  have := (sv.clients exA hC rfl).1
  have ha : dialAddr port exA = "ca:" ++ toString (port exA) := by
    have h : String.ofList (cleanName (container exA).toList) = "ca" := by decide +kernel
    unfold dialAddr
    rw [h, String.append_assoc]
    rw [← String.append_assoc]
    rfl
  rw [ha] at this
  exact this

/-! ### An application with a cache and a database -/

/-- The images of redis and MySQL. -/
def bkImage (c : Name) : Image :=
  if c = ctrN "cache" then ⟨6379, []⟩ else ⟨3306, [("MYSQL_ROOT_HOST".toList, "%".toList), ("MYSQL_ROOT_PASSWORD".toList, "pass".toList)]⟩

def bkOuter : List Name := ["pa", "ca", "d", bindName (addrN .http "a"), dialName (addrN .http "a"), bindName (ctrAddrN "cache"),
  dialName (ctrAddrN "cache"), ctrN "cache", bindName (ctrAddrN "db"), dialName (ctrAddrN "db"), ctrN "db"]

theorem bk_outer {x : Name} (h : Outer bkApp x) : x ∈ bkOuter := by
  rcases h with ⟨l, h⟩ | ⟨S, hS, hr, h⟩
  · simp only [bkApp, List.mem_cons, Prod.mk.injEq, List.not_mem_nil, or_false] at h
    rcases h with ⟨rfl, _⟩ | ⟨rfl, _⟩ | ⟨rfl, _⟩ <;> simp [bkOuter]
  · simp only [bkApp, List.mem_cons, List.not_mem_nil, or_false] at hS
    rcases hS with rfl | rfl | rfl
    · rcases h with rfl | rfl | ⟨h, _⟩ <;> first | (cases h; done) | simp [bkOuter, bkA, Svc.addrN]
    · rcases h with rfl | rfl | ⟨_, rfl⟩ <;> simp [bkOuter, bkCache, Svc.addrN, Svc.serverN]
    · rcases h with rfl | rfl | ⟨_, rfl⟩ <;> simp [bkOuter, bkDb, Svc.addrN, Svc.serverN]

theorem bk_deployable : Deployable bkApp ["d"] bkImage := by
  refine ⟨?_, ?_, ?_, ?_, by simp [bkApp], ?_⟩
  · intro S hS hk
    simp only [bkApp, List.mem_cons, List.not_mem_nil, or_false] at hS
    rcases hS with rfl | rfl | rfl
    · exact ⟨_, _, rfl⟩
    · cases hk
    · cases hk
  · intro S hS hk
    simp only [bkApp, List.mem_cons, List.not_mem_nil, or_false] at hS
    rcases hS with rfl | rfl | rfl
    · cases hk
    · rfl
    · rfl
  · intro x y hx hy
    exact (by decide +kernel : ∀ x ∈ bkOuter, ∀ y ∈ bkOuter, envVar x.toList = envVar y.toList → x = y) x (bk_outer hx) y (bk_outer hy)
  · intro x hx
    exact (by decide +kernel : ∀ x ∈ bkOuter, ' ' ∉ x.toList ∧ '\n' ∉ x.toList ∧ '=' ∉ x.toList ∧ cleanName x.toList ≠ []) x (bk_outer hx)
  · intro S hS hk
    simp only [bkImage]
    split <;> simp

/-- The process of `a` dials the containers of the cache and of the database, and these have the ports of their images. -/
example : ∃ (fuel : Nat) (s : St), compile (Wired.run bkDecls).env fuel ["d"] = some (s, .success) ∧
    ∃ img host inst script beh sh, Deploy.Run.Ends beh script ⟨containerEnv img host inst, [], []⟩ 0 sh ∧
      ∃ e ∈ sh.starts, e.proc = "pa".toList ∧
      ∃ fuel r, Proc.start (isClient bkApp) (fun _ => false) ⟨s.nodes ["pa", "ca", "d"], s.edges ["pa", "ca", "d"]⟩
        (processWorld e.text e.env fun _ => "") fuel = some (.running r) ∧
        .made (clientN "cache") [.str "cache_ctr:6379"] ∈ r.log ∧ .made (clientN "db") [.str "db_ctr:3306"] ∈ r.log ∧
        .made "a" [.made (clientN "cache") [.str "cache_ctr:6379"], .made (clientN "db") [.str "db_ctr:3306"]] ∈ r.log := by
  obtain ⟨fuel, s, hc, w, hw, h⟩ := C113_connected bk_fits bk_declared bk_requests bk_deployable
  obtain ⟨file, hp, hf, port, -, -, hback, h2⟩ := h w.args w.args (List.Perm.refl _) (List.Perm.refl _)
  have hA : bkApp.Active ["d"] bkA := .space (x := "d") (by simp [bkApp]) (by simp) (by simp [bkA])
  have aC : bkApp.Active ["d"] bkCache := .called (S := bkA) (str := false) hA (by simp [bkA, bkCache]) (by simp [bkApp])
  have aD : bkApp.Active ["d"] bkDb := .called (S := bkA) (str := false) hA (by simp [bkA, bkDb]) (by simp [bkApp])
  have cC : bkApp.Calls ["d"] ["pa", "ca", "d"] bkCache := ⟨by simp [bkApp], .inr ⟨bkA, false, hA, rfl, by simp [bkA, bkCache]⟩⟩
  have cD : bkApp.Calls ["d"] ["pa", "ca", "d"] bkDb := ⟨by simp [bkApp], .inr ⟨bkA, false, hA, rfl, by simp [bkA, bkDb]⟩⟩
  obtain ⟨inst, hi, -, script, hg, ⟨beh, hb⟩, h3⟩ := h2 bkA hA rfl "pa" "ca" rfl
  obtain ⟨⟨status, sh, hends⟩, h4⟩ := h3 (fun _ => none) (fun _ => none) beh [] hb
  obtain ⟨rfl, hone, h5⟩ := h4 status sh hends
  have : sh.starts.filter (fun e => e.proc = "pa".toList) ≠ [] := by
    intro e
    unfold Deploy.Run.timesStarted at hone
    rw [e] at hone
    simp at hone
  obtain ⟨e, he⟩ := List.exists_mem_of_ne_nil _ this
  obtain ⟨he, hep⟩ := List.mem_filter.1 he
  have hep := of_decide_eq_true hep
  obtain ⟨r, ⟨fl, hr⟩, -, sv⟩ := (h5 e he hep).2 (fun _ => "") (fun _ => false)
  have pC : port bkCache = 6379 := (hback bkCache aC rfl).1.trans (by decide +kernel)
  have pD : port bkDb = 3306 := (hback bkDb aD rfl).1.trans (by decide +kernel)
  have dC : dialAddr port bkCache = "cache_ctr:6379" := by
    unfold dialAddr
    rw [pC]
    decide +kernel
  have dD : dialAddr port bkDb = "db_ctr:3306" := by
    unfold dialAddr
    rw [pD]
    decide +kernel
  have k1 := (sv.clients bkCache cC rfl).1
  have k2 := (sv.clients bkDb cD rfl).1
  rw [dC] at k1
  rw [dD] at k2
  refine ⟨fuel, s, hc, _, _, inst, script, beh, sh, hends, e, he, hep, fl, r, hr, k1, k2, ?_⟩
  obtain ⟨args, hserv, hmade, -⟩ := sv.services bkA hA rfl
  have key : args = [.made (clientN "cache") [.str "cache_ctr:6379"], .made (clientN "db") [.str "db_ctr:3306"]] := by
    have arg : ∀ U ∈ bkApp.svcs, U.rpc = true → clients U.name U.wraps = [] → ∀ {a o}, IsArg bkApp (dialAddr port) a o → a = U.name →
        o = .made U.rpcClientN [.str (dialAddr port U)] := by
      intro U hU hr hw a o h e
      cases h with
      | str h => exact absurd e.symm (h U hU)
      | remote hV _ => have := bk_fits.one _ hV U hU e; subst this; rw [hw]; rfl
      | here hV hr' _ => have := bk_fits.one _ hV U hU e; subst this; rw [hr] at hr'; cases hr'
    cases hserv with
    | made h =>
      cases h with
      | cons o1 h =>
        cases h with
        | cons o2 h =>
          cases h
          rw [arg bkCache (by simp [bkApp]) rfl rfl o1 rfl, arg bkDb (by simp [bkApp]) rfl rfl o2 rfl, dC, dD]
          rfl
  rw [key] at hmade
  exact hmade

end Verif.Live
