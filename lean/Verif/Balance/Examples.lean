import Verif.Balance.Props
/-
Concrete cases of C134: a balancer of three payment services with retries and timeouts, and a caller.
-/
namespace Verif.Balance.Examples
open Verif.Balance

def others : List (Verif.Wiring.Name × Def) :=
  [("order", .node .service "order" ["pay_lb"]), ("p1", .node .rpcClient "p1.grpc_client" []), ("p2", .node .rpcClient "p2.grpc_client" []),
   ("p3", .node .rpcClient "p3.grpc_client" [])]

def table (rpc : Bool) : List (Verif.Wiring.Name × Def) :=
  lbDefs "pay_lb" ["p1", "p2", "p3"] ["pay_lb.client.retrier", "pay_lb.client.timeout"] ["pay_lb.server.latency"] rpc ++ others

def nodesAfter (rpc : Bool) (gets : List Verif.Wiring.Name) : Option (List (Kind × Verif.Wiring.Name)) :=
  (getAll (defsOf (table rpc)) 40 St.init gets).map fun r => r.1.nodes.map fun t => (t.kind, t.name)

/-- A caller's process. -/
example : nodesAfter true ["order"] = some [(.rpcClient, "pay_lb.grpc_client"), (.wrap, "pay_lb.client.timeout"), (.wrap, "pay_lb.client.retrier"),
    (.client, "pay_lb"), (.service, "order")] := by decide +kernel

/-- The balancer's process. -/
example : nodesAfter true ["pay_lb.grpc_server"] = some [(.rpcClient, "p1.grpc_client"), (.rpcClient, "p2.grpc_client"), (.rpcClient, "p3.grpc_client"),
    (.handler, "pay_lb"), (.wrap, "pay_lb.server.latency"), (.rpcServer, "pay_lb.grpc_server")] := by decide +kernel

/-- Both in one process, without RPC: the client is missing. -/
example : nodesAfter false ["order"] = some [(.rpcClient, "p1.grpc_client"), (.rpcClient, "p2.grpc_client"), (.rpcClient, "p3.grpc_client"),
    (.handler, "pay_lb"), (.wrap, "pay_lb.server.latency"), (.wrap, "pay_lb.client.timeout"), (.wrap, "pay_lb.client.retrier"), (.service, "order")] := by
  decide +kernel

/-- Both in one process with RPC, the caller first: the balancer is missing. -/
example : nodesAfter true ["order", "pay_lb.grpc_server"] = some [(.rpcClient, "pay_lb.grpc_client"), (.wrap, "pay_lb.client.timeout"),
    (.wrap, "pay_lb.client.retrier"), (.client, "pay_lb"), (.service, "order"), (.rpcClient, "p1.grpc_client"), (.rpcClient, "p2.grpc_client"),
    (.rpcClient, "p3.grpc_client"), (.wrap, "pay_lb.server.latency"), (.rpcServer, "pay_lb.grpc_server")] := by decide +kernel

/-- A check of `DistinctBut`. -/
def distinctBut (a : Verif.Wiring.Name) (t : List (Verif.Wiring.Name × Def)) : Bool :=
  decide (t.map (·.1)).Nodup && t.all fun x => t.all fun y => match x.2, y.2 with
    | .node _ i _, .node _ j _ => decide (x.1 = a ∨ y.1 = a ∨ i ≠ j ∨ x.1 = y.1)
    | _, _ => true

theorem distinct_of {a : Verif.Wiring.Name} {t : List (Verif.Wiring.Name × Def)} (h : distinctBut a t = true) : DistinctBut a t := by
  unfold distinctBut at h
  rw [Bool.and_eq_true, decide_eq_true_eq, List.all_eq_true] at h
  refine ⟨h.1, fun d1 d2 k1 k2 i r1 r2 n1 n2 m1 m2 => ?_⟩
  have h' := h.2 _ m1
  rw [List.all_eq_true] at h'
  have h'' := h' _ m2
  simp only [decide_eq_true_eq] at h''
  rcases h'' with h'' | h'' | h'' | h''
  · exact absurd h'' n1
  · exact absurd h'' n2
  · exact absurd rfl h''
  · exact h''

/-- The names of the example are distinct as the theorems want. -/
theorem distinct_handler (rpc : Bool) : DistinctBut (handlerName "pay_lb") (table rpc) := distinct_of (by cases rpc <;> decide +kernel)
theorem distinct_client (rpc : Bool) : DistinctBut (clientName "pay_lb") (table rpc) := distinct_of (by cases rpc <;> decide +kernel)

/-- A caller's calls pass retries and timeouts. -/
example : ∃ s : St, Goes s.nodes "pay_lb" ["pay_lb.client.retrier", "pay_lb.client.timeout"] (.remote "pay_lb.grpc_client") := by
  have he : (getAll (defsOf (table true)) 40 St.init ["order"]).isSome = true := by decide +kernel
  obtain ⟨⟨s, ts⟩, hs⟩ := Option.isSome_iff_exists.1 he
  have hseen : (getAll (defsOf (table true)) 40 St.init ["order"]).map (fun r => r.1.seen.map (·.1)) = some ["order", "pay_lb", "pay_lb.client",
    "pay_lb.client.retrier", "pay_lb.client.timeout", "pay_lb.grpc_client"] := by decide +kernel
  rw [hs] at hseen
  have hk : s.seen.map (·.1) = _ := Option.some.inj hseen
  obtain ⟨⟨a, t⟩, hm, rfl⟩ := List.mem_map.1 (show "pay_lb" ∈ s.seen.map (·.1) by rw [hk]; simp)
  refine ⟨s, (C134_remote_partial (ds := ["pay_lb.server.latency"]) (distinct_handler true) (.step .init hs) (fun u hu => ?_) hm).2⟩
  have : handlerName "pay_lb" ∈ s.seen.map (·.1) := List.mem_map.2 ⟨_, hu, rfl⟩
  rw [hk] at this
  revert this
  decide +kernel

/-- In one process they do not. -/
example {s : St} {ts : List Node} (hs : getAll (defsOf (table false)) 40 St.init ["order"] = some (s, ts)) {t : Node} (ht : ("pay_lb", t) ∈ s.seen) :
    ¬ Goes s.nodes "pay_lb" ["pay_lb.client.retrier", "pay_lb.client.timeout", "pay_lb.server.latency"] .balancer := by
  intro h
  have := ((C134_local_refuted (ds := ["pay_lb.server.latency"]) (distinct_client false) (.step .init hs) ht).2.1 _ _).1 h
  simp at this

end Verif.Balance.Examples
