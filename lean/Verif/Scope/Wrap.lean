/-
C97 for the plugins whose methods take the arguments as parameters.
-/
import Verif.Scope.Tools
namespace Verif.Scope
set_option maxHeartbeats 1000000

theorem ret_ne {n : Nat} {x : Name} (h : looksRet x = false) : ∀ a, a ∈ retVars n → ¬ a = x :=
  fun _ ha e => not_ret h (e ▸ ha)

macro "name_simp" : tactic => `(tactic| simp (disch := (first | decide | assumption)) only [names_nil, names_cons, names_append, names_results,
  List.nil_append, List.cons_append, List.append_assoc, List.append_nil, List.mem_cons, List.mem_append, List.not_mem_nil, not_ret,
  or_false, false_or, or_true, true_or, or_self, not_false_eq_true, not_true_eq_false, String.reduceEq])

open Lean.Parser.Tactic in
syntax "scope_simp" "[" ident,* "]" (location)? : tactic
macro_rules
  | `(tactic| scope_simp [$xs,*] $[$loc]?) => `(tactic| simp (disch := (first | decide | assumption | name_simp)) only [$[$xs:ident],*, ownOk, badNames,
      shadowNames, hardNames, ownOk_rets, badNames_rets, shadowNames_rets, hardNames_rets, names_nil, names_cons, names_append, names_results,
      declare_new, declare_old_new, declare_new_old, declare_inner, innerNames, ownHere, List.flatten_cons, List.flatten_nil,
      List.nil_append, List.cons_append, List.append_assoc, List.append_nil, List.mem_cons, List.mem_append, List.not_mem_nil,
      List.tail_cons, not_ret, wrapper, passAll, if_true, if_false, and_self, or_false, false_or, or_true, true_or, not_or, reduceCtorEq, ne_eq,
      not_false_eq_true, not_true_eq_false, and_true, true_and, List.mem_range, implies_true, imp_self,
      exists_eq_left, exists_eq, exists_eq_or_imp, List.filter_cons, List.all_cons, List.all_nil, Bool.and_true, Bool.true_and, Bool.and_self,
      decide_true, decide_false, Bool.false_eq_true, Bool.false_and, Bool.and_false, List.filter_nil, forall_eq, ret_ne,
      List.nodup_cons, List.nodup_append, List.nodup_nil, nodup_retVars, String.reduceEq, List.forall_mem_cons,
      decide_not, Bool.not_true, Bool.not_false, decide_eq_true_eq, Bool.and_eq_true] $[$loc]?)

theorem ok_retries (s : Sig) (h : Avoid s (reserved s .retries ++ retVars s.rets.length)) : Faithful .retries s := by
  refine faithful_of (params := (retries s).params) (body := (retries s).body) rfl ?_ h.1 ?_
    (fun a ha => ⟨(h.2 a ha).1, (h.2 a ha).2.1⟩) ?_ ?_ ?_ fun i hi => points_pass (List.range s.args.length) _ _ ?_ i (List.mem_range.2 hi)
  · scope_simp [retries]; exact ret_ne (by decide)
  · intro a ha; have := (h.2 a ha).2.2; revert this
    scope_simp [retries, reserved]; try grind
  · scope_simp [retries]; try grind
  · intro a ha; have := (h.2 a ha).2.2; revert this
    scope_simp [retries, reserved]; try grind
  · intro a ha; have := (h.2 a ha).2.2; revert this
    scope_simp [retries, reserved]; try grind
  · simp [retries, wrapper, passAll]

theorem ok_retriesFixedDelay (s : Sig) (h : Avoid s (reserved s .retriesFixedDelay ++ retVars s.rets.length)) : Faithful .retriesFixedDelay s := by
  refine faithful_of (params := (retriesFixedDelay s).params) (body := (retriesFixedDelay s).body) rfl ?_ h.1 ?_
    (fun a ha => ⟨(h.2 a ha).1, (h.2 a ha).2.1⟩) ?_ ?_ ?_ fun i hi => points_pass (List.range s.args.length) _ _ ?_ i (List.mem_range.2 hi)
  · scope_simp [retriesFixedDelay]; exact ret_ne (by decide)
  · intro a ha; have := (h.2 a ha).2.2; revert this
    scope_simp [retriesFixedDelay, reserved]; try grind
  · scope_simp [retriesFixedDelay]; try grind
  · intro a ha; have := (h.2 a ha).2.2; revert this
    scope_simp [retriesFixedDelay, reserved]; try grind
  · intro a ha; have := (h.2 a ha).2.2; revert this
    scope_simp [retriesFixedDelay, reserved]; try grind
  · simp [retriesFixedDelay, wrapper, passAll]

theorem ok_retriesBackoff (s : Sig) (h : Avoid s (reserved s .retriesBackoff ++ retVars s.rets.length)) : Faithful .retriesBackoff s := by
  refine faithful_of (params := (retriesBackoff s).params) (body := (retriesBackoff s).body) rfl ?_ h.1 ?_
    (fun a ha => ⟨(h.2 a ha).1, (h.2 a ha).2.1⟩) ?_ ?_ ?_ fun i hi => points_pass (List.range s.args.length) _ _ ?_ i (List.mem_range.2 hi)
  · scope_simp [retriesBackoff]; exact ret_ne (by decide)
  · intro a ha; have := (h.2 a ha).2.2; revert this
    scope_simp [retriesBackoff, reserved]; try grind
  · scope_simp [retriesBackoff]; try grind
  · intro a ha; have := (h.2 a ha).2.2; revert this
    scope_simp [retriesBackoff, reserved]; try grind
  · intro a ha; have := (h.2 a ha).2.2; revert this
    scope_simp [retriesBackoff, reserved]; try grind
  · simp [retriesBackoff, wrapper, passAll]

theorem ok_retriesRateLimit (s : Sig) (h : Avoid s (reserved s .retriesRateLimit ++ retVars s.rets.length)) : Faithful .retriesRateLimit s := by
  refine faithful_of (params := (retriesRateLimit s).params) (body := (retriesRateLimit s).body) rfl ?_ h.1 ?_
    (fun a ha => ⟨(h.2 a ha).1, (h.2 a ha).2.1⟩) ?_ ?_ ?_ fun i hi => points_pass (List.range s.args.length) _ _ ?_ i (List.mem_range.2 hi)
  · scope_simp [retriesRateLimit]; exact ret_ne (by decide)
  · intro a ha; have := (h.2 a ha).2.2; revert this
    scope_simp [retriesRateLimit, reserved]; try grind
  · scope_simp [retriesRateLimit]; try grind
  · intro a ha; have := (h.2 a ha).2.2; revert this
    scope_simp [retriesRateLimit, reserved]; try grind
  · intro a ha; have := (h.2 a ha).2.2; revert this
    scope_simp [retriesRateLimit, reserved]; try grind
  · simp [retriesRateLimit, wrapper, passAll]

theorem ok_retriesTokenBucket (s : Sig) (h : Avoid s (reserved s .retriesTokenBucket ++ retVars s.rets.length)) : Faithful .retriesTokenBucket s := by
  refine faithful_of (params := (retriesTokenBucket s).params) (body := (retriesTokenBucket s).body) rfl ?_ h.1 ?_
    (fun a ha => ⟨(h.2 a ha).1, (h.2 a ha).2.1⟩) ?_ ?_ ?_ fun i hi => points_pass (List.range s.args.length) _ _ ?_ i (List.mem_range.2 hi)
  · scope_simp [retriesTokenBucket]; exact ret_ne (by decide)
  · intro a ha; have := (h.2 a ha).2.2; revert this
    scope_simp [retriesTokenBucket, reserved]; try grind
  · scope_simp [retriesTokenBucket]; try grind
  · intro a ha; have := (h.2 a ha).2.2; revert this
    scope_simp [retriesTokenBucket, reserved]; try grind
  · intro a ha; have := (h.2 a ha).2.2; revert this
    scope_simp [retriesTokenBucket, reserved]; try grind
  · simp [retriesTokenBucket, wrapper, passAll]

theorem ok_timeouts (s : Sig) (h : Avoid s (reserved s .timeouts ++ retVars s.rets.length)) : Faithful .timeouts s := by
  refine faithful_of (params := (timeouts s).params) (body := (timeouts s).body) rfl ?_ h.1 ?_
    (fun a ha => ⟨(h.2 a ha).1, (h.2 a ha).2.1⟩) ?_ ?_ ?_ fun i hi => points_pass (List.range s.args.length) _ _ ?_ i (List.mem_range.2 hi)
  · scope_simp [timeouts]; exact ret_ne (by decide)
  · intro a ha; have := (h.2 a ha).2.2; revert this
    scope_simp [timeouts, reserved]; try grind
  · scope_simp [timeouts]; try grind
  · intro a ha; have := (h.2 a ha).2.2; revert this
    scope_simp [timeouts, reserved]; try grind
  · intro a ha; have := (h.2 a ha).2.2; revert this
    scope_simp [timeouts, reserved]; try grind
  · simp [timeouts, wrapper, passAll]

theorem ok_circuitBreaker (s : Sig) (h : Avoid s (reserved s .circuitBreaker ++ retVars s.rets.length)) : Faithful .circuitBreaker s := by
  refine faithful_of (params := (circuitBreaker s).params) (body := (circuitBreaker s).body) rfl ?_ h.1 ?_
    (fun a ha => ⟨(h.2 a ha).1, (h.2 a ha).2.1⟩) ?_ ?_ ?_ fun i hi => points_pass (List.range s.args.length) _ _ ?_ i (List.mem_range.2 hi)
  · scope_simp [circuitBreaker]; exact ret_ne (by decide)
  · intro a ha; have := (h.2 a ha).2.2; revert this
    scope_simp [circuitBreaker, reserved]; try grind
  · scope_simp [circuitBreaker]; try grind
  · intro a ha; have := (h.2 a ha).2.2; revert this
    scope_simp [circuitBreaker, reserved]; try grind
  · intro a ha; have := (h.2 a ha).2.2; revert this
    scope_simp [circuitBreaker, reserved]; try grind
  · simp [circuitBreaker, wrapper, passAll]

theorem ok_latency (s : Sig) (h : Avoid s (reserved s .latency ++ retVars s.rets.length)) : Faithful .latency s := by
  refine faithful_of (params := (latency s).params) (body := (latency s).body) rfl ?_ h.1 ?_
    (fun a ha => ⟨(h.2 a ha).1, (h.2 a ha).2.1⟩) ?_ ?_ ?_ fun i hi => points_pass (List.range s.args.length) _ _ ?_ i (List.mem_range.2 hi)
  · scope_simp [latency]; exact ret_ne (by decide)
  · intro a ha; have := (h.2 a ha).2.2; revert this
    scope_simp [latency, reserved]; try grind
  · scope_simp [latency]; try grind
  · intro a ha; have := (h.2 a ha).2.2; revert this
    scope_simp [latency, reserved]; try grind
  · intro a ha; have := (h.2 a ha).2.2; revert this
    scope_simp [latency, reserved]; try grind
  · simp [latency, wrapper, passAll]

theorem ok_delay (s : Sig) (h : Avoid s (reserved s .delay)) : Faithful .delay s := by
  refine faithful_of (params := (delay s).params) (body := (delay s).body) rfl ?_ h.1 ?_
    (fun a ha => ⟨(h.2 a ha).1, (h.2 a ha).2.1⟩) ?_ ?_ ?_ fun i hi => points_pass (List.range s.args.length) _ _ ?_ i (List.mem_range.2 hi)
  · scope_simp [delay]
  · intro a ha; have := (h.2 a ha).2.2; revert this
    scope_simp [delay, reserved]; try grind
  · scope_simp [delay]; try grind
  · intro a ha; have := (h.2 a ha).2.2; revert this
    scope_simp [delay, reserved]; try grind
  · intro a ha; have := (h.2 a ha).2.2; revert this
    scope_simp [delay, reserved]; try grind
  · simp [delay, passAll]

theorem ok_probabilistic (s : Sig) (h : Avoid s (reserved s .probabilistic ++ retVars s.rets.length)) : Faithful .probabilistic s := by
  refine faithful_of (params := (probabilistic s).params) (body := (probabilistic s).body) rfl ?_ h.1 ?_
    (fun a ha => ⟨(h.2 a ha).1, (h.2 a ha).2.1⟩) ?_ ?_ ?_ fun i hi => points_pass (List.range s.args.length) _ _ ?_ i (List.mem_range.2 hi)
  · scope_simp [probabilistic]; exact ret_ne (by decide)
  · intro a ha; have := (h.2 a ha).2.2; revert this
    scope_simp [probabilistic, reserved]; try grind
  · scope_simp [probabilistic]; try grind
  · intro a ha; have := (h.2 a ha).2.2; revert this
    scope_simp [probabilistic, reserved]; try grind
  · intro a ha; have := (h.2 a ha).2.2; revert this
    scope_simp [probabilistic, reserved]; try grind
  · simp [probabilistic, wrapper, passAll]

theorem ok_loadBalancer (s : Sig) (hf : ∀ x ∈ foreign s .loadBalancer, x ∉ variables s .loadBalancer) (h : Avoid s (reserved s .loadBalancer ++ retVars s.rets.length)) : Faithful .loadBalancer s := by
  simp only [foreign, variables, List.mem_cons, List.not_mem_nil, or_false, forall_eq, List.mem_append, not_or] at hf
  refine faithful_of (params := (loadBalancer s).params) (body := (loadBalancer s).body) rfl ?_ h.1 ?_
    (fun a ha => ⟨(h.2 a ha).1, (h.2 a ha).2.1⟩) ?_ ?_ ?_ fun i hi => points_pass (List.range s.args.length) _ _ ?_ i (List.mem_range.2 hi)
  · scope_simp [loadBalancer]; exact ret_ne (by decide)
  · intro a ha; have := (h.2 a ha).2.2; revert this
    scope_simp [loadBalancer, reserved]; try grind
  · scope_simp [loadBalancer, hf]; try grind
  · intro a ha; have := (h.2 a ha).2.2; revert this
    scope_simp [loadBalancer, reserved]; try grind
  · intro a ha; have := (h.2 a ha).2.2; revert this
    scope_simp [loadBalancer, reserved]; try grind
  · simp [loadBalancer, wrapper, passAll]

theorem ok_clientPool (s : Sig) (h : Avoid s (reserved s .clientPool ++ retVars s.rets.length)) : Faithful .clientPool s := by
  refine faithful_of (params := (clientPool s).params) (body := (clientPool s).body) rfl ?_ h.1 ?_
    (fun a ha => ⟨(h.2 a ha).1, (h.2 a ha).2.1⟩) ?_ ?_ ?_ fun i hi => points_pass (List.range s.args.length) _ _ ?_ i (List.mem_range.2 hi)
  · scope_simp [clientPool]; exact ret_ne (by decide)
  · intro a ha; have := (h.2 a ha).2.2; revert this
    scope_simp [clientPool, reserved]; try grind
  · scope_simp [clientPool]; try grind
  · intro a ha; have := (h.2 a ha).2.2; revert this
    scope_simp [clientPool, reserved]; try grind
  · intro a ha; have := (h.2 a ha).2.2; revert this
    scope_simp [clientPool, reserved]; try grind
  · simp [clientPool, wrapper, passAll]

theorem ok_healthChecker (s : Sig) (h : Avoid s (reserved s .healthChecker)) : Faithful .healthChecker s := by
  refine faithful_of (params := (healthChecker s).params) (body := (healthChecker s).body) rfl ?_ h.1 ?_
    (fun a ha => ⟨(h.2 a ha).1, (h.2 a ha).2.1⟩) ?_ ?_ ?_ fun i hi => points_pass (List.range s.args.length) _ _ ?_ i (List.mem_range.2 hi)
  · scope_simp [healthChecker]
  · intro a ha; have := (h.2 a ha).2.2; revert this
    scope_simp [healthChecker, reserved]; try grind
  · scope_simp [healthChecker]; try grind
  · intro a ha; have := (h.2 a ha).2.2; revert this
    scope_simp [healthChecker, reserved]; try grind
  · intro a ha; have := (h.2 a ha).2.2; revert this
    scope_simp [healthChecker, reserved]; try grind
  · simp [healthChecker, passAll]

theorem ok_otServer (s : Sig) (h : Avoid s (reserved s .otServer ++ retVars s.rets.length)) : Faithful .otServer s := by
  refine faithful_of (params := (otServer s).params) (body := (otServer s).body) rfl ?_ h.1 ?_
    (fun a ha => ⟨(h.2 a ha).1, (h.2 a ha).2.1⟩) ?_ ?_ ?_ fun i hi => points_pass (List.range s.args.length) _ _ ?_ i (List.mem_range.2 hi)
  · scope_simp [otServer]; exact ret_ne (by decide)
  · intro a ha; have := (h.2 a ha).2.2; revert this
    scope_simp [otServer, reserved]; try grind
  · scope_simp [otServer]; try grind
  · intro a ha; have := (h.2 a ha).2.2; revert this
    scope_simp [otServer, reserved]; try grind
  · intro a ha; have := (h.2 a ha).2.2; revert this
    scope_simp [otServer, reserved]; try grind
  · simp [otServer, passAll]

theorem ok_xtServer (s : Sig) (h : Avoid s (reserved s .xtServer ++ retVars s.rets.length)) : Faithful .xtServer s := by
  refine faithful_of (params := (xtServer s).params) (body := (xtServer s).body) rfl ?_ h.1 ?_
    (fun a ha => ⟨(h.2 a ha).1, (h.2 a ha).2.1⟩) ?_ ?_ ?_ fun i hi => points_pass (List.range s.args.length) _ _ ?_ i (List.mem_range.2 hi)
  · scope_simp [xtServer]; rintro a ha b (rfl | rfl) <;> exact ret_ne (by decide) a ha
  · intro a ha; have := (h.2 a ha).2.2; revert this
    scope_simp [xtServer, reserved]; try grind
  · scope_simp [xtServer]; try grind
  · intro a ha; have := (h.2 a ha).2.2; revert this
    scope_simp [xtServer, reserved]; try grind
  · intro a ha; have := (h.2 a ha).2.2; revert this
    scope_simp [xtServer, reserved]; try grind
  · simp [xtServer, passAll]

theorem ok_xtClient (s : Sig) (h : Avoid s (reserved s .xtClient ++ retVars s.rets.length)) : Faithful .xtClient s := by
  refine faithful_of (params := (xtClient s).params) (body := (xtClient s).body) rfl ?_ h.1 ?_
    (fun a ha => ⟨(h.2 a ha).1, (h.2 a ha).2.1⟩) ?_ ?_ ?_ fun i hi => points_pass (List.range s.args.length) _ _ ?_ i (List.mem_range.2 hi)
  · scope_simp [xtClient]; exact ret_ne (by decide)
  · intro a ha; have := (h.2 a ha).2.2; revert this
    scope_simp [xtClient, reserved]; try grind
  · scope_simp [xtClient]; try grind
  · intro a ha; have := (h.2 a ha).2.2; revert this
    scope_simp [xtClient, reserved]; try grind
  · intro a ha; have := (h.2 a ha).2.2; revert this
    scope_simp [xtClient, reserved]; try grind
  · simp [xtClient, wrapper, passAll]

theorem ok_gvServer (s : Sig) (h : Avoid s (reserved s .gvServer ++ retVars s.rets.length)) : Faithful .gvServer s := by
  refine faithful_of (params := (gvServer s).params) (body := (gvServer s).body) rfl ?_ h.1 ?_
    (fun a ha => ⟨(h.2 a ha).1, (h.2 a ha).2.1⟩) ?_ ?_ ?_ fun i hi => points_pass (List.range s.args.length) _ _ ?_ i (List.mem_range.2 hi)
  · scope_simp [gvServer]; rintro a ha b (rfl | rfl) <;> exact ret_ne (by decide) a ha
  · intro a ha; have := (h.2 a ha).2.2; revert this
    scope_simp [gvServer, reserved]; try grind
  · scope_simp [gvServer]; try grind
  · intro a ha; have := (h.2 a ha).2.2; revert this
    scope_simp [gvServer, reserved]; try grind
  · intro a ha; have := (h.2 a ha).2.2; revert this
    scope_simp [gvServer, reserved]; try grind
  · simp [gvServer, passAll]

theorem ok_gvClient (s : Sig) (h : Avoid s (reserved s .gvClient ++ retVars s.rets.length)) : Faithful .gvClient s := by
  refine faithful_of (params := (gvClient s).params) (body := (gvClient s).body) rfl ?_ h.1 ?_
    (fun a ha => ⟨(h.2 a ha).1, (h.2 a ha).2.1⟩) ?_ ?_ ?_ fun i hi => points_pass (List.range s.args.length) _ _ ?_ i (List.mem_range.2 hi)
  · scope_simp [gvClient]; exact ret_ne (by decide)
  · intro a ha; have := (h.2 a ha).2.2; revert this
    scope_simp [gvClient, reserved]; try grind
  · scope_simp [gvClient]; try grind
  · intro a ha; have := (h.2 a ha).2.2; revert this
    scope_simp [gvClient, reserved]; try grind
  · intro a ha; have := (h.2 a ha).2.2; revert this
    scope_simp [gvClient, reserved]; try grind
  · simp [gvClient, wrapper, passAll]

theorem ok_grpcClient (s : Sig) (hf : ∀ x ∈ foreign s .grpcClient, x ∉ variables s .grpcClient) (h : Avoid s (reserved s .grpcClient ++ retVars s.rets.length)) : Faithful .grpcClient s := by
  simp only [foreign, variables, List.mem_cons, List.not_mem_nil, or_false, forall_eq, List.mem_append, not_or] at hf
  refine faithful_of (params := (grpcClient s).params) (body := (grpcClient s).body) rfl ?_ h.1 ?_
    (fun a ha => ⟨(h.2 a ha).1, (h.2 a ha).2.1⟩) ?_ ?_ ?_ fun i hi => points_pass (List.range s.args.length) _ _ ?_ i (List.mem_range.2 hi)
  · scope_simp [grpcClient]; exact ret_ne (by decide)
  · intro a ha; have := (h.2 a ha).2.2; revert this
    scope_simp [grpcClient, reserved]; try grind
  · scope_simp [grpcClient, hf]; try grind
  · intro a ha; have := (h.2 a ha).2.2; revert this
    scope_simp [grpcClient, reserved]; try grind
  · intro a ha; have := (h.2 a ha).2.2; revert this
    scope_simp [grpcClient, reserved]; try grind
  · simp [grpcClient, wrapper, passAll]

theorem ok_otClientF (s : Sig) (h : Avoid s (reserved s (.otClient false) ++ retVars s.rets.length)) : Faithful (.otClient false) s := by
  refine faithful_of (params := (otClient false s).params) (body := (otClient false s).body) rfl ?_ h.1 ?_
    (fun a ha => ⟨(h.2 a ha).1, (h.2 a ha).2.1⟩) ?_ ?_ ?_ fun i hi => points_pass (List.range s.args.length) _ _ ?_ i (List.mem_range.2 hi)
  · scope_simp [otClient]; exact ret_ne (by decide)
  · intro a ha; have := (h.2 a ha).2.2; revert this
    scope_simp [otClient, reserved]; try grind
  · scope_simp [otClient]; try grind
  · intro a ha; have := (h.2 a ha).2.2; revert this
    scope_simp [otClient, reserved]; try grind
  · intro a ha; have := (h.2 a ha).2.2; revert this
    scope_simp [otClient, reserved]; try grind
  · simp [otClient, wrapper, passAll]

theorem ok_otClientT (s : Sig) (h : Avoid s (reserved s (.otClient true) ++ retVars s.rets.length)) : Faithful (.otClient true) s := by
  refine faithful_of (params := (otClient true s).params) (body := (otClient true s).body) rfl ?_ h.1 ?_
    (fun a ha => ⟨(h.2 a ha).1, (h.2 a ha).2.1⟩) ?_ ?_ ?_ fun i hi => points_pass (List.range s.args.length) _ _ ?_ i (List.mem_range.2 hi)
  · scope_simp [otClient]; exact ret_ne (by decide)
  · intro a ha; have := (h.2 a ha).2.2; revert this
    scope_simp [otClient, reserved]; try grind
  · scope_simp [otClient]; try grind
  · intro a ha; have := (h.2 a ha).2.2; revert this
    scope_simp [otClient, reserved]; try grind
  · intro a ha; have := (h.2 a ha).2.2; revert this
    scope_simp [otClient, reserved]; try grind
  · simp [otClient, wrapper, passAll]

theorem ok_thriftClient (pkg : Name) (s : Sig) (hf : ∀ x ∈ foreign s (.thriftClient pkg), x ∉ variables s (.thriftClient pkg)) (h : Avoid s (reserved s (.thriftClient pkg) ++ retVars s.rets.length)) : Faithful (.thriftClient pkg) s := by
  simp only [foreign, variables, List.mem_cons, List.not_mem_nil, or_false, forall_eq, List.mem_append, not_or] at hf
  refine faithful_of (params := (thriftClient pkg s).params) (body := (thriftClient pkg s).body) rfl ?_ h.1 ?_
    (fun a ha => ⟨(h.2 a ha).1, (h.2 a ha).2.1⟩) ?_ ?_ ?_ fun i hi => points_pass (List.range s.args.length) _ _ ?_ i (List.mem_range.2 hi)
  · scope_simp [thriftClient]; exact ret_ne (by decide)
  · intro a ha; have := (h.2 a ha).2.2; revert this
    scope_simp [thriftClient, reserved]; try grind
  · scope_simp [thriftClient, hf]; simp (disch := decide) only [String.append_assoc, pre_ne, pre_not_ret, not_false_eq_true, and_self, true_and, and_true]; try grind
  · intro a ha; have := (h.2 a ha).2.2; revert this
    scope_simp [thriftClient, reserved]; try grind
  · intro a ha; have := (h.2 a ha).2.2; revert this
    scope_simp [thriftClient, reserved]; try grind
  · simp [thriftClient, wrapper, passAll]

theorem hard_retries (s : Sig) (h : Faithful .retries s) : Avoid s (reserved s .retries ++ retVars s.rets.length) := by
  obtain ⟨h1, h2, h3⟩ := hard_of (params := (retries s).params) (body := (retries s).body) rfl h
  refine ⟨h1, fun a ha => ?_⟩
  have h4 := h2 a ha
  have h5 := h3 a ha
  clear h h1 h2 h3
  scope_simp [retries] at h4 h5
  scope_simp [reserved]
  grind

theorem hard_retriesFixedDelay (s : Sig) (h : Faithful .retriesFixedDelay s) : Avoid s (reserved s .retriesFixedDelay ++ retVars s.rets.length) := by
  obtain ⟨h1, h2, h3⟩ := hard_of (params := (retriesFixedDelay s).params) (body := (retriesFixedDelay s).body) rfl h
  refine ⟨h1, fun a ha => ?_⟩
  have h4 := h2 a ha
  have h5 := h3 a ha
  clear h h1 h2 h3
  scope_simp [retriesFixedDelay] at h4 h5
  scope_simp [reserved]
  grind

theorem hard_retriesBackoff (s : Sig) (h : Faithful .retriesBackoff s) : Avoid s (reserved s .retriesBackoff ++ retVars s.rets.length) := by
  obtain ⟨h1, h2, h3⟩ := hard_of (params := (retriesBackoff s).params) (body := (retriesBackoff s).body) rfl h
  refine ⟨h1, fun a ha => ?_⟩
  have h4 := h2 a ha
  have h5 := h3 a ha
  clear h h1 h2 h3
  scope_simp [retriesBackoff] at h4 h5
  scope_simp [reserved]
  grind

theorem hard_retriesRateLimit (s : Sig) (h : Faithful .retriesRateLimit s) : Avoid s (reserved s .retriesRateLimit ++ retVars s.rets.length) := by
  obtain ⟨h1, h2, h3⟩ := hard_of (params := (retriesRateLimit s).params) (body := (retriesRateLimit s).body) rfl h
  refine ⟨h1, fun a ha => ?_⟩
  have h4 := h2 a ha
  have h5 := h3 a ha
  clear h h1 h2 h3
  scope_simp [retriesRateLimit] at h4 h5
  scope_simp [reserved]
  grind

theorem hard_retriesTokenBucket (s : Sig) (h : Faithful .retriesTokenBucket s) : Avoid s (reserved s .retriesTokenBucket ++ retVars s.rets.length) := by
  obtain ⟨h1, h2, h3⟩ := hard_of (params := (retriesTokenBucket s).params) (body := (retriesTokenBucket s).body) rfl h
  refine ⟨h1, fun a ha => ?_⟩
  have h4 := h2 a ha
  have h5 := h3 a ha
  clear h h1 h2 h3
  scope_simp [retriesTokenBucket] at h4 h5
  scope_simp [reserved]
  grind

theorem hard_timeouts (s : Sig) (h : Faithful .timeouts s) : Avoid s (reserved s .timeouts ++ retVars s.rets.length) := by
  obtain ⟨h1, h2, h3⟩ := hard_of (params := (timeouts s).params) (body := (timeouts s).body) rfl h
  refine ⟨h1, fun a ha => ?_⟩
  have h4 := h2 a ha
  have h5 := h3 a ha
  clear h h1 h2 h3
  scope_simp [timeouts] at h4 h5
  scope_simp [reserved]
  grind

theorem hard_circuitBreaker (s : Sig) (h : Faithful .circuitBreaker s) : Avoid s (reserved s .circuitBreaker ++ retVars s.rets.length) := by
  obtain ⟨h1, h2, h3⟩ := hard_of (params := (circuitBreaker s).params) (body := (circuitBreaker s).body) rfl h
  refine ⟨h1, fun a ha => ?_⟩
  have h4 := h2 a ha
  have h5 := h3 a ha
  clear h h1 h2 h3
  scope_simp [circuitBreaker] at h4 h5
  scope_simp [reserved]
  grind

theorem hard_latency (s : Sig) (h : Faithful .latency s) : Avoid s (reserved s .latency ++ retVars s.rets.length) := by
  obtain ⟨h1, h2, h3⟩ := hard_of (params := (latency s).params) (body := (latency s).body) rfl h
  refine ⟨h1, fun a ha => ?_⟩
  have h4 := h2 a ha
  have h5 := h3 a ha
  clear h h1 h2 h3
  scope_simp [latency] at h4 h5
  scope_simp [reserved]
  grind

theorem hard_delay (s : Sig) (h : Faithful .delay s) : Avoid s (reserved s .delay) := by
  obtain ⟨h1, h2, h3⟩ := hard_of (params := (delay s).params) (body := (delay s).body) rfl h
  refine ⟨h1, fun a ha => ?_⟩
  have h4 := h2 a ha
  have h5 := h3 a ha
  clear h h1 h2 h3
  scope_simp [delay] at h4 h5
  scope_simp [reserved]
  grind

theorem hard_probabilistic (s : Sig) (h : Faithful .probabilistic s) : Avoid s (reserved s .probabilistic ++ retVars s.rets.length) := by
  obtain ⟨h1, h2, h3⟩ := hard_of (params := (probabilistic s).params) (body := (probabilistic s).body) rfl h
  refine ⟨h1, fun a ha => ?_⟩
  have h4 := h2 a ha
  have h5 := h3 a ha
  clear h h1 h2 h3
  scope_simp [probabilistic] at h4 h5
  scope_simp [reserved]
  grind

theorem hard_loadBalancer (s : Sig) (h : Faithful .loadBalancer s) : Avoid s (reserved s .loadBalancer ++ retVars s.rets.length) := by
  obtain ⟨h1, h2, h3⟩ := hard_of (params := (loadBalancer s).params) (body := (loadBalancer s).body) rfl h
  refine ⟨h1, fun a ha => ?_⟩
  have h4 := h2 a ha
  have h5 := h3 a ha
  clear h h1 h2 h3
  scope_simp [loadBalancer] at h4 h5
  scope_simp [reserved]
  grind

theorem hard_clientPool (s : Sig) (h : Faithful .clientPool s) : Avoid s (reserved s .clientPool ++ retVars s.rets.length) := by
  obtain ⟨h1, h2, h3⟩ := hard_of (params := (clientPool s).params) (body := (clientPool s).body) rfl h
  refine ⟨h1, fun a ha => ?_⟩
  have h4 := h2 a ha
  have h5 := h3 a ha
  clear h h1 h2 h3
  scope_simp [clientPool] at h4 h5
  scope_simp [reserved]
  grind

theorem hard_healthChecker (s : Sig) (h : Faithful .healthChecker s) : Avoid s (reserved s .healthChecker) := by
  obtain ⟨h1, h2, h3⟩ := hard_of (params := (healthChecker s).params) (body := (healthChecker s).body) rfl h
  refine ⟨h1, fun a ha => ?_⟩
  have h4 := h2 a ha
  have h5 := h3 a ha
  clear h h1 h2 h3
  scope_simp [healthChecker] at h4 h5
  scope_simp [reserved]
  grind

theorem hard_otServer (s : Sig) (h : Faithful .otServer s) : Avoid s (reserved s .otServer ++ retVars s.rets.length) := by
  obtain ⟨h1, h2, h3⟩ := hard_of (params := (otServer s).params) (body := (otServer s).body) rfl h
  refine ⟨h1, fun a ha => ?_⟩
  have h4 := h2 a ha
  have h5 := h3 a ha
  clear h h1 h2 h3
  scope_simp [otServer] at h4 h5
  scope_simp [reserved]
  grind

theorem hard_xtServer (s : Sig) (h : Faithful .xtServer s) : Avoid s (reserved s .xtServer ++ retVars s.rets.length) := by
  obtain ⟨h1, h2, h3⟩ := hard_of (params := (xtServer s).params) (body := (xtServer s).body) rfl h
  refine ⟨h1, fun a ha => ?_⟩
  have h4 := h2 a ha
  have h5 := h3 a ha
  clear h h1 h2 h3
  scope_simp [xtServer] at h4 h5
  scope_simp [reserved]
  grind

theorem hard_xtClient (s : Sig) (h : Faithful .xtClient s) : Avoid s (reserved s .xtClient ++ retVars s.rets.length) := by
  obtain ⟨h1, h2, h3⟩ := hard_of (params := (xtClient s).params) (body := (xtClient s).body) rfl h
  refine ⟨h1, fun a ha => ?_⟩
  have h4 := h2 a ha
  have h5 := h3 a ha
  clear h h1 h2 h3
  scope_simp [xtClient] at h4 h5
  scope_simp [reserved]
  grind

theorem hard_gvServer (s : Sig) (h : Faithful .gvServer s) : Avoid s (reserved s .gvServer ++ retVars s.rets.length) := by
  obtain ⟨h1, h2, h3⟩ := hard_of (params := (gvServer s).params) (body := (gvServer s).body) rfl h
  refine ⟨h1, fun a ha => ?_⟩
  have h4 := h2 a ha
  have h5 := h3 a ha
  clear h h1 h2 h3
  scope_simp [gvServer] at h4 h5
  scope_simp [reserved]
  grind

theorem hard_gvClient (s : Sig) (h : Faithful .gvClient s) : Avoid s (reserved s .gvClient ++ retVars s.rets.length) := by
  obtain ⟨h1, h2, h3⟩ := hard_of (params := (gvClient s).params) (body := (gvClient s).body) rfl h
  refine ⟨h1, fun a ha => ?_⟩
  have h4 := h2 a ha
  have h5 := h3 a ha
  clear h h1 h2 h3
  scope_simp [gvClient] at h4 h5
  scope_simp [reserved]
  grind

theorem hard_grpcClient (s : Sig) (h : Faithful .grpcClient s) : Avoid s (reserved s .grpcClient ++ retVars s.rets.length) := by
  obtain ⟨h1, h2, h3⟩ := hard_of (params := (grpcClient s).params) (body := (grpcClient s).body) rfl h
  refine ⟨h1, fun a ha => ?_⟩
  have h4 := h2 a ha
  have h5 := h3 a ha
  clear h h1 h2 h3
  scope_simp [grpcClient] at h4 h5
  scope_simp [reserved]
  grind

theorem hard_otClientF (s : Sig) (h : Faithful (.otClient false) s) : Avoid s (reserved s (.otClient false) ++ retVars s.rets.length) := by
  obtain ⟨h1, h2, h3⟩ := hard_of (params := (otClient false s).params) (body := (otClient false s).body) rfl h
  refine ⟨h1, fun a ha => ?_⟩
  have h4 := h2 a ha
  have h5 := h3 a ha
  clear h h1 h2 h3
  scope_simp [otClient] at h4 h5
  scope_simp [reserved]
  grind

theorem hard_otClientT (s : Sig) (h : Faithful (.otClient true) s) : Avoid s (reserved s (.otClient true) ++ retVars s.rets.length) := by
  obtain ⟨h1, h2, h3⟩ := hard_of (params := (otClient true s).params) (body := (otClient true s).body) rfl h
  refine ⟨h1, fun a ha => ?_⟩
  have h4 := h2 a ha
  have h5 := h3 a ha
  clear h h1 h2 h3
  scope_simp [otClient] at h4 h5
  scope_simp [reserved]
  grind

theorem hard_thriftClient (pkg : Name) (s : Sig) (h : Faithful (.thriftClient pkg) s) : Avoid s (reserved s (.thriftClient pkg) ++ retVars s.rets.length) := by
  obtain ⟨h1, h2, h3⟩ := hard_of (params := (thriftClient pkg s).params) (body := (thriftClient pkg s).body) rfl h
  refine ⟨h1, fun a ha => ?_⟩
  have h4 := h2 a ha
  have h5 := h3 a ha
  clear h h1 h2 h3
  scope_simp [thriftClient] at h4 h5
  scope_simp [reserved]
  grind

end Verif.Scope
