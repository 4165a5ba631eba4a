/-
C97: arguments' names and the names in the generated methods.
-/
import Verif.Scope.HttpServer
namespace Verif.Scope

theorem Avoid.mono {s : Sig} {l l' : List Name} (h : Avoid s l) (hs : ∀ x ∈ l', x ∈ l) : Avoid s l' :=
  ⟨h.1, fun a ha => ⟨(h.2 a ha).1, (h.2 a ha).2.1, fun hm => (h.2 a ha).2.2 (hs _ hm)⟩⟩

/-- C97: if the arguments of a service's method have names that differ from one another and from the names the plugin's
template uses, the method that the plugin generates compiles and hands every argument on.  (The names of the service's
types and packages must not be those of the template's variables either.) -/
theorem C97_names_ok (p : Plugin) (s : Sig) (hf : ∀ x ∈ foreign s p, x ∉ variables s p)
    (h : Avoid s (reserved s p ++ doubtful s p ++ retVars s.rets.length)) : Faithful p s := by
  have h1 : Avoid s (reserved s p ++ retVars s.rets.length) := h.mono (by grind)
  have h2 : Avoid s (reserved s p) := h.mono (by grind)
  cases p with
  | retries => exact ok_retries s h1
  | retriesFixedDelay => exact ok_retriesFixedDelay s h1
  | retriesBackoff => exact ok_retriesBackoff s h1
  | retriesRateLimit => exact ok_retriesRateLimit s h1
  | retriesTokenBucket => exact ok_retriesTokenBucket s h1
  | timeouts => exact ok_timeouts s h1
  | circuitBreaker => exact ok_circuitBreaker s h1
  | latency => exact ok_latency s h1
  | delay => exact ok_delay s h2
  | probabilistic => exact ok_probabilistic s h1
  | loadBalancer => exact ok_loadBalancer s hf h1
  | clientPool => exact ok_clientPool s h1
  | healthChecker => exact ok_healthChecker s h2
  | otServer => exact ok_otServer s h1
  | otClient spans =>
    cases spans with
    | false => exact ok_otClientF s h1
    | true => exact ok_otClientT s h1
  | xtServer => exact ok_xtServer s h1
  | xtClient => exact ok_xtClient s h1
  | gvServer => exact ok_gvServer s h1
  | gvClient => exact ok_gvClient s h1
  | grpcClient => exact ok_grpcClient s hf h1
  | grpcServer => exact ok_grpcServer s hf h
  | thriftClient pkg => exact ok_thriftClient pkg s hf h1
  | thriftServer pkg => exact ok_thriftServer pkg s hf h
  | httpClient => exact ok_httpClient s hf h
  | httpServer => exact ok_httpServer s hf h

/-- C97: and it does not if two arguments have the same name, or one has no name, or one has a name the template uses. -/
theorem C97_names_break (p : Plugin) (s : Sig) (h : Faithful p s) :
    Avoid s (reserved s p ++ if named p then retVars s.rets.length else []) := by
  have e : ∀ l : List Name, l ++ (if false = true then retVars s.rets.length else []) = l := by simp
  cases p with
  | retries => exact hard_retries s h
  | retriesFixedDelay => exact hard_retriesFixedDelay s h
  | retriesBackoff => exact hard_retriesBackoff s h
  | retriesRateLimit => exact hard_retriesRateLimit s h
  | retriesTokenBucket => exact hard_retriesTokenBucket s h
  | timeouts => exact hard_timeouts s h
  | circuitBreaker => exact hard_circuitBreaker s h
  | latency => exact hard_latency s h
  | delay => exact (e _).symm ▸ hard_delay s h
  | probabilistic => exact hard_probabilistic s h
  | loadBalancer => exact hard_loadBalancer s h
  | clientPool => exact hard_clientPool s h
  | healthChecker => exact (e _).symm ▸ hard_healthChecker s h
  | otServer => exact hard_otServer s h
  | otClient spans =>
    cases spans with
    | false => exact hard_otClientF s h
    | true => exact hard_otClientT s h
  | xtServer => exact hard_xtServer s h
  | xtClient => exact hard_xtClient s h
  | gvServer => exact hard_gvServer s h
  | gvClient => exact hard_gvClient s h
  | grpcClient => exact hard_grpcClient s h
  | grpcServer => exact (e _).symm ▸ hard_grpcServer s h
  | thriftClient pkg => exact hard_thriftClient pkg s h
  | thriftServer pkg => exact (e _).symm ▸ hard_thriftServer pkg s h
  | httpClient => exact hard_httpClient s h
  | httpServer => exact (e _).symm ▸ hard_httpServer s h

/-- C97: for the plugins other than the gRPC and thrift servers and the HTTP client and server, exactly. -/
theorem C97_names_iff (p : Plugin) (s : Sig) (hp : doubtful s p = []) (hf : ∀ x ∈ foreign s p, x ∉ variables s p) :
    Faithful p s ↔ Avoid s (reserved s p ++ if named p then retVars s.rets.length else []) := by
  refine ⟨C97_names_break p s, fun h => ?_⟩
  cases p with
  | delay => exact ok_delay s (h.mono fun x hx => List.mem_append_left _ hx)
  | healthChecker => exact ok_healthChecker s (h.mono fun x hx => List.mem_append_left _ hx)
  | grpcServer => simp [doubtful] at hp
  | thriftServer pkg => simp [doubtful] at hp
  | httpClient => simp [doubtful] at hp
  | httpServer => simp [doubtful] at hp
  | retries | retriesFixedDelay | retriesBackoff | retriesRateLimit | retriesTokenBucket | timeouts | circuitBreaker
  | latency | probabilistic | loadBalancer | clientPool | otServer | xtServer | xtClient | gvServer | gvClient
  | grpcClient =>
    exact C97_names_ok _ s hf (by rw [hp, List.append_nil]; exact h)
  | otClient spans => exact C97_names_ok _ s hf (by rw [hp, List.append_nil]; exact h)
  | thriftClient pkg => exact C97_names_ok _ s hf (by rw [hp, List.append_nil]; exact h)

/-- C97 for every name: an argument may be called anything.  Refuted: for every plugin there is a name (`ctx`) that an
argument of a service's method must not have, whatever the method's other arguments, results and types are; in the HTTP
server too, whose generated method has no parameter of that name. -/
theorem C97_any_name_refuted (p : Plugin) (s : Sig) (a : Var) (ha : a ∈ s.args) (hn : a.name = "ctx") : ¬ Faithful p s := by
  intro h
  refine ((C97_names_break p s h).2 a ha).2.2 ?_
  rw [hn]
  apply List.mem_append_left
  cases p with
  | otClient spans => cases spans <;> simp [reserved]
  | _ => simp [reserved]

/-- The environment in the loop. -/
def loopEnv (s : Sig) : Env := ⟨[[], [⟨"i", "int"⟩]], clientParams s, s.args.length⟩

theorem loop_captures (s : Sig) (body : List Tok)
    (hn : (names s.args).Nodup) (hb : ∀ a ∈ s.args, a.name ≠ "_" ∧ a.name ≠ "") (hi : ∀ a ∈ s.args, a.name = "i" → a.ty = "int")
    (hN : (names (clientParams s) ++ names s.args).Nodup)
    (ho : ownOk s.args.length ⟨[], clientParams s, s.args.length⟩ body)
    (hbad : ∀ a ∈ s.args, a.name ∉ badNames ⟨[], clientParams s, s.args.length⟩ body)
    (hpts : points ⟨[], clientParams s, s.args.length⟩ body = (List.range s.args.length).map fun i => (loopEnv s, i)) :
    compile ⟨clientParams s, true, body⟩ s.args = some ((List.range s.args.length).map fun i =>
      (i, if (s.args[i]?).map (·.name) = some "i" then Bind.own else .arg i)) := by
  have hinv : Inv s.args ⟨[], clientParams s, s.args.length⟩ := by
    refine ⟨Nat.le_refl _, fun i a _ ha hm => ?_⟩
    rw [List.nodup_append] at hN
    exact hN.2.2 _ hm _ (mem_names.2 ⟨a, List.mem_of_getElem? ha, rfl⟩) rfl
  have e := run_ok s.args hn (fun q => if (s.args[q.2]?).map (·.name) = some "i" then Bind.own else .arg q.2) body
    ⟨[], clientParams s, s.args.length⟩ ho hinv hbad ?_
  · simp only [compile, if_true, hN, e, hpts, List.map_map]
    rfl
  · intro q hq hinv hk
    rw [hpts] at hq
    obtain ⟨i, hir, rfl⟩ := List.mem_map.1 hq
    have hl := List.mem_range.1 hir
    have ha : s.args[i]? = some s.args[i] := List.getElem?_eq_getElem hl
    have hba := hb _ (List.getElem_mem hl)
    simp only [ha, Option.map_some, Option.some.injEq]
    split
    · rename_i hname
      have hty := hi _ (List.getElem_mem hl) hname
      have hr : resolve s.args (loopEnv s) s.args[i].name = some (.own, "int") := by
        rw [hname]; rfl
      simp only [handOn, ha, hba.1, hba.2, or_self, if_false, hr, hty, if_true]
    · rename_i hname
      refine handOn_arg hn hinv hk hb fun a ha' => ?_
      rw [ha] at ha'
      cases ha'
      simpa [innerNames, loopEnv, names] using hname

/-- C97 for retries: what compiles hands the arguments on.  Refuted: an `int` argument called `i` is replaced by the number
of the attempt, and the compiler accepts it. -/
theorem C97_attempt_number_refuted (s : Sig) (j : Nat) (hj : s.args[j]? = some ⟨"i", "int"⟩)
    (hn : (s.args.map (·.name)).Nodup)
    (h : ∀ a ∈ s.args, a.name ≠ "_" ∧ a.name ≠ "" ∧ a.name ∉ ["client", "ctx", "err", "context", "nil", "time"] ++ retVars s.rets.length)
    (p : Plugin) (hp : p = .retries ∨ p = .retriesFixedDelay) :
    ∃ l, compile (method s p) s.args = some l ∧ (j, Bind.own) ∈ l ∧ (j, Bind.arg j) ∉ l := by
  have hl : j < s.args.length := by
    rcases Nat.lt_or_ge j s.args.length with h | h
    · exact h
    · rw [List.getElem?_eq_none h] at hj; cases hj
  have hty : ∀ a ∈ s.args, a.name = "i" → a.ty = "int" := by
    intro a ha e
    obtain ⟨k, hk⟩ := List.mem_iff_getElem?.1 ha
    have hkl : k < s.args.length := by
      rcases Nat.lt_or_ge k s.args.length with h | h
      · exact h
      · rw [List.getElem?_eq_none h] at hk; cases hk
    have h1 : s.args[k].name = s.args[j].name := by
      rw [List.getElem?_eq_getElem hkl] at hk
      rw [List.getElem?_eq_getElem hl] at hj
      cases hk
      rw [Option.some.injEq] at hj
      rw [e, hj]
    have := same_index hn hkl hl h1
    subst this
    rw [hj] at hk
    cases hk
    rfl
  have hp1 : (names (clientParams s)).Nodup := by
    scope_simp [clientParams]; exact ret_ne (by decide)
  have hN : (names (clientParams s) ++ names s.args).Nodup := by
    rw [List.nodup_append]
    refine ⟨hp1, hn, fun x hx y hy e => ?_⟩
    obtain ⟨v, hv, rfl⟩ := mem_names.1 hy
    have := (h v hv).2.2
    subst e
    revert this hx
    scope_simp [clientParams]
    grind
  have key : ∀ body, method s p = ⟨clientParams s, true, body⟩ →
      ownOk s.args.length ⟨[], clientParams s, s.args.length⟩ body →
      (∀ a ∈ s.args, a.name ∉ badNames ⟨[], clientParams s, s.args.length⟩ body) →
      points ⟨[], clientParams s, s.args.length⟩ body = ((List.range s.args.length).map fun i => (loopEnv s, i)) →
      ∃ l, compile (method s p) s.args = some l ∧ (j, Bind.own) ∈ l ∧ (j, Bind.arg j) ∉ l := by
    intro body hm h1 h2 h3
    refine ⟨_, by rw [hm]; exact loop_captures s body hn (fun a ha => ⟨(h a ha).1, (h a ha).2.1⟩) hty hN h1 h2 h3, ?_, ?_⟩
    · refine List.mem_map.2 ⟨j, List.mem_range.2 hl, ?_⟩
      rw [hj]
      rfl
    · intro hm
      obtain ⟨k, -, e⟩ := List.mem_map.1 hm
      have e1 := congrArg Prod.fst e
      simp only at e1
      subst e1
      rw [hj] at e
      cases e
  rcases hp with rfl | rfl
  · refine key (retries s).body rfl ?_ ?_ ?_
    · scope_simp [retries, clientParams]; try grind
    · intro a ha; have := (h a ha).2.2; revert this
      scope_simp [retries, clientParams]; try grind
    · simp [retries, wrapper, points, points_rets, passAll, declare, ownHere, names, loopEnv]
  · refine key (retriesFixedDelay s).body rfl ?_ ?_ ?_
    · scope_simp [retriesFixedDelay, clientParams]; try grind
    · intro a ha; have := (h a ha).2.2; revert this
      scope_simp [retriesFixedDelay, clientParams]; try grind
    · simp [retriesFixedDelay, wrapper, points, points_rets, passAll, declare, ownHere, names, loopEnv]

/-- What is to be a name from outside the function is not one of its variables. -/
theorem run_outer (args : List Var) (ss : List Tok) (E : Env) (l : List (Nat × Bind)) (h : run args E ss = some l)
    (x : Name) (hx : Tok.outer x ∈ ss) : x ∉ names E.top := by
  induction ss generalizing E l with
  | nil => simp at hx
  | cons t r ih =>
    cases t with
    | use y =>
      simp only [run] at h
      split at h
      · exact ih E l h (by simpa using hx)
      · cases h
    | outer y =>
      simp only [run] at h
      split at h
      · rename_i hc
        rcases List.mem_cons.1 hx with e | hx
        · cases e
          intro hm
          obtain ⟨t, e⟩ := resolve_top (args := args) (E := E) (.inr hm)
          rw [e] at hc
          cases hc
        · exact ih E l h hx
      · cases h
    | define xs =>
      simp only [run] at h
      split at h
      · exact fun hm => ih _ l h (by simpa using hx) (top_grows E xs hm)
      · cases h
    | var y =>
      simp only [run] at h
      split at h
      · cases h
      · exact fun hm => ih _ l h (by simpa using hx) (top_grows E [y] hm)
    | opn => exact ih { E with inner := [] :: E.inner } l h (by simpa using hx)
    | cls =>
      simp only [run] at h
      split at h
      · cases h
      · rename_i bs _
        exact ih { E with inner := bs } l h (by simpa using hx)
    | pass is =>
      simp only [run] at h
      split at h
      · cases h
      · cases e2 : run args E r with
        | none => rw [e2] at h; cases h
        | some l2 => exact ih E l2 e2 (by simpa using hx)
    | arg i =>
      simp only [run] at h
      split at h
      · cases h
      · split at h
        · cases h
        · exact ih { E with k := i + 1 } l h (by simpa using hx)

/-- C97 for the thrift plugin: any name will do for a service.  Refuted: the package that thrift generates for a service
`Client` is called `client`, as the receiver in the client's methods is, and no method compiles, whatever its arguments
are; nor does the server's for a service `Handler`. -/
theorem C97_thrift_service_refuted (s : Sig) :
    compile (method s (.thriftClient "client")) s.args = none ∧ compile (method s (.thriftServer "handler")) s.args = none := by
  have key : ∀ (m : Method) (x : Name), x ∈ names m.params → Tok.outer x ∈ m.body → compile m s.args = none := by
    intro m x h1 h2
    rcases Option.eq_none_or_eq_some (compile m s.args) with h | ⟨l, hl⟩
    · exact h
    · simp only [compile] at hl
      split at hl
      · split at hl
        · exact absurd h1 (run_outer _ _ _ _ hl x h2)
        · cases hl
      · split at hl
        · exact absurd h1 (run_outer _ _ _ _ hl x h2)
        · cases hl
  exact ⟨key _ "client" (by simp [method, thriftClient, wrapper, names]) (by simp [method, thriftClient, wrapper]),
    key _ "handler" (by simp [method, thriftServer, names]) (by simp [method, thriftServer])⟩

end Verif.Scope
