import Verif.Stack.Lemmas
/-!
# C73: stacks of plugins are transparent to callers
-/

namespace Verif.Stack

/-- **C73** (interfaces): whatever plugins were applied, in whatever order and however often, if no tracing plugin was
applied before a health checker the caller is offered exactly the methods of the service, with the argument and result
names and types of the service, plus the health check. -/
theorem C73_interface_partial (ms : List Mod) (i : Iface) (h : ¬ TracerBeforeHealth ms) :
    ∃ j, clientStack ms (serverStack ms i) = some j ∧ j.base = i.base ∧ ∀ n, sig j n = expected ms i n := by
  obtain ⟨j, h1, h2, h3⟩ := (stack_full ms i _ rfl).2 h
  refine ⟨j, h1, h3.trans (serverStack_base ms i), fun n => ?_⟩
  rw [sig, h2, withHealth, expected]
  by_cases hh : Mod.health ∈ ms
  · simp only [hh, if_true, and_true]
    exact lookup_setMethod _ _ _ _
  · simp only [hh, if_false, and_false]
    rfl

/-- **C73** (exactly when it compiles): compiling the application panics if and only if a tracing plugin was applied
before a health checker. -/
theorem C73_panics_iff (ms : List Mod) (i : Iface) :
    clientStack ms (serverStack ms i) = none ↔ TracerBeforeHealth ms := by
  constructor
  · intro h
    apply Classical.byContradiction
    intro hn
    obtain ⟨j, h1, _⟩ := (stack_full ms i _ rfl).2 hn
    rw [h] at h1; cases h1
  · exact (stack_full ms i _ rfl).1

/-- **C73** fails: tracing a service and then adding a health check to it, which are both meant to work on any service,
makes the compiler panic (slice bounds out of range), whichever tracing plugin it is and whatever the service. -/
theorem C73_health_after_tracing_refuted (t : Mod) (ht : Tracer t) (i : Iface) :
    clientStack [t, .health] (serverStack [t, .health] i) = none :=
  (C73_panics_iff _ _).2 ⟨[], [], [], t, rfl, ht⟩

/-- **C73** (generated code fits together): the interface that a tracing plugin's client wrapper wraps has exactly the
methods of the interface of that plugin's server wrapper, which is the type of the field the generated code stores it
in. -/
theorem C73_client_fits_server (a b : List Mod) (t : Mod) (ht : Tracer t) (i : Iface)
    (h : ¬ TracerBeforeHealth (a ++ t :: b)) :
    ∃ j, clientStack b (serverStack (a ++ t :: b) i) = some j ∧
      ∀ n, sig j n = sig (serverIface t (serverStack a i)) n := by
  have hb : ¬ TracerBeforeHealth b := fun e => h (by
    have := tbh_append (a := a ++ [t]) e
    simpa using this)
  have hh : Mod.health ∉ b := by
    intro e
    obtain ⟨x, y, rfl⟩ := List.append_of_mem e
    exact h ⟨a, x, y, t, by simp, ht⟩
  have e : serverStack (a ++ t :: b) i = serverStack b (serverIface t (serverStack a i)) := by
    rw [serverStack_append]; rfl
  obtain ⟨j, h1, h2, _⟩ := (stack_full b (serverIface t (serverStack a i)) _ rfl).2 hb
  refine ⟨j, by rw [e]; exact h1, fun n => ?_⟩
  rw [sig, h2, withHealth, if_neg hh]
  rfl

/-- **C73** (the generated server code compiles): the struct of a server wrapper declares, with the same types, exactly the
methods of the interface generated for it. For the health checker, if the service has no method `Health`. -/
theorem C73_struct_implements (m : Mod) (i : Iface) (h : m = .health → sig i ['H', 'e', 'a', 'l', 't', 'h'] = none)
    (n : Str) : (serverDeclares m i).lookup n = (sig (serverIface m i) n).map types := by
  by_cases hm : m = .health
  · subst hm
    have h := h rfl
    simp only [serverDeclares, serverIface, sig] at h ⊢
    have e := lookup_map i.methods (clientPasses .plain) n
    simp only [clientPasses] at e
    rw [lookup_setMethod, List.lookup_append, e]
    by_cases hn : n = healthName
    · subst hn
      rw [if_pos rfl, show List.lookup healthName i.methods = none from h]
      rfl
    · rw [if_neg hn, List.lookup_cons, beq_eq_false_iff_ne.2 hn]
      show (Option.or _ none) = _
      rw [Option.or_none]; rfl
  · rw [lookup_serverDeclares hm, sig_serverIface hm, Option.map_map]
    congr 1; funext f; exact passes_serverFunc m f

/-- **C73** (the generated client code compiles): in every method of a client wrapper the call of the wrapped client
passes arguments and stores results of exactly the types that the field's interface, the one of the server wrapper,
declares for that method. -/
theorem C73_call_typechecks (a b : List Mod) (t : Mod) (ht : Tracer t) (i j : Iface)
    (h : ¬ TracerBeforeHealth (a ++ t :: b)) (hj : clientStack (t :: b) (serverStack (a ++ t :: b) i) = some j)
    (n : Str) (f : Func) (hf : sig j n = some f) :
    ∃ g, sig (serverIface t (serverStack a i)) n = some g ∧ clientPasses t f = types g := by
  have e : serverStack (a ++ t :: b) i = serverStack (t :: b) (serverStack a i) := serverStack_append _ _ _
  have hb : ¬ TracerBeforeHealth (t :: b) := fun e => h (tbh_append e)
  have hh : Mod.health ∉ t :: b := by
    intro e
    rcases List.mem_cons.1 e with e | e
    · subst e; rcases ht with h | h | h <;> cases h
    · exact hb (tbh_cons.2 (.inl ⟨ht, e⟩))
  obtain ⟨j', h1, h2, _⟩ := (stack_full (t :: b) (serverStack a i) _ rfl).2 hb
  rw [e, h1] at hj
  cases hj
  rw [withHealth, if_neg hh] at h2
  rw [sig, h2] at hf
  have hm : t ≠ .health := fun e => hh (e ▸ List.mem_cons_self)
  exact ⟨serverFunc t f, by rw [sig_serverIface hm, sig, hf]; rfl, passes_serverFunc t f⟩

/-- **C73** (calls): a call of a service method through any stack of plugins reaches the service once, with the
caller's method and arguments, and returns the service's results and error: it is the same as calling the service. The
trace contexts `xs`, `ys` that travel along are arbitrary. -/
theorem C73_call_transparent {Val : Type} (xs ys : Nat → Val) (healthy : Val) (ms : List Mod)
    (run : Str → List Val → List Val × Option Str) (n : Str) (args : List Val)
    (h : n ≠ ['H', 'e', 'a', 'l', 't', 'h'] ∨ Mod.health ∉ ms) :
    call xs ys healthy ms (fun n args => ⟨[(n, args)], (run n args).1, (run n args).2⟩) n args =
      ⟨[(n, args)], (run n args).1, (run n args).2⟩ :=
  call_other xs ys healthy ms _ n args h

/-- **C73** (health): a health check answers without reaching the service, if the stack compiles. -/
theorem C73_health_answers {Val : Type} (xs ys : Nat → Val) (healthy : Val) (ms : List Mod)
    (svc : Str → List Val → Reply Val) (h : ¬ TracerBeforeHealth ms) (hh : Mod.health ∈ ms) :
    call xs ys healthy ms svc ['H', 'e', 'a', 'l', 't', 'h'] [] = ⟨[], [healthy], none⟩ :=
  call_health xs ys healthy ms svc h hh

/-- **C73** fails: if the service has a method `Health` of its own, or a health check is added twice, the generated
code declares the method `Health` twice and does not compile. -/
theorem C73_health_twice_refuted (i : Iface) :
    ¬ (healthDecls (serverStack [.health] i)).Nodup ∧
    ∀ f, (['H', 'e', 'a', 'l', 't', 'h'], f) ∈ i.methods → ¬ (healthDecls i).Nodup := by
  have key : ∀ (i : Iface) (f : Func), (healthName, f) ∈ i.methods → ¬ (healthDecls i).Nodup := by
    intro i f hf hn
    rw [healthDecls, List.nodup_append] at hn
    exact hn.2.2 _ (List.mem_map.2 ⟨_, hf, rfl⟩) _ (List.mem_singleton.2 rfl) rfl
  exact ⟨key _ ⟨[], [⟨[], stringT⟩]⟩ List.mem_cons_self, fun f hf => key i f hf⟩

/-! ### Concrete cases -/

/-- A service with two methods. -/
def leaf : Iface :=
  ⟨"Leaf".toList, "Leaf".toList,
   [("Get".toList, ⟨[⟨"id".toList, "int64".toList⟩], [⟨[], "string".toList⟩]⟩), ("Ping".toList, ⟨[], []⟩)]⟩

example : (clientStack [.health, .ot, .plain, .xtrace] (serverStack [.health, .ot, .plain, .xtrace] leaf)).map
    (fun j => sig j "Get".toList) = some (some ⟨[⟨"id".toList, "int64".toList⟩], [⟨[], "string".toList⟩]⟩) := by
  decide +kernel

example : (sig (serverStack [.ot, .xtrace] leaf) "Get".toList).map (fun f => (f.args.length, f.rets.length)) =
    some (3, 2) := by decide +kernel

example : (clientStack [.ot, .health] (serverStack [.ot, .health] leaf)).isNone := by decide +kernel

example : call (fun k => 100 + k) (fun k => 200 + k) 7 [.health, .ot, .govec, .xtrace]
    (fun n args => ⟨[(n, args)], args.map (· + 1), none⟩) "Get".toList [1, 2] = ⟨[("Get".toList, [1, 2])], [2, 3], none⟩ := by
  rfl

end Verif.Stack
