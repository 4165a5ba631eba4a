import Verif.Stack.Spec
/-!
# Lemmas
-/

namespace Verif.Stack

theorem tbh_cons {m : Mod} {c : List Mod} :
    TracerBeforeHealth (m :: c) ↔ (Tracer m ∧ Mod.health ∈ c) ∨ TracerBeforeHealth c := by
  constructor
  · rintro ⟨a, b, d, t, h, ht⟩
    cases a with
    | nil =>
      simp only [List.nil_append, List.cons_append, List.cons.injEq] at h
      obtain ⟨rfl, rfl⟩ := h
      exact .inl ⟨ht, by simp⟩
    | cons x a =>
      simp only [List.cons_append, List.cons.injEq] at h
      obtain ⟨rfl, rfl⟩ := h
      exact .inr ⟨a, b, d, t, by simp, ht⟩
  · rintro (⟨ht, hh⟩ | ⟨a, b, d, t, rfl, ht⟩)
    · obtain ⟨b, d, rfl⟩ := List.append_of_mem hh
      exact ⟨[], b, d, m, by simp, ht⟩
    · exact ⟨m :: a, b, d, t, by simp, ht⟩

theorem not_tbh_nil : ¬ TracerBeforeHealth [] := by
  rintro ⟨a, b, c, t, h, _⟩
  simp at h

theorem cutBoth_add (f : Func) (a r : Var) : cutBoth ((f.addArgument a).addRetVar r) = some f := by
  simp [cutBoth, cutLast, Func.addArgument, Func.addRetVar]

theorem cutArg_add (f : Func) (a : Var) : cutArg (f.addArgument a) = some f := by
  simp [cutArg, cutLast, Func.addArgument]

theorem mapM_back {ms : List (Str × Func)} {g : Func → Func} {c : Func → Option Func} (h : ∀ f, c (g f) = some f) :
    cutAll c (ms.map fun (n, f) => (n, g f)) = some ms := by
  induction ms with
  | nil => rfl
  | cons p ms ih =>
    rw [List.map_cons]
    simp only [cutAll, h, ih]

theorem mapM_none {ms : List (Str × Func)} {c : Func → Option Func} {n : Str} {f : Func} (hm : (n, f) ∈ ms)
    (hc : c f = none) : cutAll c ms = none := by
  induction ms with
  | nil => cases hm
  | cons p ms ih =>
    obtain ⟨pn, pf⟩ := p
    cases hm with
    | head => simp only [cutAll, hc]
    | tail _ hm => simp only [cutAll, ih hm]; cases c pf <;> rfl

/-- The client side of a tracing plugin gives back the methods that its server side wrapped. -/
theorem client_server {m : Mod} {i j : Iface} (ht : Tracer m) (h : j.methods = (serverIface m i).methods) :
    ∃ j', clientIface m j = some j' ∧ j'.methods = i.methods ∧ j'.base = j.base := by
  rcases ht with rfl | rfl | rfl
  · have e : cutAll cutBoth j.methods = some i.methods := by
      rw [h]; exact mapM_back (fun f => cutBoth_add f _ _)
    exact ⟨⟨_, j.base, i.methods⟩, by simp only [clientIface, e]; rfl, rfl, rfl⟩
  · have e : cutAll cutBoth j.methods = some i.methods := by
      rw [h]; exact mapM_back (fun f => cutBoth_add f _ _)
    exact ⟨⟨_, j.base, i.methods⟩, by simp only [clientIface, e]; rfl, rfl, rfl⟩
  · have e : cutAll cutArg j.methods = some i.methods := by
      rw [h]; exact mapM_back (fun f => cutArg_add f _)
    exact ⟨⟨_, j.base, i.methods⟩, by simp only [clientIface, e]; rfl, rfl, rfl⟩

theorem client_health {m : Mod} {j : Iface} (ht : Tracer m) {r : List Var} (h : (healthName, (⟨[], r⟩ : Func)) ∈ j.methods) :
    clientIface m j = none := by
  rcases ht with rfl | rfl | rfl
  · simp only [clientIface]; rw [mapM_none h rfl]; rfl
  · simp only [clientIface]; rw [mapM_none h rfl]; rfl
  · simp only [clientIface]; rw [mapM_none h rfl]; rfl

theorem setMethod_twice (ms : List (Str × Func)) (n : Str) (f : Func) :
    setMethod (setMethod ms n f) n f = setMethod ms n f := by
  simp [setMethod, List.filter_filter]

theorem lookup_setMethod (ms : List (Str × Func)) (n k : Str) (f : Func) :
    (setMethod ms n f).lookup k = if k = n then some f else ms.lookup k := by
  unfold setMethod
  split
  · next h => subst h; rw [List.lookup_cons, beq_self_eq_true]
  · next h =>
    rw [List.lookup_cons, beq_eq_false_iff_ne.2 h]
    show List.lookup k _ = _
    induction ms with
    | nil => rfl
    | cons p ms ih =>
      obtain ⟨pn, pf⟩ := p
      by_cases hp : pn = n
      · subst hp
        rw [List.filter_cons_of_neg (by simp), List.lookup_cons, beq_eq_false_iff_ne.2 h]
        exact ih
      · rw [List.filter_cons_of_pos (by simpa using hp), List.lookup_cons, List.lookup_cons, ih]

def withHealth (ms : List Mod) (l : List (Str × Func)) : List (Str × Func) :=
  if Mod.health ∈ ms then setMethod l healthName ⟨[], [⟨[], stringT⟩]⟩ else l

theorem stack_full (ms : List Mod) (i x : Iface) (h : x.methods = (serverStack ms i).methods) :
    (TracerBeforeHealth ms → clientStack ms x = none) ∧
    (¬ TracerBeforeHealth ms → ∃ j, clientStack ms x = some j ∧ j.methods = withHealth ms i.methods ∧ j.base = x.base) := by
  induction ms generalizing i with
  | nil => exact ⟨fun h => absurd h not_tbh_nil, fun _ => ⟨x, rfl, by simpa [withHealth, serverStack] using h, rfl⟩⟩
  | cons m c ih =>
    obtain ⟨ih1, ih2⟩ := ih (serverIface m i) h
    refine ⟨?_, ?_⟩
    · intro ht
      by_cases hc : TracerBeforeHealth c
      · simp only [clientStack, ih1 hc, Option.bind_none]
      · obtain ⟨j, hj, hjm, _⟩ := ih2 hc
        obtain ⟨hm, hh⟩ := (tbh_cons.1 ht).resolve_right hc
        simp only [clientStack, hj, Option.bind_some]
        refine client_health hm (r := [⟨[], stringT⟩]) ?_
        rw [hjm, withHealth, if_pos hh]
        exact List.mem_cons_self
    · intro hn
      rw [tbh_cons, not_or] at hn
      obtain ⟨hn1, hn2⟩ := hn
      obtain ⟨j, hj, hjm, hjb⟩ := ih2 hn2
      by_cases ht : Tracer m
      · have hh : Mod.health ∉ c := fun e => hn1 ⟨ht, e⟩
        rw [withHealth, if_neg hh] at hjm
        obtain ⟨j', a1, a2, a3⟩ := client_server ht hjm
        refine ⟨j', by simp only [clientStack, hj, Option.bind_some, a1], ?_, a3.trans hjb⟩
        rw [a2, withHealth, if_neg]
        intro e
        rcases List.mem_cons.1 e with e | e
        · subst e; rcases ht with h | h | h <;> cases h
        · exact hh e
      · cases m with
        | xtrace => exact absurd (.inl rfl) ht
        | govec => exact absurd (.inr (.inl rfl)) ht
        | ot => exact absurd (.inr (.inr rfl)) ht
        | health =>
          refine ⟨j, by simp only [clientStack, hj, Option.bind_some]; rfl, ?_, hjb⟩
          rw [hjm, withHealth, withHealth, if_pos (List.mem_cons_self)]
          simp only [serverIface]
          split
          · exact setMethod_twice _ _ _
          · rfl
        | plain =>
          refine ⟨j, by simp only [clientStack, hj, Option.bind_some]; rfl, ?_, hjb⟩
          rw [hjm]
          simp only [withHealth, serverIface, List.mem_cons, reduceCtorEq, false_or]

theorem lookup_map {β γ : Type} (l : List (Str × β)) (g : β → γ) (n : Str) :
    (l.map fun p => (p.1, g p.2)).lookup n = (l.lookup n).map g := by
  induction l with
  | nil => rfl
  | cons p l ih =>
    rw [List.map_cons, List.lookup_cons, List.lookup_cons, ih]
    cases n == p.1 <;> rfl

/-- What a plugin other than the health checker makes of a signature on the server side. -/
def serverFunc : Mod → Func → Func
  | .xtrace, f => (f.addArgument ⟨"baggage".toList, stringT⟩).addRetVar ⟨[], stringT⟩
  | .govec, f => (f.addArgument ⟨"govecctx".toList, bytesT⟩).addRetVar ⟨[], bytesT⟩
  | .ot, f => f.addArgument ⟨"traceCtx".toList, stringT⟩
  | _, f => f

theorem sig_serverIface {m : Mod} (hm : m ≠ .health) (i : Iface) (n : Str) :
    sig (serverIface m i) n = (sig i n).map (serverFunc m) := by
  cases m with
  | xtrace => exact lookup_map i.methods (serverFunc .xtrace) n
  | govec => exact lookup_map i.methods (serverFunc .govec) n
  | ot => exact lookup_map i.methods (serverFunc .ot) n
  | plain => show sig i n = (sig i n).map _; cases sig i n <;> rfl
  | health => exact absurd rfl hm

theorem passes_serverFunc (m : Mod) (f : Func) : clientPasses m f = types (serverFunc m f) := by
  cases m <;> simp [clientPasses, types, serverFunc, Func.addArgument, Func.addRetVar]

theorem lookup_serverDeclares {m : Mod} (hm : m ≠ .health) (i : Iface) (n : Str) :
    (serverDeclares m i).lookup n = (sig i n).map (clientPasses m) := by
  cases m with
  | xtrace => exact lookup_map i.methods (clientPasses .xtrace) n
  | govec => exact lookup_map i.methods (clientPasses .govec) n
  | ot => exact lookup_map i.methods (clientPasses .ot) n
  | plain => exact lookup_map i.methods (clientPasses .plain) n
  | health => exact absurd rfl hm

theorem lookup_append_none {β : Type} (l r : List (Str × β)) (n : Str) (h : l.lookup n = none) :
    (l ++ r).lookup n = r.lookup n := by
  rw [List.lookup_append, h]; rfl

theorem serverStack_append (a b : List Mod) (i : Iface) : serverStack (a ++ b) i = serverStack b (serverStack a i) := by
  simp [serverStack]

theorem serverStack_base (ms : List Mod) (i : Iface) : (serverStack ms i).base = i.base := by
  induction ms generalizing i with
  | nil => rfl
  | cons m c ih =>
    show (serverStack c (serverIface m i)).base = _
    rw [ih]; cases m <;> rfl

theorem tbh_append {a b : List Mod} (h : TracerBeforeHealth b) : TracerBeforeHealth (a ++ b) := by
  obtain ⟨x, y, z, t, rfl, ht⟩ := h
  exact ⟨a ++ x, y, z, t, by simp, ht⟩

theorem call_other {Val : Type} (xs ys : Nat → Val) (hv : Val) (ms : List Mod) (svc : Str → List Val → Reply Val)
    (n : Str) (args : List Val) (h : n ≠ healthName ∨ Mod.health ∉ ms) : call xs ys hv ms svc n args = svc n args := by
  induction ms generalizing xs ys svc args with
  | nil => rfl
  | cons m c ih =>
    have ih := fun svc args => ih (fun k => xs (k + 1)) (fun k => ys (k + 1)) svc args
      (h.imp id fun h e => h (List.mem_cons_of_mem _ e))
    show clientCall (xs 0) m (fun n args => call (fun k => xs (k + 1)) (fun k => ys (k + 1)) hv c (serverCall (ys 0) hv m svc) n args) n args = _
    cases m with
    | xtrace => simp [clientCall, ih, serverCall]
    | govec => simp [clientCall, ih, serverCall]
    | ot => simp [clientCall, ih, serverCall]
    | plain => simp [clientCall, ih, serverCall]
    | health =>
      have : n ≠ healthName := h.resolve_right (fun e => e List.mem_cons_self)
      simp [clientCall, ih, serverCall, this]

theorem call_health {Val : Type} (xs ys : Nat → Val) (hv : Val) (ms : List Mod) (svc : Str → List Val → Reply Val)
    (h : ¬ TracerBeforeHealth ms) (hh : Mod.health ∈ ms) :
    call xs ys hv ms svc healthName [] = ⟨[], [hv], none⟩ := by
  induction ms generalizing xs ys svc with
  | nil => cases hh
  | cons m c ih =>
    rw [tbh_cons, not_or] at h
    show clientCall (xs 0) m (fun n args => call (fun k => xs (k + 1)) (fun k => ys (k + 1)) hv c (serverCall (ys 0) hv m svc) n args) healthName [] = _
    by_cases hc : Mod.health ∈ c
    · have ih := ih (fun k => xs (k + 1)) (fun k => ys (k + 1)) (serverCall (ys 0) hv m svc) h.2 hc
      cases m with
      | xtrace => exact absurd ⟨.inl rfl, hc⟩ h.1
      | govec => exact absurd ⟨.inr (.inl rfl), hc⟩ h.1
      | ot => exact absurd ⟨.inr (.inr rfl), hc⟩ h.1
      | health => exact ih
      | plain => exact ih
    · have hm : m = .health := by
        rcases List.mem_cons.1 hh with e | e
        · exact e.symm
        · exact absurd e hc
      subst hm
      simp only [clientCall]
      rw [call_other _ _ _ _ _ _ _ (.inr hc)]
      simp [serverCall]

end Verif.Stack
