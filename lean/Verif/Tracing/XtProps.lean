import Verif.Tracing.XtSpec
/-
C66: X-Trace.
-/
namespace Verif.Tracing.Xt
open Verif.Tracing.Ot

theorem Before.mono {A B : List Event} (h : ∀ e ∈ A, e ∈ B) {a b : List Nat} (hb : Before A a b) : Before B a b := by
  induction hb with
  | parent h1 h2 => exact .parent (h _ h1) h2
  | trans _ _ ih1 ih2 => exact .trans ih1 ih2

/-- What a run in a task does: its events are in the task, after all of `ps`, and have the ids
of the part of the run. -/
structure Traced (t : List Nat) (ps : List (List Nat)) (path : List Nat) (es : List Event) : Prop where
  task : ∀ e ∈ es, e.task = t
  after : ∀ p ∈ ps, ∀ e ∈ es, Before es p e.id
  ids : ∀ e ∈ es, path <+: e.id

theorem logEvent_some (id : List Nat) (text : List Char) (error : Bool) (t : List Nat) (ps : List (List Nat)) :
    logEvent id text error ⟨some t, ps⟩ = (⟨some t, [id]⟩, [⟨id, t, ps, text, error⟩]) := rfl

/-- The event of an error. -/
def errEvents (id : List Nat) (r : Res) (t : List Nat) (ps : List (List Nat)) : List Event :=
  match r.err with
  | some e => [⟨id, t, ps, e, true⟩]
  | none => []

/-- The last events after the event of an error. -/
def errParents (id : List Nat) (r : Res) (ps : List (List Nat)) : List (List Nat) :=
  match r.err with
  | some _ => [id]
  | none => ps

theorem logError_some (id : List Nat) (r : Res) (t : List Nat) (ps : List (List Nat)) :
    logError id r ⟨some t, ps⟩ = (⟨some t, errParents id r ps⟩, errEvents id r t ps) := by
  cases h : r.err <;> simp [logError, h, logEvent, errParents, errEvents]

theorem errEvents_text (id : List Nat) (r : Res) (t : List Nat) (ps : List (List Nat)) :
    (errEvents id r t ps).map (fun e => (e.text, e.error)) = errText r := by
  cases h : r.err <;> simp [errEvents, errText, h]

/-- The events of the server wrapper in a task. -/
def serverEvents (path : List Nat) (m : Method) (t : List Nat) (r : Res) (es : List Event) : List Event :=
  ⟨path ++ [2], t, [path ++ [0]], m.method ++ " start".toList, false⟩ ::
    (es ++ errEvents (path ++ [4]) r t [path ++ [2]] ++
      [⟨path ++ [5], t, errParents (path ++ [4]) r [path ++ [2]], m.method ++ " end".toList, false⟩])

/-- The events of a call in a task: `es` are those of the server. -/
def callEvents (path : List Nat) (m : Method) (t : List Nat) (ps : List (List Nat)) (r : Res)
    (ret : List (List Nat)) (es : List Event) : List Event :=
  ⟨path ++ [0], t, ps, m.method ++ " client call start".toList, false⟩ ::
    (es ++ errEvents (path ++ [6]) r t ((path ++ [0]) :: ret) ++
      [⟨path ++ [7], t, errParents (path ++ [6]) r ((path ++ [0]) :: ret), m.method ++ " client call end".toList, false⟩])

/-- Whether the request arrived. -/
def arrived : Net → Bool
  | .requestLost _ => false
  | _ => true

/-- The events of the server in a call. -/
def servedEvents (path : List Nat) (m : Method) (net : Net) (t : List Nat) (service : Baggage → Res × List Event) :
    List Event :=
  if arrived net then
    serverEvents path m t (service ⟨some t, [path ++ [2]]⟩).1 (service ⟨some t, [path ++ [2]]⟩).2
  else []

/-- What comes back. -/
def back (path : List Nat) (net : Net) (t : List Nat) (service : Baggage → Res × List Event) : Res × Baggage :=
  returned net (service ⟨some t, [path ++ [2]]⟩).1 ⟨some t, [path ++ [5]]⟩

theorem serve_eq (path : List Nat) (m : Method) (net : Net) (t : List Nat) (service : Baggage → Res × List Event) :
    serve path m net ⟨some t, [path ++ [0]]⟩ service =
      ((back path net t service).1, (back path net t service).2, servedEvents path m net t service) := by
  cases net with
  | requestLost r => rfl
  | direct | sent | responseLost r =>
    simp [serve, Baggage.empty, logEvent_some, logError_some, servedEvents, arrived, serverEvents, back]

theorem clientCall_eq (path : List Nat) (m : Method) (net : Net) (t : List Nat) (ps : List (List Nat))
    (service : Baggage → Res × List Event) :
    clientCall path m net ⟨some t, ps⟩ service =
      ((back path net t service).1,
        callEvents path m t ps (back path net t service).1 (back path net t service).2.parents
          (servedEvents path m net t service)) := by
  simp [clientCall, logEvent_some, serve_eq, mergeBaggage, logError_some, callEvents]

theorem back_seen (path : List Nat) (net : Net) (t : List Nat) (service : Baggage → Res × List Event) (callee : Code)
    (h : ∀ b, (service b).1 = (plain callee).1) : (back path net t service).1 = seen net callee := by
  cases net <;> simp [back, returned, seen, h]

/-- **C66** (transparency).  Code that calls instrumented services returns what it returns
without them. -/
theorem C66_transparent (path : List Nat) (b : Baggage) (code : Code) : (run path b code).1 = (plain code).1 := by
  induction code generalizing path b with
  | ret r => rfl
  | log msg k ih =>
    simp only [run]
    exact ih _ _
  | both a c k iha ihc ihk => simp only [run, plain, iha, ihc, ihk]
  | call m net callee k ihc ihk =>
    have h : (clientCall path m net b (fun b' => run (path ++ [3]) b' callee)).1 = seen net callee := by
      show (serve path m net _ (fun b' => run (path ++ [3]) b' callee)).1 = _
      cases net with
      | requestLost r => rfl
      | responseLost r => rfl
      | direct => exact ihc _ _
      | sent => exact ihc _ _
    simp only [run, h, ihk]
    cases net <;> rfl

theorem texts_append (a b : Acts) : texts (a.append b) = texts a ++ texts b := by
  induction a with
  | nil => rfl
  | log m r ih => simp only [Acts.append, texts, ih, List.cons_append]
  | call m seen served sub r _ ih => simp only [Acts.append, texts, ih, List.cons_append, List.append_assoc]

/-- **C66** (events).  In a task, the events of a run are exactly those expected for the calls
that were made. -/
theorem C66_events (path : List Nat) (t : List Nat) (ps : List (List Nat)) (code : Code) :
    (run path ⟨some t, ps⟩ code).2.map (fun e => (e.text, e.error)) = texts (plain code).2 := by
  induction code generalizing path ps with
  | ret r => rfl
  | log msg k ih =>
    simp only [run, logEvent_some, List.map_append, ih]
    rfl
  | both a c k iha ihc ihk =>
    simp only [run, List.map_append, iha, ihc, ihk, C66_transparent]
    simp only [plain, texts_append]
  | call m net callee k ihc ihk =>
    have hb := back_seen path net t (fun b' => run (path ++ [3]) b' callee) callee (fun b => C66_transparent _ b callee)
    have hs : (servedEvents path m net t (fun b' => run (path ++ [3]) b' callee)).map (fun e => (e.text, e.error)) =
        if arrived net then (m.method ++ " start".toList, false) :: texts (plain callee).2 ++ errText (plain callee).1 ++
          [(m.method ++ " end".toList, false)] else [] := by
      simp only [servedEvents, serverEvents]
      split
      · simp only [List.map_cons, List.map_append, ihc, errEvents_text, C66_transparent, List.map_nil, List.cons_append]
      · rfl
    simp only [run, clientCall_eq, callEvents, List.map_append, List.map_cons, List.map_nil, ihk, hb, hs, errEvents_text]
    cases net <;> simp [plain, texts, arrived, seen]

theorem errEvents_mem {id : List Nat} {r : Res} {t : List Nat} {ps : List (List Nat)} {e : Event}
    (h : e ∈ errEvents id r t ps) : e.task = t ∧ e.parents = ps ∧ e.id = id ∧ errParents id r ps = [id] := by
  cases hr : r.err with
  | none => simp [errEvents, hr] at h
  | some x =>
    simp only [errEvents, hr, List.mem_singleton] at h
    subst h
    exact ⟨rfl, rfl, rfl, by simp [errParents, hr]⟩

/-- The last event after an error comes after the last ones before it. -/
theorem err_after {id : List Nat} {r : Res} {t : List Nat} {ps : List (List Nat)} {A : List Event} {e : Event}
    (he : e ∈ A) (hp : e.parents = errParents id r ps) (hin : ∀ x ∈ errEvents id r t ps, x ∈ A) {p : List Nat}
    (hps : p ∈ ps) : Before A p e.id := by
  cases hr : r.err with
  | none =>
    simp only [errParents, hr] at hp
    exact .parent he (by rw [hp]; exact hps)
  | some x =>
    simp only [errParents, hr] at hp
    simp only [errEvents, hr, List.mem_singleton, forall_eq] at hin
    refine .trans (.parent hin hps) (.parent he (by rw [hp]; simp))

/-- The events of the server, below the event `path ++ [0]`. -/
theorem serverEvents_traced {path : List Nat} {m : Method} {t : List Nat} {r : Res} {es : List Event}
    (h : Traced t [path ++ [2]] (path ++ [3]) es) : Traced t [path ++ [0]] path (serverEvents path m t r es) := by
  have e2 : Before (serverEvents path m t r es) (path ++ [0]) (path ++ [2]) :=
    .parent (e := ⟨path ++ [2], t, [path ++ [0]], m.method ++ " start".toList, false⟩) List.mem_cons_self (by simp)
  have hin : ∀ x ∈ errEvents (path ++ [4]) r t [path ++ [2]], x ∈ serverEvents path m t r es := by
    intro x hx
    simp [serverEvents, hx]
  refine ⟨?_, ?_, ?_⟩
  · intro e he
    simp only [serverEvents, List.mem_cons, List.mem_append, List.not_mem_nil, or_false] at he
    rcases he with rfl | (he | he) | rfl
    · rfl
    · exact h.task e he
    · exact (errEvents_mem he).1
    · rfl
  · intro p hp e he
    rw [List.mem_singleton.1 hp]
    have he' := he
    simp only [serverEvents, List.mem_cons, List.mem_append, List.not_mem_nil, or_false] at he
    rcases he with rfl | (he | he) | rfl
    · exact e2
    · exact .trans e2 ((h.after _ (by simp) e he).mono (fun x hx => by simp [serverEvents, hx]))
    · refine .trans e2 (.parent he' ?_)
      rw [(errEvents_mem he).2.1]
      simp
    · exact .trans e2 (err_after he' rfl hin (by simp))
  · intro e he
    simp only [serverEvents, List.mem_cons, List.mem_append, List.not_mem_nil, or_false] at he
    rcases he with rfl | (he | he) | rfl
    · exact List.prefix_append _ _
    · exact (List.prefix_append _ _).trans (h.ids e he)
    · rw [(errEvents_mem he).2.2.1]
      exact List.prefix_append _ _
    · exact List.prefix_append _ _

theorem callEvents_traced {path : List Nat} {m : Method} {t : List Nat} {ps ret : List (List Nat)} {r : Res}
    {es : List Event} (h : Traced t [path ++ [0]] path es) : Traced t ps path (callEvents path m t ps r ret es) := by
  have hin : ∀ x ∈ errEvents (path ++ [6]) r t ((path ++ [0]) :: ret), x ∈ callEvents path m t ps r ret es := by
    intro x hx
    simp [callEvents, hx]
  refine ⟨?_, ?_, ?_⟩
  · intro e he
    simp only [callEvents, List.mem_cons, List.mem_append, List.not_mem_nil, or_false] at he
    rcases he with rfl | (he | he) | rfl
    · rfl
    · exact h.task e he
    · exact (errEvents_mem he).1
    · rfl
  · intro p hp e he
    have e0 : Before (callEvents path m t ps r ret es) p (path ++ [0]) :=
      .parent (e := ⟨path ++ [0], t, ps, m.method ++ " client call start".toList, false⟩) List.mem_cons_self hp
    have he' := he
    simp only [callEvents, List.mem_cons, List.mem_append, List.not_mem_nil, or_false] at he
    rcases he with rfl | (he | he) | rfl
    · exact e0
    · exact .trans e0 ((h.after _ (by simp) e he).mono (fun x hx => by simp [callEvents, hx]))
    · refine .trans e0 (.parent he' ?_)
      rw [(errEvents_mem he).2.1]
      simp
    · exact .trans e0 (err_after he' rfl hin (by simp))
  · intro e he
    simp only [callEvents, List.mem_cons, List.mem_append, List.not_mem_nil, or_false] at he
    rcases he with rfl | (he | he) | rfl
    · exact List.prefix_append _ _
    · exact h.ids e he
    · rw [(errEvents_mem he).2.2.1]
      exact List.prefix_append _ _
    · exact List.prefix_append _ _

theorem Traced.nil (t : List Nat) (ps : List (List Nat)) (path : List Nat) : Traced t ps path [] :=
  ⟨by simp, by simp, by simp⟩

theorem Traced.append {t : List Nat} {ps : List (List Nat)} {path : List Nat} {A B : List Event}
    (ha : Traced t ps path A) (hb : Traced t ps path B) : Traced t ps path (A ++ B) := by
  refine ⟨?_, ?_, ?_⟩
  · intro e he
    rcases List.mem_append.1 he with h | h
    · exact ha.task e h
    · exact hb.task e h
  · intro p hp e he
    rcases List.mem_append.1 he with h | h
    · exact (ha.after p hp e h).mono (fun x hx => List.mem_append.2 (Or.inl hx))
    · exact (hb.after p hp e h).mono (fun x hx => List.mem_append.2 (Or.inr hx))
  · intro e he
    rcases List.mem_append.1 he with h | h
    · exact ha.ids e h
    · exact hb.ids e h

theorem Traced.up {t : List Nat} {ps : List (List Nat)} {path : List Nat} {a : Nat} {A : List Event}
    (h : Traced t ps (path ++ [a]) A) : Traced t ps path A :=
  ⟨h.task, h.after, fun e he => (List.prefix_append _ _).trans (h.ids e he)⟩

theorem run_traced (path : List Nat) (t : List Nat) (ps : List (List Nat)) (code : Code) :
    Traced t ps path (run path ⟨some t, ps⟩ code).2 := by
  induction code generalizing path ps with
  | ret r => exact Traced.nil _ _ _
  | log msg k ih =>
    simp only [run, logEvent_some]
    have h := ih (path ++ [1]) [path ++ [0]]
    refine ⟨?_, ?_, ?_⟩
    · intro e he
      rcases List.mem_cons.1 he with rfl | he
      · rfl
      · exact h.task e he
    · intro p hp e he
      have e0 : Before ([⟨path ++ [0], t, ps, "INFO: ".toList ++ msg, false⟩] ++
          (run (path ++ [1]) ⟨some t, [path ++ [0]]⟩ k).2) p (path ++ [0]) :=
        .parent (e := ⟨path ++ [0], t, ps, "INFO: ".toList ++ msg, false⟩) (by simp) hp
      rcases List.mem_cons.1 he with rfl | he
      · exact e0
      · exact .trans e0 ((h.after _ (by simp) e he).mono (fun x hx => List.mem_append.2 (Or.inr hx)))
    · intro e he
      rcases List.mem_cons.1 he with rfl | he
      · exact List.prefix_append _ _
      · exact (List.prefix_append _ _).trans (h.ids e he)
  | both a c k iha ihc ihk =>
    simp only [run]
    exact ((iha _ ps).up.append (ihc _ ps).up).append (ihk _ _ _ ps).up
  | call m net callee k ihc ihk =>
    simp only [run, clientCall_eq]
    refine Traced.append ?_ (ihk _ _ ps).up
    refine callEvents_traced ?_
    simp only [servedEvents]
    split
    · exact serverEvents_traced (ihc _ _)
    · exact Traced.nil _ _ _

/-- **C66** (task).  All events of a run, in whatever service, belong to the task of the
caller, and come after the last events of the caller. -/
theorem C66_task (path : List Nat) (t : List Nat) (ps : List (List Nat)) (code : Code) (e : Event)
    (he : e ∈ (run path ⟨some t, ps⟩ code).2) :
    e.task = t ∧ ∀ p ∈ ps, Before (run path ⟨some t, ps⟩ code).2 p e.id :=
  ⟨(run_traced path t ps code).task e he, fun p hp => (run_traced path t ps code).after p hp e he⟩

/-- **C66** (calls).  If a method returned without error and the response arrived, then the
events of the call are in causal order: the client's start, the server's start, the server's
end, the client's end; and everything that the method did comes after the server's start. -/
theorem C66_call (path : List Nat) (t : List Nat) (ps : List (List Nat)) (m : Method) (net : Net) (callee : Code)
    (hnet : net = .direct ∨ net = .sent ∧ (plain callee).1.err = none) :
    ∃ (e1 e2 e3 e4 : Event) (sub : List Event),
      let es := (clientCall path m net ⟨some t, ps⟩ (fun b => run (path ++ [3]) b callee)).2
      e1 ∈ es ∧ e2 ∈ es ∧ e3 ∈ es ∧ e4 ∈ es ∧ (∀ e ∈ sub, e ∈ es) ∧
      e1.text = m.method ++ " client call start".toList ∧ e2.text = m.method ++ " start".toList ∧
      e3.text = m.method ++ " end".toList ∧ e4.text = m.method ++ " client call end".toList ∧
      sub.map (fun e => (e.text, e.error)) = texts (plain callee).2 ∧
      Before es e1.id e2.id ∧ Before es e2.id e3.id ∧ Before es e3.id e4.id ∧ ∀ e ∈ sub, Before es e2.id e.id := by
  have harr : arrived net = true := by
    rcases hnet with rfl | ⟨rfl, _⟩ <;> rfl
  have hret : (back path net t (fun b => run (path ++ [3]) b callee)).2.parents = [path ++ [5]] := by
    rcases hnet with rfl | ⟨rfl, h⟩
    · rfl
    · simp [back, returned, C66_transparent, h]
  have heq := clientCall_eq path m net t ps (fun b => run (path ++ [3]) b callee)
  rw [hret] at heq
  simp only [servedEvents, harr, if_true] at heq
  rw [heq]
  generalize hsub : (run (path ++ [3]) ⟨some t, [path ++ [2]]⟩ callee).2 = sub
  generalize hr : (run (path ++ [3]) ⟨some t, [path ++ [2]]⟩ callee).1 = r
  generalize hr' : (back path net t (fun b => run (path ++ [3]) b callee)).1 = r'
  refine ⟨⟨path ++ [0], t, ps, m.method ++ " client call start".toList, false⟩,
    ⟨path ++ [2], t, [path ++ [0]], m.method ++ " start".toList, false⟩,
    ⟨path ++ [5], t, errParents (path ++ [4]) r [path ++ [2]], m.method ++ " end".toList, false⟩,
    ⟨path ++ [7], t, errParents (path ++ [6]) r' [path ++ [0], path ++ [5]], m.method ++ " client call end".toList, false⟩,
    sub, ?_⟩
  have m2 : (⟨path ++ [2], t, [path ++ [0]], m.method ++ " start".toList, false⟩ : Event) ∈
      callEvents path m t ps r' [path ++ [5]] (serverEvents path m t r sub) := by
    simp [callEvents, serverEvents]
  have m3 : (⟨path ++ [5], t, errParents (path ++ [4]) r [path ++ [2]], m.method ++ " end".toList, false⟩ : Event) ∈
      callEvents path m t ps r' [path ++ [5]] (serverEvents path m t r sub) := by
    simp [callEvents, serverEvents]
  have m4 : (⟨path ++ [7], t, errParents (path ++ [6]) r' [path ++ [0], path ++ [5]],
      m.method ++ " client call end".toList, false⟩ : Event) ∈
      callEvents path m t ps r' [path ++ [5]] (serverEvents path m t r sub) := by
    simp [callEvents]
  have ms : ∀ e ∈ sub, e ∈ callEvents path m t ps r' [path ++ [5]] (serverEvents path m t r sub) := by
    intro e he
    simp [callEvents, serverEvents, he]
  refine ⟨List.mem_cons_self, m2, m3, m4, ms, rfl, rfl, rfl, rfl, ?_, ?_, ?_, ?_, ?_⟩
  · rw [← hsub]
    exact C66_events _ _ _ _
  · exact .parent m2 (by simp)
  · exact err_after (t := t) m3 rfl (fun x hx => by simp [callEvents, serverEvents, hx]) (by simp)
  · exact err_after (t := t) m4 rfl (fun x hx => by simp [callEvents, hx]) (by simp)
  · intro e he
    have := (run_traced (path ++ [3]) t [path ++ [2]] callee).after _ (List.mem_singleton_self _) e (by rw [hsub]; exact he)
    rw [hsub] at this
    exact this.mono ms

/-- A set that contains all parents of its events contains everything before them. -/
theorem Before.closed {es : List Event} (X : List (List Nat))
    (hX : ∀ e ∈ es, e.id ∈ X → ∀ p ∈ e.parents, p ∈ X) {a b : List Nat} (h : Before es a b) : b ∈ X → a ∈ X := by
  induction h with
  | parent h1 h2 => exact fun hb => hX _ h1 hb _ h2
  | trans _ _ ih1 ih2 => exact fun hb => ih1 (ih2 hb)

/-- **C66** does not hold for what follows a call: the generated client wrapper cannot return
its context, so what the caller does after a call does not come after what the server did. -/
theorem C66_after_call_refuted : ∃ (t : List Nat) (ps : List (List Nat)) (code : Code) (e1 e2 : Event),
    e1 ∈ (run [] ⟨some t, ps⟩ code).2 ∧ e2 ∈ (run [] ⟨some t, ps⟩ code).2 ∧
    e1.text = "f end".toList ∧ e2.text = "INFO: done".toList ∧
    ¬Before (run [] ⟨some t, ps⟩ code).2 e1.id e2.id := by
  refine ⟨[], [[9]], .call ⟨['a'], ['a'], ['f']⟩ .sent (.ret ⟨[1], none⟩) fun _ => .log "done".toList (.ret ⟨[], none⟩),
    ⟨[5], [], [[2]], "f end".toList, false⟩, ⟨[8, 0], [], [[9]], "INFO: done".toList, false⟩,
    by decide +kernel, by decide +kernel, rfl, rfl, ?_⟩
  intro h
  exact absurd (h.closed [[8, 0], [9]] (by decide +kernel) (by decide)) (by decide)

/-- **C66** does not hold for calls within a method: for the same reason, the end of a method
does not come after the end of the calls that it made. -/
theorem C66_nested_refuted : ∃ (t : List Nat) (ps : List (List Nat)) (code : Code) (e1 e2 : Event),
    e1 ∈ (run [] ⟨some t, ps⟩ code).2 ∧ e2 ∈ (run [] ⟨some t, ps⟩ code).2 ∧
    e1.text = "g end".toList ∧ e2.text = "f end".toList ∧
    ¬Before (run [] ⟨some t, ps⟩ code).2 e1.id e2.id := by
  refine ⟨[], [[9]], .call ⟨['a'], ['a'], ['f']⟩ .sent
      (.call ⟨['b'], ['b'], ['g']⟩ .sent (.ret ⟨[1], none⟩) fun r => .ret r) .ret,
    ⟨[3, 5], [], [[3, 2]], "g end".toList, false⟩, ⟨[5], [], [[2]], "f end".toList, false⟩,
    by decide +kernel, by decide +kernel, rfl, rfl, ?_⟩
  intro h
  exact absurd (h.closed [[5], [2], [0], [9]] (by decide +kernel) (by decide)) (by decide)

/-- **C66** does not hold for errors: if the method returns an error over the network, the
client's end does not come after the server's end, because the baggage that the server
returns with the error is dropped. -/
theorem C66_error_refuted : ∃ (t : List Nat) (ps : List (List Nat)) (code : Code) (e1 e2 : Event),
    e1 ∈ (run [] ⟨some t, ps⟩ code).2 ∧ e2 ∈ (run [] ⟨some t, ps⟩ code).2 ∧
    e1.text = "f end".toList ∧ e2.text = "f client call end".toList ∧
    ¬Before (run [] ⟨some t, ps⟩ code).2 e1.id e2.id := by
  refine ⟨[], [[9]], .call ⟨['a'], ['a'], ['f']⟩ .sent (.ret ⟨[], some "no".toList⟩) .ret,
    ⟨[5], [], [[4]], "f end".toList, false⟩, ⟨[7], [], [[6]], "f client call end".toList, false⟩,
    by decide +kernel, by decide +kernel, rfl, rfl, ?_⟩
  intro h
  exact absurd (h.closed [[7], [6], [0], [9]] (by decide +kernel) (by decide)) (by decide)

/-- Without a task, the server starts one. -/
example : (run [] .empty (.call ⟨['a'], ['a'], ['f']⟩ .sent (.ret ⟨[1], none⟩) .ret)).2 =
    [⟨[2], [1], [], "f start".toList, false⟩, ⟨[5], [1], [[2]], "f end".toList, false⟩,
      ⟨[7], [1], [[5]], "f client call end".toList, false⟩] := by
  decide +kernel

example : (run [] ⟨some [0], [[9]]⟩ (.call ⟨['a'], ['a'], ['f']⟩ .sent (.log "x".toList (.ret ⟨[1], none⟩)) .ret)).2 =
    [⟨[0], [0], [[9]], "f client call start".toList, false⟩, ⟨[2], [0], [[0]], "f start".toList, false⟩,
      ⟨[3, 0], [0], [[2]], "INFO: x".toList, false⟩, ⟨[5], [0], [[2]], "f end".toList, false⟩,
      ⟨[7], [0], [[0], [5]], "f client call end".toList, false⟩] := by
  decide +kernel

end Verif.Tracing.Xt
