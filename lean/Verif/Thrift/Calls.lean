import Verif.Thrift.Props
import Verif.Grpc.Props
/-
C96: calls through the generated client and server.
-/
namespace Verif.Thrift
open Verif.Grpc (UserTy Ty Basic FieldDecl Method Val Prim Typed HasType Reach Everywhere Faithful named methodTypes
  InRange Res Out exUser exItem exEnv exPut)

variable {env : UserTy → Option (List FieldDecl)} {ms : List Method} {file : File}
  {pub : List Char → List Char} {svc : List Char} {σ : Type}

/-- A call of one of the methods, with arguments and an implementation of the right types; the
types are those of C95_arguments_partial, and the numbers fit. -/
structure GoodCall (env : UserTy → Option (List FieldDecl)) (ms : List Method) (file : File) (o : Op σ) : Prop where
  method : ∃ m ∈ ms, (m.name, o.req, o.rsp) ∈ file.methods ∧ (∀ v ∈ m.args ++ m.rets, Faithful env v.2) ∧
    SmallInts env (named 0 m.args) o.args ∧
    ∀ s rets, (o.impl s o.args).2 = .ok rets → SmallInts env (named 0 m.rets) rets

/-- What the caller of the client gets for what the implementation returns. -/
def answer (r : Except (List Char) (List (List Char × Val))) : Reply :=
  match r with
  | .ok rets => .results rets
  | .error _ => .error .responseIsNil

/-- **C96**.  For every file that compiles, every method whose arguments and results have types
without pointers, maps, embedded structs and lines with several fields, every implementation,
state and arguments, on a fresh connection: if the reply comes in time, the implementation has
been called once, with the arguments of the client, and the client returns its results, or an
error if it returned one, and the connection is fresh again.  If the request is lost the
implementation is not called; if the reply is lost or late it has been called once.  In these
cases the client returns an error.
Missing for the full property: the types for which C95 is false, the text of errors, and later
calls after a late or lost message, for which it is false (see the refutations). -/
theorem C96_call_partial {n : Nat} (hg : generate env n ms = .ok file) (ha : file.accepted pub svc = true)
    (hnd : (ms.map (·.name)).Nodup) {o : Op σ} (ho : GoodCall env ms file o) (s : σ) :
    ∃ N, ∀ n, N ≤ n → remoteCall file n o.req o.rsp o.impl o.fate ⟨s, 0, false⟩ o.args =
      some (match o.fate with
      | .prompt => ⟨⟨(o.impl s o.args).1, 0, false⟩, [o.args], answer (o.impl s o.args).2⟩
      | .late c => ⟨⟨(o.impl s o.args).1, 1, false⟩, [o.args],
          .error (if c then .deadlineExceeded else .responseIsNil)⟩
      | .lostRequest => ⟨⟨s, 0, true⟩, [], .error .responseIsNil⟩
      | .lostReply => ⟨⟨(o.impl s o.args).1, 0, true⟩, [o.args], .error .responseIsNil⟩) := by
  obtain ⟨m, hm, he, hf, hargs, hrets⟩ := ho.method
  obtain ⟨msg, N, hN⟩ := C95_arguments_partial hg ha hnd hm he (fun v hv => hf v (List.mem_append.2 (Or.inl hv))) hargs
  cases hi : (o.impl s o.args).2 with
  | error e =>
    refine ⟨N, fun n hn => ?_⟩
    obtain ⟨h1, h2⟩ := hN n hn
    have hi' : o.impl s o.args = ((o.impl s o.args).1, .error e) := by rw [← hi]
    have hs : serve file n o.req o.rsp o.impl s msg = some ((o.impl s o.args).1, [o.args], some (.error e)) := by
      simp only [serve, h2]
      rw [hi']
    simp only [remoteCall, h1, hs, Bool.false_eq_true, if_false]
    cases o.fate with
    | late c => cases c <;> rfl
    | _ => rfl
  | ok rets =>
    obtain ⟨rmsg, N', hN'⟩ := C95_results_partial hg ha hnd hm he
      (fun v hv => hf v (List.mem_append.2 (Or.inr hv))) (hrets s rets hi)
    refine ⟨max N N', fun n hn => ?_⟩
    obtain ⟨h1, h2⟩ := hN n (by omega)
    obtain ⟨h3, h4⟩ := hN' n (by omega)
    have hi' : o.impl s o.args = ((o.impl s o.args).1, .ok rets) := by rw [← hi]
    have hs : serve file n o.req o.rsp o.impl s msg = some ((o.impl s o.args).1, [o.args], some (.ok rmsg)) := by
      simp only [serve, h2]
      rw [hi']
      simp only [h3]
    simp only [remoteCall, h1, hs, Bool.false_eq_true, if_false]
    cases o.fate with
    | late c => cases c <;> rfl
    | prompt => simp only [receive, ne_eq, not_true_eq_false, if_false, h4, Option.map_some, answer]
    | _ => rfl

/-- What becomes of calls one after the other if nothing is late or lost: each calls the
implementation once, in the state that the previous one has left, and returns its answer. -/
def direct : σ → List (Op σ) → List (Served σ)
  | _, [] => []
  | s, o :: os => ⟨connected (o.impl s o.args).1, [o.args], answer (o.impl s o.args).2⟩ ::
      direct (o.impl s o.args).1 os

/-- **C96** (histories).  Any number of calls of any methods, one after the other, whose replies
come in time: the service behaves as if it had been called directly. -/
theorem C96_history_partial {n : Nat} (hg : generate env n ms = .ok file) (ha : file.accepted pub svc = true)
    (hnd : (ms.map (·.name)).Nodup) : ∀ (os : List (Op σ)), (∀ o ∈ os, GoodCall env ms file o ∧ o.fate = .prompt) →
      ∀ s, ∃ N, ∀ n, N ≤ n → calls file n (connected s) os = some (direct s os)
  | [], _, _ => ⟨0, fun _ _ => rfl⟩
  | o :: os, h, s => by
    obtain ⟨ho, hp⟩ := h o List.mem_cons_self
    obtain ⟨N, hN⟩ := C96_call_partial hg ha hnd ho s
    obtain ⟨N', hN'⟩ := C96_history_partial hg ha hnd os (fun o ho => h o (List.mem_cons_of_mem _ ho))
      (o.impl s o.args).1
    refine ⟨max N N', fun n hn => ?_⟩
    have h1 := hN n (by omega)
    have h2 := hN' n (by omega)
    simp only [hp, connected] at h1 h2
    simp only [calls, hp, connected, h1, h2, Option.map_some, direct]

/-- **C96** (at most once).  Whatever the types, the connection and the implementation do, a
call of the client leads to at most one call of the implementation; and to exactly one, whose
success it reports, if the client returns results. -/
theorem C96_at_most_once {n : Nat} {req rsp : List Field} {impl : Handler σ} {fate : Fate} {l : Link σ}
    {args : List (List Char × Val)} {r : Served σ} (h : remoteCall file n req rsp impl fate l args = some r) :
    r.calls.length ≤ 1 ∧ (r.calls = [] → r.link.svc = l.svc) ∧ (∀ a, r.calls = [a] → r.link.svc = (impl l.svc a).1) ∧
    ∀ vs, r.reply = .results vs → ∃ a rets msg, r.calls = [a] ∧ (impl l.svc a).2 = .ok rets ∧
      pack file n rsp rets = .ok msg ∧ unpack file n rsp msg = .ok vs := by
  have hserve : ∀ {msg s cs o}, serve file n req rsp impl l.svc msg = some (s, cs, o) →
      cs.length ≤ 1 ∧ (cs = [] → s = l.svc) ∧ (∀ a, cs = [a] → s = (impl l.svc a).1) ∧
      ∀ m, o = some (.ok m) → ∃ a rets, cs = [a] ∧ (impl l.svc a).2 = .ok rets ∧ pack file n rsp rets = .ok m := by
    intro msg s cs o hs
    unfold serve at hs
    repeat' split at hs
    all_goals simp only [Option.some.injEq, Prod.mk.injEq, reduceCtorEq] at hs
    all_goals
      obtain ⟨rfl, rfl, rfl⟩ := hs
      simp only [List.length_nil, List.length_cons, List.cons_ne_nil, List.cons.injEq, and_true,
        Option.some.injEq, reduceCtorEq, false_implies, implies_true, true_and, Nat.zero_le, Nat.zero_add,
        Nat.le_refl, List.nil_eq, forall_eq', Except.ok.injEq]
    · have hi := ‹impl l.svc _ = _›
      rw [hi]
    · have hi := ‹impl l.svc _ = _›
      rw [hi]
    · have hi := ‹impl l.svc _ = _›
      refine ⟨by rw [hi], ?_⟩
      exact ⟨_, _, rfl, by rw [hi], by assumption⟩
  unfold remoteCall at h
  cases hp : pack file n req args with
  | stuck => rw [hp] at h; cases h
  | panic =>
    rw [hp] at h
    simp only [Option.some.injEq] at h
    subst h
    simp
  | ok msg =>
    rw [hp] at h
    simp only at h
    split at h
    · simp only [Option.some.injEq] at h
      subst h
      simp [clientError]
    · split at h
      · simp only [Option.some.injEq] at h
        subst h
        simp [clientError]
      · split at h
        · cases h
        · rename_i s cs hs
          simp only [Option.some.injEq] at h
          subst h
          obtain ⟨h1, h2, h3, _⟩ := hserve hs
          exact ⟨h1, h2, h3, by intro vs hvs; cases hvs⟩
        · rename_i s cs r' hs
          obtain ⟨h1, h2, h3, h4⟩ := hserve hs
          split at h
          · simp only [Option.some.injEq] at h
            subst h
            exact ⟨h1, h2, h3, by intro vs hvs; cases hvs⟩
          · split at h
            all_goals
              simp only [Option.some.injEq] at h
              subst h
              exact ⟨h1, h2, h3, by intro vs hvs; cases hvs⟩
          · cases hr : receive file n rsp l.unread r' with
            | none => rw [hr] at h; cases h
            | some reply =>
              rw [hr] at h
              simp only [Option.map_some, Option.some.injEq] at h
              subst h
              refine ⟨h1, h2, h3, ?_⟩
              intro vs hvs
              simp only at hvs
              subst hvs
              unfold receive at hr
              split at hr
              · cases hr
              · split at hr
                · cases hr
                · split at hr
                  · cases hr
                  · cases hr
                  · rename_i hu
                    simp only [Option.some.injEq, Reply.results.injEq] at hr
                    subst hr
                    obtain ⟨a, rets, h5, h6, h7⟩ := h4 _ rfl
                    exact ⟨a, rets, _, h5, h6, h7, hu⟩

/-- **C96** is false for errors (clientgen.go:124-133).  The text of an error does not reach
the caller: if the implementation returns other errors, the client returns the same.  (The
error of the thrift client is replaced by the error of the context, which is nil, and the
response is then found to be nil.) -/
theorem C96_error_refuted {n : Nat} {req rsp : List Field} {impl impl' : Handler σ} {fate : Fate} {l : Link σ}
    {args : List (List Char × Val)}
    (hi : ∀ s a, impl' s a = impl s a ∨ ∃ s' e e', impl s a = (s', .error e) ∧ impl' s a = (s', .error e')) :
    remoteCall file n req rsp impl' fate l args = remoteCall file n req rsp impl fate l args := by
  unfold remoteCall
  cases pack file n req args with
  | stuck => rfl
  | panic => rfl
  | ok msg =>
    simp only [serve]
    cases unpack file n req msg with
    | stuck => rfl
    | panic => rfl
    | ok a =>
      rcases hi l.svc a with h | ⟨s', e, e', h1, h2⟩
      · simp only [h]
      · simp only [h1, h2, receive]

/-- Where a service returns an error, the caller of the client gets "Response object is nil". -/
theorem C96_error_text {n : Nat} {req rsp : List Field} {impl : Handler σ} {s : σ} {args a : List (List Char × Val)}
    {r : Served σ} (h : remoteCall file n req rsp impl .prompt (connected s) args = some r)
    (hc : r.calls = [a]) {e : List Char} (he : (impl s a).2 = .error e) : r.reply = .error .responseIsNil := by
  unfold remoteCall at h
  cases hp : pack file n req args with
  | stuck => rw [hp] at h; cases h
  | panic =>
    rw [hp] at h
    simp only [Option.some.injEq] at h
    subst h
    cases hc
  | ok msg =>
    rw [hp] at h
    simp only [connected, Bool.false_eq_true, if_false, serve] at h
    cases hu : unpack file n req msg with
    | stuck => rw [hu] at h; cases h
    | panic =>
      rw [hu] at h
      simp only [Option.some.injEq] at h
      subst h
      cases hc
    | ok a' =>
      rw [hu] at h
      simp only at h
      have key : a' = a → r.reply = .error .responseIsNil := by
        rintro rfl
        have hi : impl s a' = ((impl s a').1, .error e) := by rw [← he]
        rw [hi] at h
        simp only [receive, ne_eq, not_true_eq_false, if_false, Option.map_some, Option.some.injEq] at h
        subst h
        rfl
      apply key
      cases hi : impl s a' with
      | mk s' o =>
        cases o with
        | error e' =>
          rw [hi] at h
          simp only [receive, ne_eq, not_true_eq_false, if_false, Option.map_some, Option.some.injEq] at h
          subst h
          exact (List.cons.inj hc).1
        | ok rets =>
          rw [hi] at h
          simp only at h
          cases hpk : pack file n rsp rets with
          | stuck => rw [hpk] at h; cases h
          | panic =>
            rw [hpk] at h
            simp only [Option.some.injEq] at h
            subst h
            exact (List.cons.inj hc).1
          | ok rmsg =>
            rw [hpk] at h
            simp only [receive, ne_eq, not_true_eq_false, if_false] at h
            cases hur : unpack file n rsp rmsg with
            | stuck => rw [hur] at h; cases h
            | panic =>
              rw [hur] at h
              simp only [Option.map_some, Option.some.injEq] at h
              subst h
              exact (List.cons.inj hc).1
            | ok vs =>
              rw [hur] at h
              simp only [Option.map_some, Option.some.injEq] at h
              subst h
              exact (List.cons.inj hc).1

/-- What becomes of calls, all of them answered in time, after a late reply. -/
def outOfStep : σ → List (Op σ) → List (Served σ)
  | _, [] => []
  | s, o :: os => ⟨⟨(o.impl s o.args).1, 1, false⟩, [o.args], .error .responseIsNil⟩ ::
      outOfStep (o.impl s o.args).1 os

theorem out_of_step {n : Nat} (hg : generate env n ms = .ok file) (ha : file.accepted pub svc = true)
    (hnd : (ms.map (·.name)).Nodup) : ∀ (os : List (Op σ)), (∀ o ∈ os, GoodCall env ms file o ∧ o.fate = .prompt) →
      ∀ s, ∃ N, ∀ n, N ≤ n → calls file n ⟨s, 1, false⟩ os = some (outOfStep s os)
  | [], _, _ => ⟨0, fun _ _ => rfl⟩
  | o :: os, h, s => by
    obtain ⟨ho, hp⟩ := h o List.mem_cons_self
    obtain ⟨m, hm, he, hf, hargs, hrets⟩ := ho.method
    obtain ⟨msg, N, hN⟩ := C95_arguments_partial hg ha hnd hm he (fun v hv => hf v (List.mem_append.2 (Or.inl hv))) hargs
    obtain ⟨N', hN'⟩ := out_of_step hg ha hnd os (fun o ho => h o (List.mem_cons_of_mem _ ho)) (o.impl s o.args).1
    have key : ∃ N, ∀ n, N ≤ n → remoteCall file n o.req o.rsp o.impl o.fate ⟨s, 1, false⟩ o.args =
        some ⟨⟨(o.impl s o.args).1, 1, false⟩, [o.args], .error .responseIsNil⟩ := by
      cases hi : (o.impl s o.args).2 with
      | error e =>
        refine ⟨N, fun n hn => ?_⟩
        obtain ⟨h1, h2⟩ := hN n hn
        have hi' : o.impl s o.args = ((o.impl s o.args).1, .error e) := by rw [← hi]
        have hs : serve file n o.req o.rsp o.impl s msg = some ((o.impl s o.args).1, [o.args], some (.error e)) := by
          simp only [serve, h2]
          rw [hi']
        simp only [remoteCall, h1, hp, hs, Bool.false_eq_true, if_false]
        rfl
      | ok rets =>
        obtain ⟨rmsg, N', hN'⟩ := C95_results_partial hg ha hnd hm he
          (fun v hv => hf v (List.mem_append.2 (Or.inr hv))) (hrets s rets hi)
        refine ⟨max N N', fun n hn => ?_⟩
        obtain ⟨h1, h2⟩ := hN n (by omega)
        obtain ⟨h3, h4⟩ := hN' n (by omega)
        have hi' : o.impl s o.args = ((o.impl s o.args).1, .ok rets) := by rw [← hi]
        have hs : serve file n o.req o.rsp o.impl s msg = some ((o.impl s o.args).1, [o.args], some (.ok rmsg)) := by
          simp only [serve, h2]
          rw [hi']
          simp only [h3]
        simp only [remoteCall, h1, hp, hs, Bool.false_eq_true, if_false]
        rfl
    obtain ⟨N'', hN''⟩ := key
    refine ⟨max N' N'', fun n hn => ?_⟩
    have h1 := hN'' n (by omega)
    have h2 := hN' n (by omega)
    simp only [calls, h1, h2, Option.map_some, outOfStep]

/-- **C96** is false for calls after a late reply (clientgen.go:77-109, 120-133).  One call is
answered late; all later ones, however many, are answered in time.  The implementation is
called for each of them, and each of them returns the error "Response object is nil": the
client reads the reply to an earlier call, and never connects again. -/
theorem C96_late_refuted {n : Nat} (hg : generate env n ms = .ok file) (ha : file.accepted pub svc = true)
    (hnd : (ms.map (·.name)).Nodup) {o : Op σ} (ho : GoodCall env ms file o) {c : Bool} (hl : o.fate = .late c)
    {os : List (Op σ)} (hos : ∀ o ∈ os, GoodCall env ms file o ∧ o.fate = .prompt) (s : σ) :
    ∃ N, ∀ n, N ≤ n → calls file n (connected s) (o :: os) =
      some (⟨⟨(o.impl s o.args).1, 1, false⟩, [o.args],
        .error (if c then .deadlineExceeded else .responseIsNil)⟩ :: outOfStep (o.impl s o.args).1 os) := by
  obtain ⟨N, hN⟩ := C96_call_partial hg ha hnd ho s
  obtain ⟨N', hN'⟩ := out_of_step hg ha hnd os hos (o.impl s o.args).1
  refine ⟨max N N', fun n hn => ?_⟩
  have h1 := hN n (by omega)
  have h2 := hN' n (by omega)
  rw [hl] at h1
  simp only [calls, connected, hl, h1, h2, Option.map_some]

/-- **C96** is false for calls after a broken connection (clientgen.go:77-109).  Once a message
has been lost, or the server has crashed, no later call reaches the implementation: the client
never connects again. -/
theorem C96_broken_refuted {n : Nat} : ∀ {os : List (Op σ)} {l : Link σ} {rs : List (Served σ)}, l.broken = true →
    calls file n l os = some rs → ∀ r ∈ rs, r.calls = [] ∧ r.link = l ∧ ∀ vs, r.reply ≠ .results vs
  | [], l, rs, _, h, r, hr => by
    simp only [calls, Option.some.injEq] at h
    subst h
    cases hr
  | o :: os, l, rs, hb, h, r, hr => by
    simp only [calls] at h
    have key : ∀ r', remoteCall file n o.req o.rsp o.impl o.fate l o.args = some r' →
        r'.calls = [] ∧ r'.link = l ∧ ∀ vs, r'.reply ≠ .results vs := by
      intro r' h'
      unfold remoteCall at h'
      split at h'
      · cases h'
      · simp only [Option.some.injEq] at h'
        subst h'
        exact ⟨rfl, rfl, by simp⟩
      · simp only [hb, if_true, Option.some.injEq] at h'
        subst h'
        exact ⟨rfl, rfl, by simp [clientError]⟩
    cases h1 : remoteCall file n o.req o.rsp o.impl o.fate l o.args with
    | none => rw [h1] at h; cases h
    | some r' =>
      rw [h1] at h
      simp only at h
      obtain ⟨k1, k2, k3⟩ := key r' h1
      obtain ⟨rs', hrs', rfl⟩ := Option.map_eq_some_iff.1 h
      rcases List.mem_cons.1 hr with rfl | hr
      · exact ⟨k1, k2, k3⟩
      · rw [k2] at hrs'
        exact C96_broken_refuted hb hrs' r hr

end Verif.Thrift
